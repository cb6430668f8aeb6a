import Verif.Proofs.CompExpr
/-
Completeness of the parser, fourth part: statements.
-/
namespace Blang
open Spec

theorem Knows.vs {E : Env} {c : CState} (h : Knows E c) : VS E.Var c := by
  intro x
  unfold Env.Var
  rw [h.locals x, h.exts x]

theorem Tr.knows {α : Type} {E E' : Env} {f : B α} {W : Prop} {Φ : α → Prop} {c c' : CState} {a : α} (h : Tr E f W E' Φ) (hc : Knows E c)
    (he : f c = .ok a c') : Knows E' c' := ((h c hc).2 a c' he).2.1

/-! ### the test for `else` -/

theorem readElse_total (es : List Char) : ∀ (rc m : List Char), ∃ r l', readElse es rc ⟨m, .eof⟩ = .ok r l' ∧ l'.tail = .eof := by
  induction es with
  | nil => intro rc m; exact ⟨_, _, rfl, rfl⟩
  | cons e es ih =>
    intro rc m
    unfold readElse
    cases m with
    | nil => exact ⟨_, _, rfl, rfl⟩
    | cons d m =>
      rw [M.bind_ok (readChar_cons _ _ _)]
      dsimp only
      split
      · exact ⟨_, _, rfl, rfl⟩
      · exact ih _ _

theorem tryElse_total (m : List Char) : ∃ r l', tryElse ⟨m, .eof⟩ = .ok r l' := by
  unfold tryElse
  obtain ⟨r, l', h1, h2⟩ := readElse_total ['e', 'l', 's', 'e'] [] m
  rw [M.bind_ok h1]
  obtain ⟨m', t⟩ := l'
  cases h2
  have : ∃ r2 l2, afterElse r ⟨m', .eof⟩ = .ok r2 l2 := by
    unfold afterElse
    split
    · cases m' with
      | nil => exact ⟨_, _, rfl⟩
      | cons d m' => exact ⟨_, _, rfl⟩
    · exact ⟨_, _, rfl⟩
  obtain ⟨r2, l2, h3⟩ := this
  rw [M.bind_ok h3]
  split
  · exact ⟨_, _, rfl⟩
  · rw [M.bind_ok (unreadAll_ok _ _)]; exact ⟨_, _, rfl⟩

/-- the next token is `else` -/
def ElsHead (us : List Tok) : Prop := ∃ r, us = .els :: r

theorem else_word {w r x : List Char} {d : Option Char} (h1 : ∀ c ∈ w, IdentChar c) (h2 : NotStarting IdentChar r)
    (h3 : w ≠ "else".toList ∧ ¬ "else_".toList <+: w) (e : w ++ r = 'e' :: 'l' :: 's' :: 'e' :: x)
    (hd : d = x.head?) (hx : ∀ c, d = some c → ¬ Letter c ∧ ¬ Digit c) : False := by
  have hr : ∀ c y, r = c :: y → ¬ IdentChar c := by
    intro c y hc hi; subst hc; exact h2 hi
  rcases w with _ | ⟨a, w⟩
  · simp at e; exact hr _ _ e (by decide)
  simp at e; obtain ⟨rfl, e⟩ := e
  rcases w with _ | ⟨a, w⟩
  · simp at e; exact hr _ _ e (by decide)
  simp at e; obtain ⟨rfl, e⟩ := e
  rcases w with _ | ⟨a, w⟩
  · simp at e; exact hr _ _ e (by decide)
  simp at e; obtain ⟨rfl, e⟩ := e
  rcases w with _ | ⟨a, w⟩
  · simp at e; exact hr _ _ e (by decide)
  simp at e; obtain ⟨rfl, e⟩ := e
  rcases w with _ | ⟨a, w⟩
  · exact h3.1 rfl
  · simp at e
    subst hd
    obtain ⟨n1, n2⟩ := hx a (by rw [← e]; rfl)
    rcases h1 a (by simp) with h | h | h
    · exact n1 h
    · exact n2 h
    · subst h; exact h3.2 ⟨w, rfl⟩

theorem tryElse_no {m : List Char} {us : List Tok} (h : TextE m us) (hn : ¬ ElsHead us) :
    tryElse ⟨m, .eof⟩ = .ok false ⟨m, .eof⟩ := by
  obtain ⟨b, l', hb⟩ := tryElse_total m
  rcases tryElse_ok hb with ⟨rfl, h1, h2⟩ | ⟨rfl, h1, _⟩
  · exfalso
    obtain ⟨x, d, e, hx⟩ : ∃ x d, m = 'e' :: 'l' :: 's' :: 'e' :: x ∧ d = x.head? ∧ ∀ c, d = some c → ¬ Letter c ∧ ¬ Digit c := by
      revert h1
      generalize l'.chars = r
      intro h1
      cases h1 with
      | els hq =>
        refine ⟨_, _, rfl, rfl, fun c hc => ?_⟩
        simp at hc; subst hc
        exact ⟨fun h => letter_not_blank h hq, fun h => digit_not_blank h hq⟩
      | elsEnd => exact ⟨[], _, rfl, rfl, fun c hc => by simp at hc⟩
      | elsQuirk _ n1 n2 =>
        refine ⟨_, _, rfl, rfl, fun c hc => ?_⟩
        simp at hc; subst hc
        exact ⟨n1, n2⟩
    cases us with
    | nil => rw [text_nil h] at e; cases e
    | cons t us =>
      have h' := h
      obtain ⟨rr, h1, _, _⟩ := text_inv h
      obtain ⟨ch, y, e', hc⟩ := lexes_first h1.quirk
      rw [e] at e'; cases e'
      cases t with
      | num | chr | str => simp only at hc; revert hc; decide
      | els => exact hn ⟨_, rfl⟩
      | sym s => exact absurd hc.1 ((by decide : ∀ s ∈ symbols, s.head? ≠ some 'e') s hc.2)
      | word w =>
        obtain ⟨r, e2, _, i1, i2, i3, _⟩ := text_word h'
        exact else_word i1 i2 i3 (e2.symm.trans e) hx.1 hx.2
      | head w =>
        obtain ⟨r, e2, _, i1, i2, _, i3, _⟩ := text_head h'
        exact else_word i1 i2 i3.1 (e2.symm.trans e) hx.1 hx.2
      | defn w =>
        obtain ⟨r, hl, hp, _⟩ := text_inv h'
        obtain ⟨r, e2, _, i1, i2, _⟩ := text_defn h'
        exact else_word i1 i2 hp (e2.symm.trans e) hx.1 hx.2
  · rw [hb, h1]

theorem tryElse_yes {m : List Char} {us : List Tok} (h : TextE m (.els :: us)) :
    ∃ r, tryElse ⟨m, .eof⟩ = .ok true ⟨r, .eof⟩ ∧ SpacedE r us := by
  rcases text_els h with ⟨b, r, hb, rfl, hr⟩ | ⟨rfl, hr⟩
  · refine ⟨r, ?_, hr⟩
    unfold tryElse
    have e1 : readElse ['e', 'l', 's', 'e'] [] ⟨'e' :: 'l' :: 's' :: 'e' :: b :: r, .eof⟩ = .ok (true, ['e', 'l', 's', 'e']) ⟨b :: r, .eof⟩ := rfl
    rw [M.bind_ok e1]
    have e2 : afterElse (true, ['e', 'l', 's', 'e']) ⟨b :: r, .eof⟩ = .ok (true, ['e', 'l', 's', 'e', b]) ⟨r, .eof⟩ := by
      unfold afterElse
      rw [if_pos rfl, M.bind_ok (readChar_cons _ _ _)]
      have n1 : isLetter b = false := (isLetter_false b).2 hb.1
      have n2 : isDigit b = false := (isDigit_false b).2 hb.2
      dsimp only
      rw [n1, n2]; rfl
    rw [M.bind_ok e2]
    rfl
  · exact ⟨[], rfl, hr⟩

/-! ### lexical parts of statements -/

theorem orMsg_of {α : Type} {f : L α} {m : String} {l l' : Lex} {a : α} (h : f l = .ok a l') : orMsg f m l = .ok a l' := by
  unfold orMsg; rw [h]

theorem identOr_text {l w : List Char} {ts : List Tok} {msg : String} (h : SpacedE l (.word w :: ts)) :
    ∃ r, identOr msg ⟨l, .eof⟩ = .ok w ⟨r, .eof⟩ ∧ After (.word w) r ts := by
  obtain ⟨lay, m, rfl, hl, hm⟩ := h
  obtain ⟨r, rfl, h1, h2, h3, _, h4⟩ := text_word hm
  refine ⟨r, ?_, h4⟩
  unfold identOr
  rw [M.bind_ok (orMsg_of (ident_text hl rfl h1 h2 h3)), if_neg h1]
  rfl

/-- reading a symbol of one character -/
theorem ws_re {l : List Char} {ch : Char} {ts : List Tok} (h : SpacedE l (.sym [ch] :: ts)) :
    ∃ r, After (.sym [ch]) r ts ∧ whitespace ⟨l, .eof⟩ = .ok () ⟨ch :: r, .eof⟩ := by
  obtain ⟨m, hm, hw⟩ := h.ws
  obtain ⟨r, rfl, _, _, ha⟩ := text_sym hm
  exact ⟨r, ha, hw⟩

theorem const_text {m : List Char} {t : Tok} {v : Word} {ts : List Tok} (h : TextE m (t :: ts)) (hc : CGram t v) :
    ∃ ch r r', m = ch :: r ∧ After t r' ts ∧ ((ch = '\'' ∧ character ⟨r, .eof⟩ = .ok v ⟨r', .eof⟩) ∨
      (Digit ch ∧ number ⟨m, .eof⟩ = .ok v ⟨r', .eof⟩)) := by
  cases hc with
  | num =>
    obtain ⟨r, rfl, h1, h2, h3, h4⟩ := text_num h
    rename_i ds
    cases ds with
    | nil => exact absurd rfl h1
    | cons d ds => exact ⟨d, _, r, rfl, h4, .inr ⟨h2 d (by simp), number_text h1 h2 h3⟩⟩
  | chr =>
    obtain ⟨t, r, rfl, h1, h2, h3⟩ := text_chr h
    exact ⟨'\'', _, r, rfl, h3, .inl ⟨rfl, character_text h1 h2 r⟩⟩

theorem caseConst_text {m : List Char} {t : Tok} {v : Word} {ts : List Tok} (h : TextE m (t :: ts)) (hc : CGram t v) :
    ∃ r, caseConst ⟨m, .eof⟩ = .ok v ⟨r, .eof⟩ ∧ After t r ts := by
  obtain ⟨ch, r, r', rfl, ha, hq⟩ := const_text h hc
  clear h
  rcases hq with h | h
  · obtain ⟨rfl, h⟩ := h
    refine ⟨r', ?_, ha⟩
    unfold caseConst
    rw [M.bind_ok (readOrErr_cons _ _ _), if_pos rfl, h]
  · obtain ⟨hd, h⟩ := h
    refine ⟨r', ?_, ha⟩
    unfold caseConst
    rw [M.bind_ok (readOrErr_cons _ _ _), if_neg (digit_ne hd (by decide)), if_pos ((isDigit_iff ch).2 hd), M.bind_ok (unreadChar_apply _ _ _)]
    exact h

theorem autoSize_text {m : List Char} {t : Tok} {v : Word} {ts : List Tok} (h : SpacedE m (t :: .sym [']'] :: ts)) (hc : CGram t v) :
    ∃ r, autoSize ⟨m, .eof⟩ = .ok v ⟨r, .eof⟩ ∧ After (.sym [']']) r ts := by
  obtain ⟨m, hm, hw⟩ := h.ws
  have fin : ∀ r', After t r' (.sym [']'] :: ts) → ∃ r, (do
      whitespace
      expectChar ']' "expect ']' after array size"
      pure v : L W) ⟨r', .eof⟩ = .ok v ⟨r, .eof⟩ ∧ After (.sym [']']) r ts := by
    intro r' ha
    obtain ⟨r, ha, hw⟩ := ws_re ha.spaced
    refine ⟨r, ?_, ha⟩
    rw [M.bind_ok hw, M.bind_ok (expectChar_cons _ _ _ _)]
    rfl
  obtain ⟨ch, r, r', rfl, ha, h | h⟩ := const_text hm hc
  · obtain ⟨rfl, h⟩ := h
    obtain ⟨r2, e2, h2⟩ := fin r' ha
    refine ⟨r2, ?_, h2⟩
    unfold autoSize
    rw [M.bind_ok hw, M.bind_ok (readOrErr_cons _ _ _), if_pos (by decide)]
    have : sizeConst '\'' ⟨r, .eof⟩ = .ok v ⟨r', .eof⟩ := by unfold sizeConst; rw [if_pos rfl, h]
    rw [M.bind_ok this, e2]
  · obtain ⟨hd, h⟩ := h
    obtain ⟨r2, e2, h2⟩ := fin r' ha
    refine ⟨r2, ?_, h2⟩
    unfold autoSize
    rw [M.bind_ok hw, M.bind_ok (readOrErr_cons _ _ _), if_pos (digit_ne hd (by decide))]
    have : sizeConst ch ⟨r, .eof⟩ = .ok v ⟨r', .eof⟩ := by
      unfold sizeConst; rw [if_neg (digit_ne hd (by decide)), M.bind_ok (unreadChar_apply _ _ _)]; exact h
    rw [M.bind_ok this, e2]

theorem autoSize_none {m : List Char} {ts : List Tok} (h : SpacedE m (.sym [']'] :: ts)) :
    ∃ r, autoSize ⟨m, .eof⟩ = .ok 0 ⟨r, .eof⟩ ∧ After (.sym [']']) r ts := by
  obtain ⟨r, ha, hw⟩ := ws_re h
  refine ⟨r, ?_, ha⟩
  unfold autoSize
  rw [M.bind_ok hw, M.bind_ok (readOrErr_cons _ _ _), if_neg (by simp)]
  rfl

/-! ### `auto` and `extrn` -/

theorem autoCheck_cons (seen : List Name) (d : Name × Option Word) (ds : List (Name × Option Word)) (c : CState) :
    autoCheck seen (d :: ds) c = if d.1 ∈ seen ∨ (lookup d.1 c.locals).isSome then
      bfail ("identifier '" ++ String.ofList d.1 ++ "' already defined in this scope") c
    else autoCheck (d.1 :: seen) ds c := by
  rw [autoCheck, M.bind_ok (M.get_apply _)]
  split <;> rfl

/-- one declaration -/
theorem auto_iter {ts us : List Tok} {d : Name × Option Word} {l : List Char} {c : CState} {decls : List (Name × W)} {ch : Char}
    (h : DGram ts d) (ht : SpacedE l (ts ++ .sym [ch] :: us)) (hch : ch = ';' ∨ ch = ',')
    (hn : ¬ (d.1 ∈ decls.map (·.1)) ∧ ¬ (lookup d.1 c.locals).isSome) :
    ∃ r, After (.sym [ch]) r us ∧ autoBody decls (st l c) =
      (if ch = ';' then R.ok (Iter.done (decls ++ [autoSizeOf d])) (st r c) else .ok (.next (decls ++ [autoSizeOf d])) (st r c)) := by
  have start : ∀ (x : Name) (us' : List Tok), d.1 = x → SpacedE l (.word x :: us') → ∃ r, After (.word x) r us' ∧
      autoBody decls (st l c) = (do
        lx whitespace
        let ch ← lx readOrErr
        if ch = '[' then do
          let size ← lx autoSize
          let decls := decls ++ [(x, size)]
          lx whitespace
          let ch ← lx readOrErr
          if ch = ';' then pure (.done decls)
          else if ch ≠ ',' then
            fail ("unexpected character '" ++ String.singleton ch ++ "', expect ';' or ','")
          else pure (.next decls)
        else if ch ≠ ';' ∧ ch ≠ ',' then
          fail ("unexpected character '" ++ String.singleton ch ++ "', expect ';' or ',' after auto variable")
        else do
          let decls := decls ++ [(x, -1)]
          if ch = ';' then pure (.done decls) else pure (.next decls) : P (Iter (List (Name × W)) (List (Name × W)))) (st r c) := by
    intro x us' hx hs
    obtain ⟨r, e, ha⟩ := identOr_text (msg := "expect identifier after 'auto'") hs
    refine ⟨r, ha, ?_⟩
    subst hx
    unfold autoBody
    rw [M.bind_ok (lx_st e), M.bind_ok (M.get_apply _), if_neg, if_neg]
    · exact hn.2
    · intro h
      rw [List.any_eq_true] at h
      obtain ⟨y, hy, hy2⟩ := h
      exact hn.1 (List.mem_map.2 ⟨y, hy, by simpa using hy2⟩)
  have vec : ∀ (x : Name) (n : Word) (vs : List Tok) (r : List Char), After (.word x) r (.sym ['['] :: vs) →
      (∀ m, SpacedE m vs → ∃ r, autoSize ⟨m, .eof⟩ = .ok n ⟨r, .eof⟩ ∧ After (.sym [']']) r (.sym [ch] :: us)) →
      ∃ r', After (.sym [ch]) r' us ∧ (do
        lx whitespace
        let ch ← lx readOrErr
        if ch = '[' then do
          let size ← lx autoSize
          let decls := decls ++ [(x, size)]
          lx whitespace
          let ch ← lx readOrErr
          if ch = ';' then pure (.done decls)
          else if ch ≠ ',' then
            fail ("unexpected character '" ++ String.singleton ch ++ "', expect ';' or ','")
          else pure (.next decls)
        else if ch ≠ ';' ∧ ch ≠ ',' then
          fail ("unexpected character '" ++ String.singleton ch ++ "', expect ';' or ',' after auto variable")
        else do
          let decls := decls ++ [(x, -1)]
          if ch = ';' then pure (.done decls) else pure (.next decls) : P (Iter (List (Name × W)) (List (Name × W)))) (st r c) =
       (if ch = ';' then R.ok (Iter.done (decls ++ [(x, n)])) (st r' c) else .ok (.next (decls ++ [(x, n)])) (st r' c)) := by
    intro x n vs r ha hs
    obtain ⟨r1, ha1, hw1⟩ := ws_re ha.spaced
    obtain ⟨r2, e2, ha2⟩ := hs r1 ha1.spaced
    obtain ⟨r3, ha3, hw3⟩ := ws_re ha2.spaced
    refine ⟨r3, ha3, ?_⟩
    rw [M.bind_ok (lx_st hw1), M.bind_ok re_cons, if_pos rfl, M.bind_ok (lx_st e2), M.bind_ok (lx_st hw3), M.bind_ok re_cons]
    rcases hch with rfl | rfl
    · rw [if_pos rfl, if_pos rfl]; rfl
    · rw [if_neg (by decide), if_neg (by simp), if_neg (by decide)]; rfl
  cases h with
  | @scalar x =>
    obtain ⟨r, ha, e⟩ := start x _ rfl ht
    rw [e]
    obtain ⟨r1, ha1, hw1⟩ := ws_re (show SpacedE r (.sym [ch] :: us) from ha.spaced)
    refine ⟨r1, ha1, ?_⟩
    rw [M.bind_ok (lx_st hw1), M.bind_ok re_cons]
    rcases hch with rfl | rfl
    · rw [if_neg (by decide), if_neg (by decide), if_pos rfl, if_pos rfl]; rfl
    · rw [if_neg (by decide), if_neg (by decide), if_neg (by decide), if_neg (by decide)]; rfl
  | @vec0 x =>
    obtain ⟨r, ha, e⟩ := start x _ rfl ht
    rw [e]
    exact vec x 0 _ r ha fun m hm => autoSize_none hm
  | @vec x t n hc =>
    obtain ⟨r, ha, e⟩ := start x _ rfl ht
    rw [e]
    exact vec x n _ r ha fun m hm => autoSize_text hm hc

theorem auto_fails {ts us : List Tok} {d : Name × Option Word} {l : List Char} {c : CState} {decls : List (Name × W)}
    (h : DGram ts d) (ht : SpacedE l (ts ++ us)) (hn : d.1 ∈ decls.map (·.1) ∨ (lookup d.1 c.locals).isSome) :
    ∃ e, autoBody decls (st l c) = .err e := by
  have start : ∀ (x : Name) (us' : List Tok), d.1 = x → SpacedE l (.word x :: us') → ∃ e, autoBody decls (st l c) = .err e := by
    intro x us' hx hs
    obtain ⟨r, e, ha⟩ := identOr_text (msg := "expect identifier after 'auto'") hs
    subst hx
    unfold autoBody
    rw [M.bind_ok (lx_st e), M.bind_ok (M.get_apply _)]
    by_cases h1 : (decls.any (fun d' => d'.1 = d.1)) = true
    · rw [if_pos h1]; exact ⟨_, rfl⟩
    · rw [if_neg h1, if_pos]
      · exact ⟨_, rfl⟩
      · rcases hn with hn | hn
        · refine absurd ?_ h1
          rw [List.any_eq_true]
          obtain ⟨y, hy, hy2⟩ := List.mem_map.1 hn
          exact ⟨y, hy, by simpa using hy2⟩
        · exact hn
  cases h with
  | scalar => exact start _ _ rfl ht
  | vec0 => exact start _ _ rfl ht
  | vec => exact start _ _ rfl ht

theorem auto_complete {ts : List Tok} {ds : List (Name × Option Word)} (h : DsGram ts ds) :
    ∀ {us : List Tok} {l : List Char} {c : CState} {n : Nat} {seen : List Name} {decls : List (Name × W)},
    SpacedE l (ts ++ us) → (∀ x, x ∈ seen ↔ x ∈ decls.map (·.1)) →
    Sim (SpacedE · us) (loop n autoBody decls (st l c)) ((autoCheck seen ds >>= fun _ => pure (decls ++ ds.map autoSizeOf)) c) := by
  induction h with
  | @last ts d h =>
    intro us l c n seen decls ht hs
    cases n with
    | zero => exact .inl rfl
    | succ n =>
      rw [loop_step]
      by_cases hn : d.1 ∈ seen ∨ (lookup d.1 c.locals).isSome
      · obtain ⟨e, he⟩ := auto_fails (decls := decls) (us := .sym [';'] :: us) h (by simpa using ht) (by rwa [hs] at hn)
        rw [M.bind_err he, M.bind_apply, autoCheck_cons, if_pos hn]
        exact Sim.err
      · have hn' := hn
        rw [hs, not_or] at hn'
        obtain ⟨r, ha, e⟩ := auto_iter (c := c) (decls := decls) (ch := ';') (us := us) h (by simpa using ht) (.inl rfl) hn'
        rw [if_pos rfl] at e
        rw [M.bind_ok e, M.bind_apply, autoCheck_cons, if_neg hn]
        exact Sim.ok ha.spaced
  | @cons ts us' d ds h _ ih =>
    intro us l c n seen decls ht hs
    cases n with
    | zero => exact .inl rfl
    | succ n =>
      rw [loop_step]
      by_cases hn : d.1 ∈ seen ∨ (lookup d.1 c.locals).isSome
      · obtain ⟨e, he⟩ := auto_fails (decls := decls) (us := .sym [','] :: us' ++ us) h (by simpa using ht) (by rwa [hs] at hn)
        rw [M.bind_err he, M.bind_apply, autoCheck_cons, if_pos hn]
        exact Sim.err
      · have hn' := hn
        rw [hs, not_or] at hn'
        obtain ⟨r, ha, e⟩ := auto_iter (c := c) (decls := decls) (ch := ',') (us := us' ++ us) h (by simpa using ht) (.inr rfl) hn'
        rw [if_neg (by decide)] at e
        rw [M.bind_ok e, M.bind_apply, autoCheck_cons, if_neg hn]
        have := ih (us := us) (l := r) (c := c) (n := n) (seen := d.1 :: seen) (decls := decls ++ [autoSizeOf d]) ha.spaced (by
          intro x; simp [hs, autoSizeOf, or_comm, eq_comm])
        simpa [M.bind_apply] using this

theorem extrn_complete {ts : List Tok} {xs : List Name} (h : NsGram [';'] ts xs) :
    ∀ {us : List Tok} {l : List Char} {c : CState} {n : Nat}, SpacedE l (ts ++ us) →
    Sim (SpacedE · us) (loop n extrnBody () (st l c)) (genExtrn xs c) := by
  induction h with
  | @last x =>
    intro us l c n ht
    cases n with
    | zero => exact .inl rfl
    | succ n =>
      rw [loop_step]
      obtain ⟨r, e, ha⟩ := identOr_text (msg := "expect identifier after 'extrn'") ht
      unfold extrnBody
      simp only [M.bind_assoc']
      rw [M.bind_ok (lx_st e)]
      unfold genExtrn
      refine Sim.bd fun _ c1 _ => ?_
      obtain ⟨r1, ha1, hw1⟩ := ws_re (show SpacedE r (.sym [';'] :: us) from ha.spaced)
      rw [M.bind_ok (lx_st hw1), M.bind_ok re_cons, if_pos rfl]
      exact Sim.ok ha1.spaced
  | @cons x ts xs _ ih =>
    intro us l c n ht
    cases n with
    | zero => exact .inl rfl
    | succ n =>
      rw [loop_step]
      obtain ⟨r, e, ha⟩ := identOr_text (msg := "expect identifier after 'extrn'") ht
      rw [extrnBody]
      simp only [M.bind_assoc']
      rw [M.bind_ok (lx_st e)]
      rw [genExtrn]
      refine Sim.bd fun _ c1 _ => ?_
      obtain ⟨r1, ha1, hw1⟩ := ws_re (show SpacedE r (.sym [','] :: (ts ++ us)) from ha.spaced)
      rw [M.bind_ok (lx_st hw1), M.bind_ok re_cons, if_neg (by decide), if_neg (by simp)]
      exact ih ha1.spaced

/-! ### statements -/

/-- `parseKeyword` after the first word -/
def kwRest (stmt : Option Nat → Cases → P Cases) (n : Nat) (sw : Option Nat) (cases : Cases) (name : Name) : P Cases :=
  let sub : P Unit := do
    let _ ← stmt none []
  if name = "return".toList then do parseReturn n; pure cases
  else if name = "auto".toList then do parseAuto n; pure cases
  else if name = "extrn".toList then do parseExtrn n; pure cases
  else if name = "if".toList then do parseIf sub n; pure cases
  else if name = "while".toList then do parseWhile sub n; pure cases
  else if name = "switch".toList then do parseSwitch stmt n; pure cases
  else if name = "case".toList then parseCase stmt sw cases
  else if name = "goto".toList then do parseGoto; pure cases
  else do
    let ch ← lx readOrErr
    if ch = ':' then do
      let block ← bd (getOrCreateLabel name)
      bd (brIfOpen block)
      bd (setInsertPoint block)
      stmt sw cases
    else do
      lx (unreadChar ch)
      lx (unreadAll (utf8 name))
      exprStmt n
      pure cases

section
variable {l : List Char} {c : CState} {n : Nat} {sw : Option Nat} {cs : Cases} {us ts : List Tok}

theorem stmt_letter {w m m' r : List Char} (hw : whitespace ⟨l, .eof⟩ = .ok () ⟨m, .eof⟩) (e : m = w ++ r) (h0 : StartsLetter w)
    (h1 : ∀ c ∈ w, IdentChar c) (h2 : NotStarting IdentChar r) (hw' : whitespace ⟨r, .eof⟩ = .ok () ⟨m', .eof⟩) :
    parseStmt (n + 1) sw cs (st l c) = kwRest (parseStmt n) n sw cs w (st m' c) := by
  subst e
  cases w with
  | nil => exact h0.elim
  | cons d w =>
    have hd : Letter d := h0
    rw [List.cons_append] at hw
    rw [parseStmt, M.bind_ok (lx_st hw), M.bind_ok re_cons, if_neg (letter_ne hd (by decide)), if_neg (letter_ne hd (by decide)),
      if_pos ((isLetter_iff d).2 hd), M.bind_ok un_st]
    unfold parseKeyword
    rw [M.bind_ok (lx_st (ident_text (l := d :: (w ++ r)) (w := d :: w) (lay := []) .nil rfl (by simp) h1 h2)), M.bind_ok (lx_st hw')]
    rfl

theorem stmt_word {w : List Char} (h : SpacedE l (.word w :: ts)) (h0 : StartsLetter w) :
    ∃ m, TextE m ts ∧ parseStmt (n + 1) sw cs (st l c) = kwRest (parseStmt n) n sw cs w (st m c) := by
  obtain ⟨m, ht, hw⟩ := h.ws
  obtain ⟨r, e, h1, h2, h3, _, h4⟩ := text_word ht
  obtain ⟨m', hm, hw'⟩ := h4.spaced.ws
  exact ⟨m', hm, stmt_letter hw e h0 h2 h3 hw'⟩

def GoodS (ts : List Tok) (s : St) : Prop := ∀ E us l c n sw cs, SpacedE l (ts ++ us) → s.Clear E → Knows E c →
  (openIf s = true → ¬ ElsHead us) → Sim (SpacedE · us) (parseStmt n sw cs (st l c)) (genSt s sw cs c)

def GoodSs (ts : List Tok) (s : St) : Prop := ∀ E us l c n k sw cs, SpacedE l (ts ++ us) → s.Clear E → Knows E c →
  Sim (SpacedE · us) (loop k (blockBody (parseStmt n) sw) cs (st l c)) (genSt s sw cs c)

theorem goodS_block {s : St} (h : GoodSs ts s) : GoodS (.sym ['{'] :: ts) s := by
  intro E us l c n sw cs ht hc hk _
  cases n with
  | zero => exact .inl rfl
  | succ n =>
    obtain ⟨r, ha, hw⟩ := ws_re (show SpacedE l (.sym ['{'] :: (ts ++ us)) from ht)
    rw [parseStmt, M.bind_ok (lx_st hw), M.bind_ok re_cons, if_pos rfl]
    exact h E us r c n n sw cs ha.spaced hc hk

theorem goodS_empty : GoodS [.sym [';']] .skip := by
  intro E us l c n sw cs ht hc hk _
  cases n with
  | zero => exact .inl rfl
  | succ n =>
    obtain ⟨r, ha, hw⟩ := ws_re (show SpacedE l (.sym [';'] :: us) from ht)
    rw [parseStmt, M.bind_ok (lx_st hw), M.bind_ok re_cons, if_neg (by decide), if_pos rfl]
    exact Sim.ok ha.spaced

theorem exprStmt_complete {V : Name → Prop} {e : Ex} (h : EGram prec 15 ts e) (ht : SpacedE l (ts ++ [.sym [';']] ++ us)) (hv : VS V c)
    (hc : e.Clear V) : Sim (SpacedE · us) ((exprStmt n >>= fun _ => pure cs) (st l c)) (genSt (.expr e) sw cs c) := by
  unfold exprStmt genSt
  simp only [M.bind_assoc']
  refine (parseExpr_complete (us := .sym [';'] :: us) h (by simpa using ht) hv hc (not_eqHead (by decide)) (stop_sym rfl _ _)).bind
    fun x c1 m _ hm => ?_
  rw [M.bind_ok hm.lws]
  obtain ⟨r, rfl, _, _, ha⟩ := text_sym hm
  rw [List.cons_append, List.nil_append, M.bind_ok exp_cons]
  exact Sim.ok ha.spaced

theorem goodS_expr {e : Ex} (h : EGram prec 15 ts e) (hne : ∀ x us, ts ≠ .word x :: us) : GoodS (ts ++ [.sym [';']]) (.expr e) := by
  intro E us l c n sw cs ht hc hk _
  cases n with
  | zero => exact .inl rfl
  | succ n =>
    obtain ⟨t, ts', rfl, hs⟩ := egram_start h
    obtain ⟨m, hm, hw⟩ := ht.ws
    have hm' := hm
    rw [List.cons_append, List.cons_append] at hm'
    obtain ⟨rr, h1, _, _⟩ := text_inv hm'
    obtain ⟨ch, x, rfl, hch⟩ := lexes_first h1.quirk
    have hx : ch ≠ '{' ∧ ch ≠ ';' ∧ ¬ Letter ch := by
      cases t with
      | num =>
        simp only at hch
        exact ⟨digit_ne hch (by decide), digit_ne hch (by decide), fun h => by revert hch h; unfold Letter Digit; omega⟩
      | chr | str => simp only at hch; subst hch; decide
      | word w => exact absurd rfl (hne w ts')
      | defn | head | els => exact hs.elim
      | sym s =>
        have : ∀ s ∈ [['('], ['+', '+'], ['-', '-'], ['!'], ['-'], ['*'], ['&']], ∀ ch, s.head? = some ch →
            ch ≠ '{' ∧ ch ≠ ';' ∧ ¬ Letter ch := by
          intro s hs
          simp only [List.mem_cons, List.not_mem_nil, or_false] at hs
          rcases hs with rfl | rfl | rfl | rfl | rfl | rfl | rfl <;> intro ch hh <;> simp at hh <;> subst hh <;> decide
        exact this s hs ch hch.1
    rw [parseStmt, M.bind_ok (lx_st hw), M.bind_ok re_cons, if_neg hx.1, if_neg hx.2.1, if_neg (by rw [isLetter_iff]; exact hx.2.2),
      M.bind_ok un_st]
    exact exprStmt_complete h hm.spaced hk.vs hc

/-- the token after a name at the beginning of an expression -/
theorem egram_second {L : Nat} {ts : List Tok} {e : Ex} (h : EGram prec L ts e) : ∀ x us, ts = .word x :: us →
    us = [] ∨ ∃ s rest, us = .sym s :: rest ∧ s.head? ≠ some ':' := by
  have app : ∀ {ts vs : List Tok} {s : List Char}, s.head? ≠ some ':' → (∀ x us, ts = .word x :: us →
      us = [] ∨ ∃ s rest, us = .sym s :: rest ∧ s.head? ≠ some ':') → ts ≠ [] → ∀ x us, ts ++ .sym s :: vs = .word x :: us →
      us = [] ∨ ∃ s rest, us = .sym s :: rest ∧ s.head? ≠ some ':' := by
    intro ts vs s hs ih hne x us e
    cases ts with
    | nil => exact absurd rfl hne
    | cons t ts =>
      rw [List.cons_append] at e
      simp only [List.cons.injEq] at e
      obtain ⟨rfl, rfl⟩ := e
      rcases ih x ts rfl with rfl | ⟨s', rest, rfl, h'⟩
      · exact .inr ⟨s, vs, rfl, hs⟩
      · exact .inr ⟨s', _, rfl, h'⟩
  intro x us e
  match h with
  | .num | .chr | .str | .paren _ | .pre .. | .not .. | .neg .. | .deref .. | .addr .. => cases e
  | .var _ => cases e; exact .inl rfl
  | .index _ h1 _ =>
    rw [List.append_assoc] at e
    exact app (by decide) (egram_second h1) (egram_ne h1) x us e
  | .callName .. => cases e; exact .inr ⟨_, _, rfl, by decide⟩
  | .call _ h1 _ _ => exact app (by decide) (egram_second h1) (egram_ne h1) x us e
  | .post (d := d) _ h1 => exact app (by cases d <;> decide) (egram_second h1) (egram_ne h1) x us e
  | .bin (o := o) _ h1 _ => exact app (by cases o <;> decide) (egram_second h1) (egram_ne h1) x us e
  | .cond _ h1 _ _ => rw [List.append_assoc] at e; exact app (by decide) (egram_second h1) (egram_ne h1) x us e
  | .assign _ h1 _ => exact app (by decide) (egram_second h1) (egram_ne h1) x us e
  | .assignOp _ h1 _ => exact app (by simp) (egram_second h1) (egram_ne h1) x us e

theorem utf8_ascii {w : List Char} (h : ∀ c ∈ w, c.toNat < 128) : utf8 w = w := by
  unfold utf8
  induction w with
  | nil => rfl
  | cons d w ih =>
    rw [List.flatMap_cons, ih fun c hc => h c (by simp [hc])]
    unfold utf8Char
    rw [if_pos (h d (by simp))]
    rfl

theorem kwRest_other {stmt : Option Nat → Cases → P Cases} {w : Name} (h : w ∉ keywords) :
    kwRest stmt n sw cs w = (do
      let ch ← lx readOrErr
      if ch = ':' then do
        let block ← bd (getOrCreateLabel w)
        bd (brIfOpen block)
        bd (setInsertPoint block)
        stmt sw cs
      else do
        lx (unreadChar ch)
        lx (unreadAll (utf8 w))
        exprStmt n
        pure cs) := by
  simp only [keywords, List.mem_cons, List.not_mem_nil, or_false, not_or] at h
  obtain ⟨h1, h2, h3, h4, h5, h6, h7, h8⟩ := h
  unfold kwRest
  rw [if_neg h1, if_neg h2, if_neg h3, if_neg h4, if_neg h5, if_neg h6, if_neg h7, if_neg h8]

theorem goodS_exprHead {x : List Char} {e : Ex} (h : EGram prec 15 (.word x :: ts) e) : GoodS (.head x :: ts ++ [.sym [';']]) (.expr e) := by
  intro E us l c n sw cs ht hc hk _
  cases n with
  | zero => exact .inl rfl
  | succ n =>
    obtain ⟨m, hm, hw⟩ := ht.ws
    obtain ⟨r, e', h1, h2, h3, h4, h5, ha⟩ := text_head hm
    obtain ⟨m', hm', hw'⟩ := ha.spaced.ws
    rw [stmt_letter hw e' h1 h2 h3 hw', kwRest_other h4]
    -- the next token is a symbol
    obtain ⟨s, rest, hs, hcol⟩ : ∃ s rest, ts ++ [.sym [';']] ++ us = .sym s :: rest ∧ s.head? ≠ some ':' := by
      rcases egram_second h x ts rfl with rfl | ⟨s, rest, rfl, h'⟩
      · exact ⟨_, _, rfl, by decide⟩
      · exact ⟨_, _, rfl, h'⟩
    have hm2 : TextE m' (.sym s :: rest) := by rw [← hs]; exact hm'
    obtain ⟨r2, e2, hsym, _, _⟩ := text_sym hm2
    obtain ⟨d, s', rfl⟩ : ∃ d s', s = d :: s' := by
      cases s with
      | nil => exact absurd hsym (by decide)
      | cons d s' => exact ⟨d, s', rfl⟩
    have hd : ¬ IdentChar d := by
      have : ∀ s ∈ symbols, ∀ d, s.head? = some d → ¬ IdentChar d := by
        have h0 : ∀ s ∈ symbols, s.head?.all (fun d => !(isLetter d || isDigit d || d == '_')) = true := by decide
        intro s hs d hd
        have := h0 s hs
        rw [hd] at this
        simp only [Option.all_some, Bool.not_eq_true', Bool.or_eq_false_iff, beq_eq_false_iff_ne] at this
        rintro (h | h | h)
        · exact (isLetter_false d).1 this.1.1 h
        · exact (isDigit_false d).1 this.1.2 h
        · exact this.2 h
      exact this _ hsym d rfl
    rw [List.cons_append] at e2
    subst e2
    rw [M.bind_ok re_cons, if_neg (by simpa using hcol), M.bind_ok un_st,
      M.bind_ok (lx_st (show unreadAll (utf8 x) ⟨d :: (s' ++ r2), .eof⟩ = .ok () ⟨x ++ d :: (s' ++ r2), .eof⟩ from by
        rw [utf8_ascii h5.2, unreadAll_ok]))]
    refine exprStmt_complete h ?_ hk.vs hc
    have hx : x ≠ [] := by rintro rfl; exact h1
    refine TextE.spaced (.cons (lay := []) (rest := d :: (s' ++ r2)) (t := .word x) ?_ h5.1 .nil (fun _ _ _ h => h.elim) hm')
    exact .doc (.word hx h2 hd)

theorem goodS_ret0 : GoodS [.word "return".toList, .sym [';']] (.ret none) := by
  intro E us l c n sw cs ht hc hk _
  cases n with
  | zero => exact .inl rfl
  | succ n =>
    obtain ⟨m, hm, e⟩ := stmt_word (n := n) (sw := sw) (cs := cs) (c := c) ht (by decide : Letter 'r')
    rw [e]
    obtain ⟨r, rfl, _, _, ha⟩ := text_sym hm
    unfold kwRest parseReturn genSt
    rw [if_pos rfl]
    simp only [M.bind_assoc']
    rw [List.cons_append, List.nil_append, M.bind_ok re_cons, if_neg (by simp)]
    exact Sim.bd fun _ c1 _ => Sim.ok ha.spaced

theorem goodS_ret {e : Ex} (h : EGram prec 15 ts e) :
    GoodS (.word "return".toList :: .sym ['('] :: ts ++ [.sym [')'], .sym [';']]) (.ret (some e)) := by
  intro E us l c n sw cs ht hc hk _
  cases n with
  | zero => exact .inl rfl
  | succ n =>
    obtain ⟨m, hm, e⟩ := stmt_word (n := n) (sw := sw) (cs := cs) (c := c)
      (show SpacedE l (.word "return".toList :: (.sym ['('] :: (ts ++ [.sym [')'], .sym [';']] ++ us))) from by simpa using ht) (by decide : Letter 'r')
    rw [e]
    obtain ⟨r, rfl, _, _, ha⟩ := text_sym hm
    unfold kwRest parseReturn genSt
    rw [if_pos rfl]
    simp only [M.bind_assoc']
    rw [List.cons_append, List.nil_append, M.bind_ok re_cons, if_pos (by decide), if_neg (by simp)]
    simp only [M.bind_assoc']
    refine (parseExpr_complete (us := .sym [')'] :: .sym [';'] :: us) h (by simpa using ha.spaced) hk.vs hc (not_eqHead (by decide)) (stop_sym rfl _ _)).bind
      fun x c1 m _ hm => ?_
    rw [M.bind_ok hm.lws]
    obtain ⟨r, rfl, _, _, ha⟩ := text_sym hm
    obtain ⟨r2, ha2, hw2⟩ := ws_re ha.spaced
    rw [List.cons_append, List.nil_append, M.bind_ok exp_cons, M.bind_ok (lx_st hw2), M.bind_ok exp_cons]
    exact Sim.bd fun _ c2 _ => Sim.ok ha2.spaced

theorem goodS_auto {ds : List (List Char × Option Word)} (h : DsGram ts ds) : GoodS (.word "auto".toList :: ts) (.auto ds) := by
  intro E us l c n sw cs ht hc hk _
  cases n with
  | zero => exact .inl rfl
  | succ n =>
    obtain ⟨m, hm, e⟩ := stmt_word (n := n) (sw := sw) (cs := cs) (c := c) (ts := ts ++ us) ht (by decide : Letter 'a')
    rw [e]
    unfold kwRest parseAuto genSt
    rw [if_neg (by decide), if_pos rfl]
    simp only [M.bind_assoc']
    have := auto_complete h (c := c) (n := n) (seen := []) (decls := []) hm.spaced (by simp)
    have h2 := Sim.bind (k := fun decls => bd (declareAll decls) >>= fun _ => pure cs) (k' := fun decls => declareAll decls >>= fun _ => pure cs)
      (K' := (SpacedE · us)) this fun a c1 m _ hm => Sim.bd fun _ c2 _ => Sim.ok hm
    simpa [M.bind_assoc', M.pure_bind'] using h2

theorem goodS_extrn {xs : List (List Char)} (h : NsGram [';'] ts xs) : GoodS (.word "extrn".toList :: ts) (.extrn xs) := by
  intro E us l c n sw cs ht hc hk _
  cases n with
  | zero => exact .inl rfl
  | succ n =>
    obtain ⟨m, hm, e⟩ := stmt_word (n := n) (sw := sw) (cs := cs) (c := c) (ts := ts ++ us) ht (by decide : Letter 'e')
    rw [e]
    unfold kwRest parseExtrn genSt
    rw [if_neg (by decide), if_neg (by decide), if_pos rfl]
    exact (extrn_complete h hm.spaced).bind fun _ c1 m _ hm => Sim.ok hm

theorem goodS_goto {x : List Char} : GoodS [.word "goto".toList, .word x, .sym [';']] (.goto x) := by
  intro E us l c n sw cs ht hc hk _
  cases n with
  | zero => exact .inl rfl
  | succ n =>
    obtain ⟨m, hm, e⟩ := stmt_word (n := n) (sw := sw) (cs := cs) (c := c) ht (by decide : Letter 'g')
    rw [e]
    unfold kwRest parseGoto genSt genGoto
    rw [if_neg (by decide), if_neg (by decide), if_neg (by decide), if_neg (by decide), if_neg (by decide), if_neg (by decide),
      if_neg (by decide), if_pos rfl]
    simp only [M.bind_assoc']
    obtain ⟨r, e, ha⟩ := identOr_text (msg := "expect label name after 'goto'") hm.spaced
    obtain ⟨r2, ha2, hw2⟩ := ws_re (show SpacedE r (.sym [';'] :: us) from ha.spaced)
    rw [M.bind_ok (lx_st e)]
    refine Sim.bd fun t c1 _ => Sim.bd fun _ c2 _ => ?_
    rw [M.bind_ok (M.get_apply _), M.bind_ok (M.get_apply _)]
    refine Sim.bd fun d c3 _ => Sim.bd fun _ c4 _ => Sim.bd fun _ c5 _ => ?_
    rw [M.bind_ok (lx_st hw2), M.bind_ok exp_cons]
    exact Sim.ok ha2.spaced

/-- the condition in parentheses -/
theorem cond_complete {V : Name → Prop} {e : Ex} {α : Type} {K : List Char → Prop} {k : Val → P α} {k' : Val → B α} {m : List Char}
    (h : EGram prec 15 ts e) (ht : SpacedE m (ts ++ .sym [')'] :: us)) (hv : VS V c) (hc : e.Clear V) {msg : String}
    (hk : ∀ v c1 r, genR e c = .ok v c1 → SpacedE r us → Sim K (k v (st r c1)) (k' v c1)) :
    Sim K ((parseExpression n >>= fun v => lx whitespace >>= fun _ => lx (expectChar ')' msg) >>= fun _ => k v) (st m c))
      ((genR e >>= k') c) := by
  refine (parseExpr_complete (us := .sym [')'] :: us) h ht hv hc (not_eqHead (by decide)) (stop_sym rfl _ _)).bind
    fun x c1 m hx hm => ?_
  rw [M.bind_ok hm.lws]
  obtain ⟨r, rfl, _, _, ha⟩ := text_sym hm
  rw [List.cons_append, List.nil_append, M.bind_ok exp_cons]
  exact hk x c1 r hx ha.spaced

theorem goodS_ifThen {vs : List Tok} {e : Ex} {t : St} (h : EGram prec 15 ts e) (hg : SGram prec false vs t) (ht : GoodS vs t) :
    GoodS (.word "if".toList :: .sym ['('] :: ts ++ .sym [')'] :: vs) (.ifThen e t) := by
  intro E us l c n sw cs hs hc hk ho
  cases n with
  | zero => exact .inl rfl
  | succ n =>
    obtain ⟨m, hm, e1⟩ := stmt_word (n := n) (sw := sw) (cs := cs) (c := c)
      (show SpacedE l (.word "if".toList :: (.sym ['('] :: (ts ++ .sym [')'] :: (vs ++ us)))) from by simpa using hs) (by decide : Letter 'i')
    rw [e1]
    have hn := egram_names h fun t m => hs.toks t (by simp [m])
    have hn2 := sgram_names hg fun t m => hs.toks t (by simp [m])
    obtain ⟨r, rfl, _, _, ha⟩ := text_sym hm
    rw [kwRest, if_neg (by decide), if_neg (by decide), if_neg (by decide), if_pos rfl, parseIf, genSt]
    simp only [M.bind_assoc']
    rw [List.cons_append, List.nil_append, M.bind_ok exp_cons]
    refine cond_complete h ha.spaced hk.vs hc.1 fun v c1 r1 hv hr1 => ?_
    have hk1 := (tr_genR e hn E).knows hk hv
    unfold ifStart
    simp only [M.bind_assoc', M.pure_bind']
    refine Sim.bd fun a1 c2 h2 => Sim.bd fun a2 c3 h3 => Sim.bd fun a3 c4 h4 => Sim.bd fun a4 c5 h5 => Sim.bd fun a5 c6 h6 =>
      Sim.bd fun a6 c7 h7 => Sim.bd fun a7 c8 h8 => ?_
    have hk8 := (tr_setInsertPoint _).knows ((tr_setTerm _).knows ((tr_emit _).knows ((tr_newBlock _).knows ((tr_newBlock _).knows
      ((tr_newBlock _).knows (tr_freshLabelID.knows hk1 h2) h3) h4) h5) h6) h7) h8
    refine (ht _ us r1 c8 n none [] hr1 hc.2 hk8 fun _ => ho rfl).bind fun a9 c9 r2 h9 hr2 => ?_
    refine Sim.bd fun a10 c10 _ => Sim.bd fun a11 c11 _ => ?_
    obtain ⟨m2, hm2, hw2⟩ := hr2.ws
    rw [M.bind_ok (lx_st hw2), M.bind_ok (lx_st (tryElse_no hm2 (ho rfl))), if_neg (by decide), M.pure_bind']
    exact Sim.bd fun _ _ _ => Sim.bd fun _ _ _ => Sim.ok hm2.spaced

theorem goodS_ifElse {vs ws : List Tok} {e : Ex} {t f : St} (h : EGram prec 15 ts e) (hg : SGram prec false vs t) (ht : GoodS vs t)
    (hop : openIf t = false) (hf : GoodS ws f) :
    GoodS (.word "if".toList :: .sym ['('] :: ts ++ .sym [')'] :: vs ++ .els :: ws) (.ifElse e t f) := by
  intro E us l c n sw cs hs hc hk ho
  cases n with
  | zero => exact .inl rfl
  | succ n =>
    obtain ⟨m, hm, e1⟩ := stmt_word (n := n) (sw := sw) (cs := cs) (c := c)
      (show SpacedE l (.word "if".toList :: (.sym ['('] :: (ts ++ .sym [')'] :: (vs ++ .els :: (ws ++ us))))) from by simpa using hs)
      (by decide : Letter 'i')
    rw [e1]
    have hn := egram_names h fun t m => hs.toks t (by simp [m])
    have hn2 := sgram_names hg fun t m => hs.toks t (by simp [m])
    obtain ⟨r, rfl, _, _, ha⟩ := text_sym hm
    rw [kwRest, if_neg (by decide), if_neg (by decide), if_neg (by decide), if_pos rfl, parseIf, genSt]
    simp only [M.bind_assoc']
    rw [List.cons_append, List.nil_append, M.bind_ok exp_cons]
    refine cond_complete h ha.spaced hk.vs hc.1 fun v c1 r1 hv hr1 => ?_
    have hk1 := (tr_genR e hn E).knows hk hv
    unfold ifStart
    simp only [M.bind_assoc', M.pure_bind']
    refine Sim.bd fun a1 c2 h2 => Sim.bd fun a2 c3 h3 => Sim.bd fun a3 c4 h4 => Sim.bd fun a4 c5 h5 => Sim.bd fun a5 c6 h6 =>
      Sim.bd fun a6 c7 h7 => Sim.bd fun a7 c8 h8 => ?_
    have hk8 := (tr_setInsertPoint _).knows ((tr_setTerm _).knows ((tr_emit _).knows ((tr_newBlock _).knows ((tr_newBlock _).knows
      ((tr_newBlock _).knows (tr_freshLabelID.knows hk1 h2) h3) h4) h5) h6) h7) h8
    refine (ht _ _ r1 c8 n none [] hr1 hc.2.1 hk8 fun h => by rw [hop] at h; cases h).bind fun a9 c9 r2 h9 hr2 => ?_
    have hk9 := (tr_genSt t hn2 none [] _).knows hk8 h9
    refine Sim.bd fun a10 c10 h10 => Sim.bd fun a11 c11 h11 => ?_
    have hk11 := (tr_setInsertPoint _).knows ((tr_brIfOpen _).knows hk9 h10) h11
    obtain ⟨m2, hm2, hw2⟩ := hr2.ws
    obtain ⟨r3, e3, hr3⟩ := tryElse_yes hm2
    rw [M.bind_ok (lx_st hw2), M.bind_ok (lx_st e3), if_pos rfl]
    simp only [M.bind_assoc', M.pure_bind']
    refine (hf _ us r3 c11 n none [] hr3 hc.2.2 hk11 ho).bind fun a12 c12 r4 h12 hr4 => ?_
    exact Sim.bd fun _ _ _ => Sim.bd fun _ _ _ => Sim.ok hr4

theorem goodS_while {vs : List Tok} {e : Ex} {t : St} (h : EGram prec 15 ts e) (ht : GoodS vs t) :
    GoodS (.word "while".toList :: .sym ['('] :: ts ++ .sym [')'] :: vs) (.while e t) := by
  intro E us l c n sw cs hs hc hk ho
  cases n with
  | zero => exact .inl rfl
  | succ n =>
    obtain ⟨m, hm, e1⟩ := stmt_word (n := n) (sw := sw) (cs := cs) (c := c)
      (show SpacedE l (.word "while".toList :: (.sym ['('] :: (ts ++ .sym [')'] :: (vs ++ us)))) from by simpa using hs) (by decide : Letter 'w')
    rw [e1]
    have hn := egram_names h fun t m => hs.toks t (by simp [m])
    obtain ⟨r, rfl, _, _, ha⟩ := text_sym hm
    rw [kwRest, if_neg (by decide), if_neg (by decide), if_neg (by decide), if_neg (by decide), if_pos rfl, parseWhile, genSt, whileStart]
    simp only [M.bind_assoc', M.pure_bind']
    rw [List.cons_append, List.nil_append, M.bind_ok exp_cons]
    refine Sim.bd fun a1 c2 h2 => Sim.bd fun a2 c3 h3 => Sim.bd fun a3 c4 h4 => Sim.bd fun a4 c5 h5 => Sim.bd fun a5 c6 h6 =>
      Sim.bd fun a6 c7 h7 => ?_
    have hk7 := (tr_setInsertPoint _).knows ((tr_setTerm _).knows ((tr_newBlock _).knows ((tr_newBlock _).knows
      ((tr_newBlock _).knows (tr_freshLabelID.knows hk h2) h3) h4) h5) h6) h7
    refine cond_complete h ha.spaced hk7.vs hc.1 fun v c1 r1 hv hr1 => ?_
    have hk8 := (tr_genR e hn E).knows hk7 hv
    refine Sim.bd fun a8 c8 h8 => Sim.bd fun a9 c9 h9 => Sim.bd fun a10 c10 h10 => ?_
    have hk10 := (tr_setInsertPoint _).knows ((tr_setTerm _).knows ((tr_emit _).knows hk8 h8) h9) h10
    refine (ht _ us r1 c10 n none [] hr1 hc.2 hk10 ho).bind fun a11 c11 r2 _ hr2 => ?_
    exact Sim.bd fun _ _ _ => Sim.bd fun _ _ _ => Sim.ok hr2

/-- the first token of a statement -/
theorem sgram_start {vs : List Tok} {s : St} (hg : SGram prec false vs s) : ∃ t ws, vs = t :: ws ∧ t ≠ .els ∧ t ≠ .sym ['}'] := by
  cases hg with
  | expr h _ =>
    obtain ⟨t, us, rfl, hs⟩ := egram_start h
    refine ⟨t, _, rfl, ?_, ?_⟩
    · rintro rfl; exact hs.elim
    · rintro rfl; revert hs; unfold ExprStart; decide
  | _ => exact ⟨_, _, rfl, by simp, by simp⟩

/-- what follows the expression of a `switch` -/
theorem sgram_switch {vs : List Tok} {s : St} (hg : SGram prec false vs s)
    (hq : ∀ s ws, vs = .sym s :: ws → s = ['{'] ∨ s = [';']) : ¬ EqHead (vs ++ us) ∧ Stop 15 (vs ++ us) := by
  obtain ⟨t, ws, rfl, _, _⟩ := sgram_start hg
  constructor
  · rintro ⟨s', r, e, he⟩
    simp only [List.cons_append, List.cons.injEq] at e
    obtain ⟨rfl, _⟩ := e
    rcases hq _ _ rfl with rfl | rfl <;> exact absurd he (by decide)
  · intro s' r e k hk
    simp only [List.cons_append, List.cons.injEq] at e
    obtain ⟨rfl, _⟩ := e
    rcases hq _ _ rfl with rfl | rfl <;> cases hk

theorem goodS_switch {vs : List Tok} {e : Ex} {t : St} (h : EGram prec 15 ts e) (hg : SGram prec false vs t) (ht : GoodS vs t)
    (hq : ∀ s ws, vs = .sym s :: ws → s = ['{'] ∨ s = [';']) :
    GoodS (.word "switch".toList :: ts ++ vs) (.switch e t) := by
  intro E us l c n sw cs hs hc hk ho
  cases n with
  | zero => exact .inl rfl
  | succ n =>
    obtain ⟨m, hm, e1⟩ := stmt_word (n := n) (sw := sw) (cs := cs) (c := c)
      (show SpacedE l (.word "switch".toList :: (ts ++ (vs ++ us))) from by simpa using hs) (by decide : Letter 's')
    rw [e1]
    have hn := egram_names h fun t m => hs.toks t (by simp [m])
    rw [kwRest, if_neg (by decide), if_neg (by decide), if_neg (by decide), if_neg (by decide), if_neg (by decide), if_pos rfl,
      parseSwitch, genSt]
    simp only [M.bind_assoc', M.pure_bind']
    refine Sim.bd fun a1 c2 h2 => ?_
    have hk2 := tr_freshLabelID.knows hk h2
    obtain ⟨q1, q2⟩ := sgram_switch (us := us) hg hq
    refine (parseExpr_complete h hm.spaced hk2.vs hc.1 q1 q2).bind fun v c3 m3 h3 hm3 => ?_
    have hk3 := (tr_genR e hn E).knows hk2 h3
    unfold switchStart
    simp only [M.bind_assoc', M.pure_bind']
    refine Sim.bd fun a4 c4 h4 => Sim.bd fun a5 c5 h5 => Sim.bd fun a6 c6 h6 => Sim.bd fun a7 c7 h7 => Sim.bd fun a8 c8 h8 => ?_
    have hk8 := (tr_setInsertPoint _).knows ((tr_setTerm _).knows ((tr_newBlock _).knows ((tr_newBlock _).knows
      ((tr_newBlock _).knows hk3 h4) h5) h6) h7) h8
    refine (ht _ us m3 c8 n (some a1) [] hm3.spaced hc.2 hk8 ho).bind fun a9 c9 r4 _ hr4 => ?_
    exact Sim.bd fun _ _ _ => Sim.bd fun _ _ _ => Sim.bd fun _ _ _ => Sim.bd fun _ _ _ => Sim.ok hr4

theorem goodS_case {t : Tok} {v : Word} {s : St} (h : CGram t v) (ht : GoodS ts s) :
    GoodS (.word "case".toList :: t :: .sym [':'] :: ts) (.case v s) := by
  intro E us l c n sw cs hs hc hk ho
  cases n with
  | zero => exact .inl rfl
  | succ n =>
    obtain ⟨m, hm, e1⟩ := stmt_word (n := n) (sw := sw) (cs := cs) (c := c)
      (show SpacedE l (.word "case".toList :: (t :: .sym [':'] :: (ts ++ us))) from by simpa using hs) (by decide : Letter 'c')
    rw [e1]
    rw [kwRest, if_neg (by decide), if_neg (by decide), if_neg (by decide), if_neg (by decide), if_neg (by decide), if_neg (by decide),
      if_pos rfl]
    cases sw with
    | none => exact Sim.err
    | some id =>
      rw [genSt]
      dsimp only [parseCase]
      obtain ⟨r, e2, ha⟩ := caseConst_text hm h
      obtain ⟨r2, ha2, hw2⟩ := ws_re ha.spaced
      rw [M.bind_ok (lx_st e2), M.bind_ok (lx_st hw2), M.bind_ok exp_cons, genLabel]
      simp only [M.bind_assoc', M.pure_bind']
      refine Sim.bd fun a1 c2 h2 => Sim.bd fun a2 c3 h3 => Sim.bd fun a3 c4 h4 => ?_
      exact ht _ us r2 c4 n (some id) _ ha2.spaced hc ((tr_setInsertPoint _).knows ((tr_brIfOpen _).knows ((tr_getOrCreateLabel _).knows hk h2) h3) h4) ho

theorem goodS_label {x : List Char} {s : St} (h1 : StartsLetter x) (h2 : x ∉ keywords) (ht : GoodS ts s) :
    GoodS (.word x :: .sym [':'] :: ts) (.label x s) := by
  intro E us l c n sw cs hs hc hk ho
  cases n with
  | zero => exact .inl rfl
  | succ n =>
    obtain ⟨m, hm, e1⟩ := stmt_word (n := n) (sw := sw) (cs := cs) (c := c)
      (show SpacedE l (.word x :: (.sym [':'] :: (ts ++ us))) from by simpa using hs) h1
    rw [e1, kwRest_other h2, genSt]
    obtain ⟨r, rfl, _, _, ha⟩ := text_sym hm
    rw [List.cons_append, List.nil_append, M.bind_ok re_cons, if_pos rfl, genLabel]
    simp only [M.bind_assoc', M.pure_bind']
    refine Sim.bd fun a1 c2 h2 => Sim.bd fun a2 c3 h3 => Sim.bd fun a3 c4 h4 => ?_
    exact ht _ us r c4 n sw _ ha.spaced hc ((tr_setInsertPoint _).knows ((tr_brIfOpen _).knows ((tr_getOrCreateLabel _).knows hk h2) h3) h4) ho

theorem goodSs_nil : GoodSs [.sym ['}']] .skip := by
  intro E us l c n k sw cs hs hc hk
  cases k with
  | zero => exact .inl rfl
  | succ k =>
    rw [loop_step, blockBody]
    simp only [M.bind_assoc']
    obtain ⟨r, ha, hw⟩ := ws_re (show SpacedE l (.sym ['}'] :: us) from hs)
    rw [M.bind_ok (lx_st hw), M.bind_ok re_cons, if_pos rfl]
    exact Sim.ok ha.spaced

theorem ssgram_start {vs : List Tok} {s : St} (hg : SsGram prec false vs s) : ∃ t ws, vs = t :: ws ∧ t ≠ .els := by
  cases hg with
  | nil => exact ⟨_, _, rfl, by simp⟩
  | cons h _ => obtain ⟨t, ws, rfl, h, _⟩ := sgram_start h; exact ⟨t, _, rfl, h⟩

theorem goodSs_cons {vs : List Tok} {s t : St} (hg : SGram prec false ts s) (h1 : GoodS ts s) (hg2 : SsGram prec false vs t)
    (h2 : GoodSs vs t) : GoodSs (ts ++ vs) (.seq s t) := by
  intro E us l c n k sw cs hs hc hk
  cases k with
  | zero => exact .inl rfl
  | succ k =>
    rw [loop_step, blockBody]
    simp only [M.bind_assoc']
    have hn := sgram_names hg fun t m => hs.toks t (by simp [m])
    obtain ⟨tk, ws, rfl, q1, q2⟩ := sgram_start hg
    obtain ⟨m, hm, hw⟩ := hs.ws
    have hm' := hm
    rw [List.cons_append, List.cons_append] at hm'
    obtain ⟨rr, hl, _, _⟩ := text_inv hm'
    obtain ⟨ch, x, rfl, hch⟩ := lexes_first hl.quirk
    have hx : ch ≠ '}' := by
      rintro rfl
      cases tk with
      | num | chr | str | word | head | defn => simp only at hch; revert hch; decide
      | els => exact q1 rfl
      | sym s =>
        have : ∀ s ∈ symbols, s.head? = some '}' → s = ['}'] := by decide
        exact q2 (by rw [this s hch.2 hch.1])
    rw [M.bind_ok (lx_st hw), M.bind_ok re_cons, if_neg hx]
    simp only [M.bind_assoc', M.pure_bind']
    rw [M.bind_ok un_st, genSt]
    obtain ⟨t2, ws2, rfl, q3⟩ := ssgram_start hg2
    refine (h1 E _ _ c n sw cs (by rw [List.append_assoc] at hm; exact hm.spaced) hc.1 hk fun _ => ?_).bind fun a c1 r h1 hr => ?_
    · rintro ⟨r, e⟩
      simp only [List.cons_append, List.cons.injEq] at e
      exact q3 e.1
    · exact h2 _ us r c1 n k sw a hr hc.2 ((tr_genSt s hn sw cs E).knows hk h1)
end

mutual
theorem sgram_good {ts : List Tok} {s : St} (h : SGram prec false ts s) : GoodS ts s := by
  match h with
  | .block h => exact goodS_block (ssgram_good h)
  | .empty => exact goodS_empty
  | .exprHead h => exact goodS_exprHead h
  | .expr h hn => exact goodS_expr h hn
  | .ret0 => exact goodS_ret0
  | .ret h => exact goodS_ret h
  | .auto h => exact goodS_auto h
  | .extrn h => exact goodS_extrn h
  | .ifThen h1 h2 => exact goodS_ifThen h1 h2 (sgram_good h2)
  | .ifElse h1 h2 ho h3 => exact goodS_ifElse h1 h2 (sgram_good h2) ho (sgram_good h3)
  | .while h1 h2 => exact goodS_while h1 (sgram_good h2)
  | .switch h1 h2 hq => exact goodS_switch h1 h2 (sgram_good h2) (hq rfl)
  | .case h1 h2 => exact goodS_case h1 (sgram_good h2)
  | .label h1 h2 h3 => exact goodS_label h1 h2 (sgram_good h3)
  | .goto => exact goodS_goto

theorem ssgram_good {ts : List Tok} {s : St} (h : SsGram prec false ts s) : GoodSs ts s := by
  match h with
  | .nil => exact goodSs_nil
  | .cons h1 h2 => exact goodSs_cons h1 (sgram_good h1) h2 (ssgram_good h2)
end

end Blang
