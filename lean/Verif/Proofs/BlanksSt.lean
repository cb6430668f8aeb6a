import Verif.Proofs.BlanksEx
/-
Two runs of the compiler: statements and declarations.
-/
namespace Blang.Blanks
open Blang Blang.Spec Blang.Props

/-! ### the test for `else` -/

theorem readElse_any (es : List Char) : ∀ (rc m : List Char) (t : Tail), ∃ r l', readElse es rc ⟨m, t⟩ = .ok r l' := by
  induction es with
  | nil => intro rc m t; exact ⟨_, _, rfl⟩
  | cons e es ih =>
    intro rc m t
    unfold readElse
    cases m with
    | nil => cases t <;> exact ⟨_, _, rfl⟩
    | cons d m =>
      rw [M.bind_ok (readChar_cons _ _ _)]
      dsimp only
      split
      · exact ⟨_, _, rfl⟩
      · exact ih _ _ _

theorem tryElse_not {x : List Char} (h : ¬ ['e', 'l', 's', 'e'] <+: x) (t : Tail) : tryElse ⟨x, t⟩ = .ok false ⟨x, t⟩ := by
  obtain ⟨r, l', h1⟩ := readElse_any ['e', 'l', 's', 'e'] [] x t
  obtain ⟨p, i1, i2, i3, i4, _⟩ := readElse_ok h1
  have h3 : r.1 = false := by
    cases hr : r.1 with
    | false => rfl
    | true => exact absurd ⟨l'.chars, by rw [← i4 hr]; exact i1.symm⟩ h
  unfold tryElse
  rw [M.bind_ok h1]
  have h4 : afterElse r l' = .ok (false, r.2) l' := by
    unfold afterElse; rw [if_neg (by simp [h3])]; rfl
  rw [M.bind_ok h4, if_neg (by simp), M.bind_ok (unreadAll_ok _ _)]
  simp only [List.nil_append] at i2
  simp only at i1 i3
  rw [i2, i3, ← i1]
  rfl

theorem tryElse_end (t : Tail) : tryElse ⟨['e', 'l', 's', 'e'], t⟩ = .ok true ⟨[], t⟩ := by cases t <;> rfl

theorem tryElse_word {c : Char} (h : (isLetter c || isDigit c) = true) (r : List Char) (t : Tail) :
    tryElse ⟨'e' :: 'l' :: 's' :: 'e' :: c :: r, t⟩ = .ok false ⟨'e' :: 'l' :: 's' :: 'e' :: c :: r, t⟩ := by
  have h1 : readElse ['e', 'l', 's', 'e'] [] ⟨'e' :: 'l' :: 's' :: 'e' :: c :: r, t⟩ = .ok (true, ['e', 'l', 's', 'e']) ⟨c :: r, t⟩ := rfl
  have h2 : afterElse (true, ['e', 'l', 's', 'e']) ⟨c :: r, t⟩ = .ok (!(isLetter c || isDigit c), ['e', 'l', 's', 'e', c]) ⟨r, t⟩ := rfl
  unfold tryElse
  rw [M.bind_ok h1, M.bind_ok h2, if_neg (by simp [h]), M.bind_ok (unreadAll_ok _ _)]
  rfl

theorem tryElse_other {c : Char} (h : (isLetter c || isDigit c) = false) (r : List Char) (t : Tail) :
    tryElse ⟨'e' :: 'l' :: 's' :: 'e' :: c :: r, t⟩ = .ok true ⟨r, t⟩ := by
  have h1 : readElse ['e', 'l', 's', 'e'] [] ⟨'e' :: 'l' :: 's' :: 'e' :: c :: r, t⟩ = .ok (true, ['e', 'l', 's', 'e']) ⟨c :: r, t⟩ := rfl
  have h2 : afterElse (true, ['e', 'l', 's', 'e']) ⟨c :: r, t⟩ = .ok (!(isLetter c || isDigit c), ['e', 'l', 's', 'e', c]) ⟨r, t⟩ := rfl
  unfold tryElse
  rw [M.bind_ok h1, M.bind_ok h2, if_pos (by simp [h])]
  rfl

theorem prefix_before {s : Char} : ∀ {p a w : List Char}, s ∉ p → p <+: a ++ s :: w → p <+: a
  | [], _, _, _, _ => List.nil_prefix
  | c :: p, [], w, hs, h => by
    obtain ⟨r, h⟩ := h
    simp only [List.cons_append, List.nil_append, List.cons.injEq] at h
    exact absurd (by simp [h.1]) hs
  | c :: p, d :: a, w, hs, h => by
    rw [List.cons_append, List.cons_prefix_cons] at h
    rw [List.cons_prefix_cons]
    exact ⟨h.1, prefix_before (fun hm => hs (List.mem_cons_of_mem _ hm)) h.2⟩

theorem ends_keeps : Ends KeepsElse := fun c a h d hd hi => h d hd (hi.trans (List.suffix_cons c a).isInfix)

/-- the character behind `else` -/
theorem else_next {c : Char} (h : c ∉ elseEaten) : Mode.next (.code []) c = .code [] ∨ Whole (Mode.next (.code []) c) := by
  by_cases hc : c ∈ "()[]{},;:?*%&|".toList
  · right
    have : ∀ c ∈ "()[]{},;:?*%&|".toList, Whole (Mode.next (.code []) c) := by decide
    exact this c hc
  · left
    refine next_plain (plain_of fun hm => ?_)
    have : ∀ c ∈ "()[]{},;:?+-!=*/%&|<>\"'".toList, c ∈ "()[]{},;:?*%&|".toList ∨ c ∈ elseEaten := by decide
    rcases this c hm with h1 | h1
    · exact hc h1
    · exact h h1

theorem run_else (a : List Char) : Mode.run (.code []) ('e' :: 'l' :: 's' :: 'e' :: a) = Mode.run (.code []) a :=
  run_plain (w := ['e', 'l', 's', 'e']) (rest := a) fun c hc => ident_plain (by
    have : ∀ c ∈ ['e', 'l', 's', 'e'], IdentChar c := by decide
    exact this c hc)

theorem tw_tryElse {D : Prop} {x y : List Char} (h : Near D KeepsElse (.code []) x y) :
    TwL D tryElse tryElse x y fun r x' y' => if r then Loose D KeepsElse x' y' else Near D KeepsElse (.code []) x' y' := by
  intro t
  dsimp only
  cases h with
  | same =>
    by_cases hp : ['e', 'l', 's', 'e'] <+: x
    · obtain ⟨r, rfl⟩ := hp
      simp only [List.cons_append, List.nil_append]
      cases r with
      | nil => rw [tryElse_end]; exact .inr (.inr (.inr ⟨_, _, _, t, rfl, rfl, .inl (.same _)⟩))
      | cons c r =>
        cases hc : isLetter c || isDigit c with
        | true => rw [tryElse_word hc]; exact .inr (.inr (.inr ⟨_, _, _, t, rfl, rfl, .same _⟩))
        | false => rw [tryElse_other hc]; exact .inr (.inr (.inr ⟨_, _, _, t, rfl, rfl, .inl (.same _)⟩))
    · rw [tryElse_not hp]; exact .inr (.inr (.inr ⟨_, _, _, t, rfl, rfl, .same _⟩))
  | @apart a lay b s s' h1 h1' hd h2 h3 h4 =>
    by_cases hp : ['e', 'l', 's', 'e'] <+: a
    · obtain ⟨r, rfl⟩ := hp
      simp only [List.cons_append, List.nil_append] at h3 h4 ⊢
      rw [run_else] at h3
      cases r with
      | nil =>
        have hc : ∀ s, Blank s → (isLetter s || isDigit s) = false := by
          intro s h1
          rw [Bool.or_eq_false_iff, isLetter_false, isDigit_false]
          exact ⟨fun h => letter_not_blank h h1, fun h => digit_not_blank h h1⟩
        simp only [List.nil_append]
        rw [tryElse_other (hc s h1), tryElse_other (hc s' h1')]
        exact .inr (.inr (.inr ⟨_, _, _, t, rfl, rfl, .inr ⟨lay, h2, rfl⟩⟩))
      | cons c r =>
        simp only [List.cons_append]
        cases hc : isLetter c || isDigit c with
        | true =>
          rw [tryElse_word hc, tryElse_word hc]
          refine .inr (.inr (.inr ⟨_, _, _, t, rfl, rfl, ?_⟩))
          exact Near.apart (a := 'e' :: 'l' :: 's' :: 'e' :: c :: r) h1 h1' hd h2 (by rw [run_else]; exact h3) h4
        | false =>
          rw [tryElse_other hc, tryElse_other hc]
          refine .inr (.inr (.inr ⟨_, _, _, t, rfl, rfl, .inl ?_⟩))
          have hn : c ∉ elseEaten := fun hm => h4 c hm ⟨[], r, rfl⟩
          have hg : KeepsElse r := ends_keeps _ _ (ends_keeps _ _ (ends_keeps _ _ (ends_keeps _ _ (ends_keeps _ _ h4))))
          have h5 : Near D KeepsElse (Mode.next (.code []) c) (r ++ s :: b) (r ++ s' :: (lay ++ b)) := .apart h1 h1' hd h2 h3 hg
          rcases else_next hn with h6 | h6
          · rwa [h6] at h5
          · cases hm : Mode.next (.code []) c with
            | code z => rw [hm] at h5 h6; exact h5.closed h6
            | comment _ => rw [hm] at h6; exact h6.elim
            | quoted _ _ => rw [hm] at h6; exact h6.elim
    · have hs : ∀ s, Blank s → s ∉ ['e', 'l', 's', 'e'] := by
        intro s h1 hm
        have : ∀ c ∈ ['e', 'l', 's', 'e'], ¬ Blank c := by decide
        exact this s hm h1
      rw [tryElse_not fun h => hp (prefix_before (hs s h1) h), tryElse_not fun h => hp (prefix_before (hs s' h1') h)]
      exact .inr (.inr (.inr ⟨_, _, _, t, rfl, rfl, Near.apart h1 h1' hd h2 h3 h4⟩))

/-! ### expression statements -/

/-- `G` holds behind some characters other than `;` -/
def Weak (G : List Char → Prop) (a : List Char) : Prop := ∃ u v, a = u ++ v ∧ ';' ∉ u ∧ G v

theorem ends_weak {G : List Char → Prop} (hG : Ends G) : Ends (Weak G) := by
  rintro c a ⟨u, v, h, hu, hv⟩
  cases u with
  | nil => subst h; exact ⟨[], a, rfl, by simp, hG _ _ hv⟩
  | cons d u => cases h; exact ⟨u, v, rfl, fun hm => hu (List.mem_cons_of_mem _ hm), hv⟩

section
variable {D : Prop} {G : List Char → Prop} {x y : List Char}

theorem Near.weak (h : Near D G (.code []) x y) : Near D (Weak G) (.code []) x y := h.mono fun a ha => ⟨[], a, rfl, by simp, ha⟩

theorem Near.semicolon (hG : Ends G) (h : Near D (Weak G) (.code []) (';' :: x) (';' :: y)) : Near D G (.code []) x y := by
  have h0 := Near.own (ends_weak hG) h (by decide)
  generalize hx : ';' :: x = x0 at h
  generalize hy : ';' :: y = y0 at h
  cases h with
  | same => rw [← hy] at hx; cases hx; exact .same _
  | @apart a lay b s s' h1 h1' hd h2 h3 h4 =>
    cases a with
    | nil => cases hx; exact absurd h1 (by decide)
    | cons c a =>
      cases hx; cases hy
      obtain ⟨u, v, e, hu, hv⟩ := h4
      cases u with
      | nil =>
        subst e
        exact (Near.apart (G := G) (m := .code [';']) h1 h1' hd h2 h3 (hG _ _ hv)).closed (by decide)
      | cons d u => cases e; exact absurd (by simp) hu

theorem tw_exprStmt (hG : Ends G) (n n' : Nat) (h : Near D (Weak G) (.code []) x y) : TwP D (exprStmt n) (exprStmt n') x y (Nr D G) := by
  have hW := ends_weak hG
  refine tw_bind (tw_expression hW n n' h) fun _ x1 y1 h1 => wsP hW (.inl h1) fun x2 y2 h2 hs => ?_
  refine tw_lx (rdL h2 (solidB hs) (fun c x3 y3 _ hn => tw_ite (fun _ => tw_throw) fun hc => tw_pure ?_) tw_throw tw_throw)
  have hc : c = ';' := Classical.not_not.1 hc
  subst hc
  exact Near.semicolon hG hn

theorem utf8_plain {n : List Char} (h : ∀ c ∈ n, IdentChar c) : ∀ c ∈ utf8 n, PlainC c := by
  intro d hd
  obtain ⟨c, hc, hd⟩ := List.mem_flatMap.1 hd
  have hi := h c hc
  have big : ∀ k, 128 ≤ k → k < 256 → PlainC (Char.ofNat k) := by
    intro k h1 h2
    refine plain_of fun hm => ?_
    have : ∀ c ∈ "()[]{},;:?+-!=*/%&|<>\"'".toList, c.toNat < 128 := by decide
    have := this _ hm
    rw [charOfNat_toNat (by omega)] at this
    omega
  unfold utf8Char at hd
  split at hd
  · simp only [List.mem_singleton] at hd; subst hd; exact ident_plain hi
  · simp only [List.mem_cons, List.not_mem_nil, or_false] at hd
    rcases hd with rfl | rfl
    · exact big _ (by omega) (by omega)
    · exact big _ (by omega) (by omega)

theorem Near.pushed {n : List Char} (h : Near D G (.code []) x y) (hn : ∀ c ∈ n, IdentChar c) :
    Near D (Weak G) (.code []) (utf8 n ++ x) (utf8 n ++ y) := by
  cases h with
  | same => exact .same _
  | @apart a lay b s s' h1 h1' hd h2 h3 h4 =>
    rw [← List.append_assoc, ← List.append_assoc]
    exact .apart h1 h1' hd h2 (by rw [run_plain (utf8_plain hn)]; exact h3) ⟨_, a, rfl, utf8_ident hn, h4⟩
end

/-! ### statements -/

section
variable {D : Prop} {x y : List Char}


/-- the recursive calls -/
def StmtTw (D : Prop) (stmt stmt' : Option Nat → Cases → P Cases) : Prop :=
  ∀ sw cs x y, Loose D KeepsElse x y → TwP D (stmt sw cs) (stmt' sw cs) x y (Nr D KeepsElse)

theorem tw_parseReturn (n n' : Nat) (h : Near D KeepsElse (.code []) x y) (hs : StartsSolid x) : TwP D (parseReturn n) (parseReturn n') x y (Nr D KeepsElse) := by
  refine reP h (solidB hs) fun ch x1 y1 _ h1 => tw_ite (fun _ => tw_ite (fun _ => tw_fail) fun e => ?_) fun e => ?_
  · have e : ch = '(' := Classical.not_not.1 e
    subst e
    refine tw_bind (tw_expression ends_keeps n n' (Near.own ends_keeps h1 (by decide))) fun _ x2 y2 h2 => wsP ends_keeps (.inl h2) fun x3 y3 h3 _ => ?_
    refine exP ends_keeps h3 (by decide) fun x4 y4 h4 => wsP ends_keeps (.inl h4) fun x5 y5 h5 _ => exP ends_keeps h5 (by decide) fun x6 y6 h6 => ?_
    exact tw_bd' fun _ => h6
  · have e : ch = ';' := Classical.not_not.1 e
    subst e
    exact tw_bd' fun _ => Near.own ends_keeps h1 (by decide)

theorem tw_sizeConst {G : List Char → Prop} (hG : Ends G) {ch : Char} (h : Near D G (.code []) (ch :: x) (ch :: y)) :
    TwL D (sizeConst ch) (sizeConst ch) x y (Nr D G) :=
  tw_ite (fun e => by subst e; exact tw_character hG h) fun _ => unL (tw_number hG (.inl h))

theorem tw_autoSize {G : List Char → Prop} (hG : Ends G) (h : Near D G (.code []) x y) : TwL D autoSize autoSize x y (Nr D G) := by
  refine wsL hG (.inl h) fun x1 y1 h1 hss => reL h1 (solidB hss) fun ch x2 y2 _ h2 => tw_ite (fun _ => ?_) fun e => ?_
  · refine tw_bind (tw_sizeConst hG h2) fun _ x3 y3 h3 => wsL hG (.inl h3) fun x4 y4 h4 _ => ?_
    exact tw_bind (tw_expectChar hG h4 (by decide)) fun _ x5 y5 h5 => tw_pure h5.1
  · have e : ch = ']' := Classical.not_not.1 e
    subst e
    exact tw_pure (Near.own hG h2 (by decide))

theorem tw_autoBody (ds : List (Name × W)) (h : Near D KeepsElse (.code []) x y) : TwP D (autoBody ds) (autoBody ds) x y (RR D KeepsElse) := by
  refine tw_bind (tw_lx (tw_identOr ends_keeps (.inl h))) fun name x1 y1 h1 => tw_get fun t c => ?_
  refine tw_ite (fun _ => tw_fail) fun _ => tw_ite (fun _ => tw_fail) fun _ => wsP ends_keeps (.inl h1.1) fun x2 y2 h2 hss => reP h2 (solidB hss) fun ch x3 y3 _ h3 => ?_
  refine tw_ite (fun e => ?_) fun _ => tw_ite (fun _ => tw_fail) fun e => tw_ite (fun e => ?_) fun e' => ?_
  · subst e
    refine tw_bind (tw_lx (tw_autoSize ends_keeps (Near.own ends_keeps h3 (by decide)))) fun _ x4 y4 h4 => wsP ends_keeps (.inl h4) fun x5 y5 h5 hs => ?_
    refine reP h5 (solidB hs) fun ch x6 y6 _ h6 => tw_ite (fun e => ?_) fun _ => tw_ite (fun _ => tw_fail) fun e => ?_
    · subst e; exact tw_pure (Near.own ends_keeps h6 (by decide))
    · have e : ch = ',' := Classical.not_not.1 e
      subst e; exact tw_pure (Near.own ends_keeps h6 (by decide))
  · subst e; exact tw_pure (Near.own ends_keeps h3 (by decide))
  · have e : ch = ',' := Classical.byContradiction fun h' => e ⟨e', h'⟩
    subst e; exact tw_pure (Near.own ends_keeps h3 (by decide))

theorem tw_parseAuto (n n' : Nat) (h : Near D KeepsElse (.code []) x y) : TwP D (parseAuto n) (parseAuto n') x y (Nr D KeepsElse) :=
  tw_bind (tw_loop (I := Nr D KeepsElse) (Q := Nr D KeepsElse) (fun b _ _ h => tw_autoBody b h) n n' [] x y h) fun _ _ _ h1 => tw_bd' fun _ => h1

theorem tw_extrnBody (u : Unit) (h : Near D KeepsElse (.code []) x y) : TwP D (extrnBody u) (extrnBody u) x y (RR D KeepsElse) := by
  refine tw_bind (tw_lx (tw_identOr ends_keeps (.inl h))) fun name x1 y1 h1 => tw_bd fun _ => ?_
  refine wsP ends_keeps (.inl h1.1) fun x5 y5 h5 hss => reP h5 (solidB hss) fun ch x6 y6 _ h6 => tw_ite (fun e => ?_) fun _ => tw_ite (fun _ => tw_fail) fun e => ?_
  · subst e; exact tw_pure (Near.own ends_keeps h6 (by decide))
  · have e : ch = ',' := Classical.not_not.1 e
    subst e; exact tw_pure (Near.own ends_keeps h6 (by decide))

theorem tw_parseExtrn (n n' : Nat) (h : Near D KeepsElse (.code []) x y) : TwP D (parseExtrn n) (parseExtrn n') x y (Nr D KeepsElse) :=
  tw_loop (I := Nr D KeepsElse) (Q := Nr D KeepsElse) (fun b _ _ h => tw_extrnBody b h) n n' () x y h

theorem tw_parseGoto (h : Near D KeepsElse (.code []) x y) : TwP D parseGoto parseGoto x y (Nr D KeepsElse) := by
  refine tw_bind (tw_lx (tw_identOr ends_keeps (.inl h))) fun name x1 y1 h1 => tw_bd fun _ => tw_bd fun _ => tw_get fun t c => ?_
  refine tw_bd fun _ => tw_bd fun _ => tw_bd fun _ => wsP ends_keeps (.inl h1.1) fun x5 y5 h5 _ => ?_
  exact tw_mono (tw_lx (tw_expectChar ends_keeps h5 (by decide))) fun _ _ _ h => h.1

theorem tw_parseIf {stmt stmt' : P Unit} (hs : ∀ x y, Loose D KeepsElse x y → TwP D stmt stmt' x y (Nr D KeepsElse)) (n n' : Nat)
    (h : Near D KeepsElse (.code []) x y) : TwP D (parseIf stmt n) (parseIf stmt' n') x y (Nr D KeepsElse) := by
  refine exP ends_keeps h (by decide) fun x1 y1 h1 => tw_bind (tw_expression ends_keeps n n' h1) fun _ x2 y2 h2 => ?_
  refine wsP ends_keeps (.inl h2) fun x3 y3 h3 _ => exP ends_keeps h3 (by decide) fun x4 y4 h4 => ?_
  refine tw_bd fun _ => tw_bd fun _ => tw_bd fun _ => tw_bd fun _ => tw_bd fun _ => tw_bd fun _ => tw_bd fun _ => ?_
  refine tw_bind (hs _ _ (.inl h4)) fun _ x5 y5 h5 => tw_bd fun _ => tw_bd fun _ => wsP ends_keeps (.inl h5) fun x6 y6 h6 _ => ?_
  refine tw_bind (tw_lx (tw_tryElse h6)) fun r x7 y7 h7 => ?_
  refine tw_bind (R := Nr D KeepsElse) (tw_ite (fun e => ?_) fun e => ?_) fun _ x8 y8 h8 => tw_bd fun _ => tw_bd' fun _ => h8
  · rw [if_pos e] at h7; exact hs _ _ h7
  · rw [if_neg e] at h7; exact tw_pure h7

theorem tw_parseWhile {stmt stmt' : P Unit} (hs : ∀ x y, Loose D KeepsElse x y → TwP D stmt stmt' x y (Nr D KeepsElse)) (n n' : Nat)
    (h : Near D KeepsElse (.code []) x y) : TwP D (parseWhile stmt n) (parseWhile stmt' n') x y (Nr D KeepsElse) := by
  refine exP ends_keeps h (by decide) fun x1 y1 h1 => ?_
  refine tw_bd fun _ => tw_bd fun _ => tw_bd fun _ => tw_bd fun _ => tw_bd fun _ => tw_bd fun _ => ?_
  refine tw_bind (tw_expression ends_keeps n n' h1) fun _ x2 y2 h2 => ?_
  refine wsP ends_keeps (.inl h2) fun x3 y3 h3 _ => exP ends_keeps h3 (by decide) fun x4 y4 h4 => ?_
  refine tw_bd fun _ => tw_bd fun _ => tw_bd fun _ => ?_
  exact tw_bind (hs _ _ (.inl h4)) fun _ x5 y5 h5 => tw_bd fun _ => tw_bd' fun _ => h5

variable {stmt stmt' : Option Nat → Cases → P Cases}

theorem tw_parseSwitch (hs : StmtTw D stmt stmt') (n n' : Nat) (h : Near D KeepsElse (.code []) x y) :
    TwP D (parseSwitch stmt n) (parseSwitch stmt' n') x y (Nr D KeepsElse) := by
  refine tw_bd fun _ => tw_bind (tw_expression ends_keeps n n' h) fun _ x2 y2 h2 => ?_
  refine tw_bd fun _ => tw_bd fun _ => tw_bd fun _ => tw_bd fun _ => tw_bd fun _ => ?_
  refine tw_bind (hs _ _ _ _ (.inl h2)) fun _ x5 y5 h5 => ?_
  exact tw_bd fun _ => tw_bd fun _ => tw_bd fun _ => tw_bd' fun _ => h5

theorem tw_caseConst {G : List Char → Prop} (hG : Ends G) (h : Near D G (.code []) x y) (hs : StartsSolid x) : TwL D caseConst caseConst x y (Nr D G) := by
  refine reL h (solidB hs) fun ch x1 y1 _ h1 => tw_ite (fun e => ?_) fun _ => tw_ite (fun _ => unL (tw_number hG (.inl h1))) fun _ => tw_throw
  subst e
  exact tw_character hG h1

theorem tw_parseCase (hs : StmtTw D stmt stmt') (sw : Option Nat) (cs : Cases) (h : Near D KeepsElse (.code []) x y) (hss : StartsSolid x) :
    TwP D (parseCase stmt sw cs) (parseCase stmt' sw cs) x y (Nr D KeepsElse) := by
  cases sw with
  | none => exact tw_fail
  | some k =>
    refine tw_bind (tw_lx (tw_caseConst ends_keeps h hss)) fun _ x1 y1 h1 => wsP ends_keeps (.inl h1) fun x2 y2 h2 _ => ?_
    refine exP ends_keeps h2 (by decide) fun x3 y3 h3 => tw_bd fun _ => tw_bd fun _ => tw_bd fun _ => hs _ _ _ _ (.inl h3)

theorem tw_then {α : Type} {f f' : P α} {cs : Cases} (h : TwP D f f' x y (Nr D KeepsElse)) :
    TwP D (f >>= fun _ => pure cs) (f' >>= fun _ => pure cs) x y (Nr D KeepsElse) := tw_bind h fun _ _ _ h1 => tw_pure h1

theorem tw_parseKeyword (hs : StmtTw D stmt stmt') (n n' : Nat) (sw : Option Nat) (cs : Cases) (h : Near D KeepsElse (.code []) x y) :
    TwP D (parseKeyword stmt n sw cs) (parseKeyword stmt' n' sw cs) x y (Nr D KeepsElse) := by
  refine tw_bind (tw_lx (tw_identifier ends_keeps (.inl h))) fun name x1 y1 h1 => wsP ends_keeps (.inl h1.1) fun x2 y2 h2 hss => ?_
  have hsub : ∀ x y, Loose D KeepsElse x y → TwP D (do let _ ← stmt none []) (do let _ ← stmt' none []) x y (Nr D KeepsElse) :=
    fun x y hl => tw_bind (hs _ _ _ _ hl) fun _ _ _ h => tw_pure h
  refine tw_ite (fun _ => tw_then (tw_parseReturn n n' h2 hss)) fun _ => tw_ite (fun _ => tw_then (tw_parseAuto n n' h2)) fun _ =>
    tw_ite (fun _ => tw_then (tw_parseExtrn n n' h2)) fun _ => tw_ite (fun _ => tw_then (tw_parseIf hsub n n' h2)) fun _ =>
    tw_ite (fun _ => tw_then (tw_parseWhile hsub n n' h2)) fun _ => tw_ite (fun _ => tw_then (tw_parseSwitch hs n n' h2)) fun _ =>
    tw_ite (fun _ => tw_parseCase hs sw cs h2 hss) fun _ => tw_ite (fun _ => tw_then (tw_parseGoto h2)) fun _ => ?_
  refine reP h2 (solidB hss) fun ch x3 y3 _ h3 => tw_ite (fun e => ?_) fun _ => unP ?_
  · subst e
    exact tw_bd fun _ => tw_bd fun _ => tw_bd fun _ => hs _ _ _ _ (.inl (Near.own ends_keeps h3 (by decide)))
  · refine tw_bind (R := fun _ x' y' => Near D (Weak KeepsElse) (.code []) x' y') (tw_lx fun t => ?_) fun _ x4 y4 h4 => tw_then (tw_exprStmt ends_keeps n n' h4)
    exact .inr (.inr (.inr ⟨(), _, _, t, unreadAll_ok _ _, unreadAll_ok _ _, Near.pushed h3 h1.2⟩))

theorem tw_blockBody (hs : StmtTw D stmt stmt') (sw : Option Nat) (cs : Cases) (h : Near D KeepsElse (.code []) x y) :
    TwP D (blockBody stmt sw cs) (blockBody stmt' sw cs) x y (RR D KeepsElse) := by
  refine wsP ends_keeps (.inl h) fun x1 y1 h1 hss => reP h1 (solidB hss) fun ch x2 y2 _ h2 => tw_ite (fun e => ?_) fun _ => unP ?_
  · subst e; exact tw_pure (Near.own ends_keeps h2 (by decide))
  · exact tw_bind (hs _ _ _ _ (.inl h2)) fun _ x3 y3 h3 => tw_pure h3

theorem tw_parseStmt : ∀ n n', StmtTw D (parseStmt n) (parseStmt n')
  | 0, _ => fun _ _ _ _ _ => tw_fuelL
  | _ + 1, 0 => fun _ _ _ _ _ => tw_fuelR
  | n + 1, n' + 1 => fun sw cs x y h => by
    have hs := tw_parseStmt n n'
    refine wsP ends_keeps h fun x1 y1 h1 hss => reP h1 (solidB hss) fun ch x2 y2 _ h2 => ?_
    refine tw_ite (fun e => ?_) fun _ => tw_ite (fun e => ?_) fun _ => tw_ite (fun _ => unP (tw_parseKeyword hs n n' sw cs h2)) fun _ =>
      unP (tw_then (tw_exprStmt ends_keeps n n' h2.weak))
    · subst e
      exact tw_loop (I := Nr D KeepsElse) (Q := Nr D KeepsElse) (fun b _ _ h => tw_blockBody hs sw b h) n n' cs x2 y2 (Near.own ends_keeps h2 (by decide))
    · subst e; exact tw_pure (Near.own ends_keeps h2 (by decide))

/-! ### declarations -/

/-- a text that begins with `-`, where a `;` or `,` is expected -/
def Minus (x y : List Char) : Prop := ∃ x' y', x = '-' :: x' ∧ y = '-' :: y'

theorem tw_parseIvalConst (h : Near D KeepsElse (.code []) x y) (hs : StartsSolid x) :
    TwP D parseIvalConst parseIvalConst x y fun _ x' y' => Near D KeepsElse (.code []) x' y' ∨ Minus x' y' := by
  have hnum : ∀ {x y : List Char} (msg : String), Near D KeepsElse (.code []) x y → TwL D (orMsg number msg) (orMsg number msg) x y (Nr D KeepsElse) :=
    fun msg h => tw_orMsg (wp_no number_wp) (tw_number ends_keeps (.inl h))
  refine reP h (solidB hs) fun ch x1 y1 _ h1 => ?_
  refine tw_ite (fun _ => unP (tw_bind (tw_lx (tw_identOr ends_keeps (.inl h1))) fun _ _ _ _ => tw_fail)) fun _ => ?_
  refine tw_ite (fun e => ?_) fun _ => tw_ite (fun e => ?_) fun _ => tw_ite (fun e => ?_) fun _ => unP ?_
  · subst e
    exact tw_bind (tw_lx (tw_orMsg (wp_no character_wp) (tw_character ends_keeps h1))) fun _ x2 y2 h2 => tw_pure (.inl h2)
  · subst e
    exact tw_bind (tw_lx (tw_stringLit ends_keeps h1)) fun _ x2 y2 h2 => tw_bd fun _ => tw_pure (.inl h2)
  · subst e
    have h2 : Near D KeepsElse (.code ['-']) x1 y1 := Near.solid ends_keeps h1 (by decide)
    by_cases he : ∃ r, x1 = '-' :: r
    · obtain ⟨r, rfl⟩ := he
      obtain ⟨r', rfl⟩ := h2.head (by decide)
      refine tw_bind (R := fun _ x y => Minus x y) (tw_lx (tw_orMsg (wp_no number_wp) fun t => ?_)) fun _ _ _ hm => tw_pure (.inr hm)
      have e : ∀ r, number ⟨'-' :: r, t⟩ = .ok 0 ⟨'-' :: r, t⟩ := fun r => by
        have := number_nodigit (lay := []) (c := '-') (rest := r) (t := t) .nil (by decide) (stops_cons (by decide) (by decide))
        simpa using this
      exact .inr (.inr (.inr ⟨0, _, _, t, e _, e _, _, _, rfl, rfl⟩))
    · refine tw_bind (tw_lx (hnum _ (h2.reset fun d r hd => ?_))) fun _ x2 y2 h2 => tw_pure (.inl h2)
      have hd' : d ≠ '-' := fun e => he ⟨r, by rw [hd, e]⟩
      simp [symbols, hd']
  · exact tw_bind (tw_lx (hnum _ h1)) fun _ x2 y2 h2 => tw_pure (.inl h2)

theorem tw_ivalBody (vals : List Const) (h : Near D KeepsElse (.code []) x y) : TwP D (ivalBody vals) (ivalBody vals) x y (RR D KeepsElse) := by
  refine wsP ends_keeps (.inl h) fun x1 y1 h1 hs => tw_bind (tw_parseIvalConst h1 hs) fun v x2 y2 h2 => ?_
  rcases h2 with h2 | ⟨x', y', rfl, rfl⟩
  · refine wsP ends_keeps (.inl h2) fun x3 y3 h3 hss => reP h3 (solidB hss) fun ch x4 y4 _ h4 => tw_ite (fun e => ?_) fun _ => tw_ite (fun _ => tw_fail) fun e => ?_
    · subst e; exact tw_pure (Near.own ends_keeps h4 (by decide))
    · have e : ch = ',' := Classical.not_not.1 e
      subst e; exact tw_pure (Near.own ends_keeps h4 (by decide))
  · refine wsC (by decide) (by decide) ?_
    refine tw_bind (R := fun c _ _ => c = '-') (tw_lx fun t => .inr (.inr (.inr ⟨_, _, _, t, rfl, rfl, rfl⟩))) ?_
    rintro _ _ _ rfl
    exact tw_ite (fun e => absurd e (by decide)) fun _ => tw_ite (fun _ => tw_fail) fun e => absurd (by decide) e

theorem tw_ivals (n n' : Nat) (h : Near D KeepsElse (.code []) x y) : TwP D (loop n ivalBody []) (loop n' ivalBody []) x y (Nr D KeepsElse) :=
  tw_loop (I := Nr D KeepsElse) (Q := Nr D KeepsElse) (fun b _ _ h => tw_ivalBody b h) n n' [] x y h

theorem tw_parseGlobal (n n' : Nat) (name : Name) (h : Near D KeepsElse (.code []) x y) : TwP D (parseGlobal n name) (parseGlobal n' name) x y (Nr D KeepsElse) := by
  have rest : ∀ x y, Near D KeepsElse (.code []) x y → TwP D (do
      let vals ← loop n ivalBody []
      match vals with
      | [v] => bd (declareGlobal name (some v))
      | vals => bd (declareGlobalWithMultipleValues name vals)) (do
      let vals ← loop n' ivalBody []
      match vals with
      | [v] => bd (declareGlobal name (some v))
      | vals => bd (declareGlobalWithMultipleValues name vals)) x y (Nr D KeepsElse) := by
    intro x y h1
    refine tw_bind (tw_ivals n n' h1) fun vals x2 y2 h2 => ?_
    split
    · exact tw_bd' fun _ => h2
    · exact tw_bd' fun _ => h2
  refine tw_bd fun _ => reP h (fun c c' x1 y1 _ _ hb hb' _ hn => ?_) fun ch x1 y1 _ h1 => tw_ite (fun _ => unP (rest _ _ h1)) fun e => ?_
  · exact tw_yes (blank_ne hb (by decide)) (blank_ne hb' (by decide)) (unP (rest _ _ hn))
  · have e : ch = ';' := Classical.not_not.1 e
    subst e
    exact tw_bd' fun _ => Near.own ends_keeps h1 (by decide)

theorem tw_vectorSize {G : List Char → Prop} (hG : Ends G) (h : Near D G (.code []) x y) : TwL D vectorSize vectorSize x y (Nr D G) := by
  refine wsL hG (.inl h) fun x1 y1 h1 hss => reL h1 (solidB hss) fun ch x2 y2 _ h2 => tw_ite (fun _ => unL ?_) fun e => ?_
  · refine tw_bind (tw_orMsg (wp_no number_wp) (tw_number hG (.inl h2))) fun _ x3 y3 h3 => wsL hG (.inl h3) fun x4 y4 h4 _ => ?_
    exact tw_bind (tw_expectChar hG h4 (by decide)) fun _ x5 y5 h5 => tw_pure h5.1
  · have e : ch = ']' := Classical.not_not.1 e
    subst e
    exact tw_pure (Near.own hG h2 (by decide))

theorem tw_parseVector (n n' : Nat) (name : Name) (h : Near D KeepsElse (.code []) x y) : TwP D (parseVector n name) (parseVector n' name) x y (Nr D KeepsElse) := by
  refine tw_bd fun _ => tw_bind (tw_lx (tw_vectorSize ends_keeps h)) fun _ x1 y1 h1 => wsP ends_keeps (.inl h1) fun x2 y2 h2 hs => ?_
  refine reP h2 (solidB hs) fun ch x3 y3 _ h3 => tw_bind (R := Nr D KeepsElse) (tw_ite (fun _ => unP (tw_ivals n n' h3)) fun e => tw_pure ?_) fun _ x4 y4 h4 => tw_bd' fun _ => h4
  have e : ch = ';' := Classical.not_not.1 e
  subst e
  exact Near.own ends_keeps h3 (by decide)

theorem tw_paramBody {G : List Char → Prop} (hG : Ends G) (ps : List Name) (h : Near D G (.code []) x y) : TwL D (paramBody ps) (paramBody ps) x y (RR D G) := by
  refine wsL hG (.inl h) fun x1 y1 h1 _ => tw_bind (tw_identOr hG (.inl h1)) fun name x2 y2 h2 => wsL hG (.inl h2.1) fun x3 y3 h3 hs => ?_
  refine reL h3 (solidB hs) fun ch x4 y4 _ h4 => tw_ite (fun e => ?_) fun _ => tw_ite (fun e => ?_) fun _ => tw_throw
  · subst e; exact tw_pure (Near.own hG h4 (by decide))
  · subst e; exact tw_pure (Near.own hG h4 (by decide))

theorem tw_parseFunction (n n' : Nat) (name : Name) (h : Near D KeepsElse (.code []) x y) : TwP D (parseFunction n name) (parseFunction n' name) x y (Nr D KeepsElse) := by
  have rest : ∀ ps x2 y2, Near D KeepsElse (.code []) x2 y2 → TwP D (do
      let fn ← bd (declareFunction name ps)
      bd (startFunction fn)
      let _ ← parseStmt n none []
      bd endFunction) (do
      let fn ← bd (declareFunction name ps)
      bd (startFunction fn)
      let _ ← parseStmt n' none []
      bd endFunction) x2 y2 (Nr D KeepsElse) := fun ps x2 y2 h2 =>
    tw_bd fun _ => tw_bd fun _ => tw_bind (tw_parseStmt n n' _ _ _ _ (.inl h2)) fun _ x3 y3 h3 => tw_bd' fun _ => h3
  have args : ∀ x y, Near D KeepsElse (.code []) x y → TwL D (parseArguments n) (parseArguments n') x y (Nr D KeepsElse) := fun x y h =>
    tw_loop (I := Nr D KeepsElse) (Q := Nr D KeepsElse) (fun b _ _ h => tw_paramBody ends_keeps b h) n n' [] _ _ h
  refine reP h (fun c c' x1 y1 _ _ hb hb' _ hn => ?_) fun ch x1 y1 _ h1 =>
    tw_bind (R := Nr D KeepsElse) (tw_lx (tw_ite (fun _ => unL (args _ _ h1)) fun e => tw_pure ?_)) fun ps x2 y2 h2 => rest ps x2 y2 h2
  · exact tw_bind (R := Nr D KeepsElse) (tw_lx (tw_yes (blank_ne hb (by decide)) (blank_ne hb' (by decide)) (unL (args _ _ hn)))) fun ps x2 y2 h2 => rest ps x2 y2 h2
  · have e : ch = ')' := Classical.not_not.1 e
    subst e
    exact Near.own ends_keeps h1 (by decide)

theorem tw_parseDecl (n n' : Nat) (name : Name) {ch : Char} (h : Near D KeepsElse (.code []) (ch :: x) (ch :: y)) :
    TwP D (parseDecl n name ch) (parseDecl n' name ch) x y (Nr D KeepsElse) := by
  refine tw_ite (fun e => ?_) fun _ => tw_ite (fun e => ?_) fun _ => unP (tw_parseGlobal n n' name h)
  · subst e; exact tw_parseFunction n n' name (Near.own ends_keeps h (by decide))
  · subst e; exact tw_parseVector n n' name (Near.own ends_keeps h (by decide))

theorem tw_declBlank (n n' : Nat) (name : Name) {c c' : Char} (hb : Blank c) (hb' : Blank c') (h : Near D KeepsElse (.code []) (c :: x) (c' :: y)) :
    TwP D (parseDecl n name c) (parseDecl n' name c') x y (Nr D KeepsElse) := by
  unfold parseDecl
  blanks hb hb'
  exact unP (tw_parseGlobal n n' name h)

theorem tw_declBody (n n' : Nat) (u : Unit) (h : Loose D KeepsElse x y) : TwP D (declBody n u) (declBody n' u) x y (RR D KeepsElse) := by
  refine tw_bind (tw_lx (tw_identifier ends_keeps h)) fun name x1 y1 h1 => tw_ite (fun _ => ?_) fun _ => ?_
  · exact rdP h1.1 (fun _ _ _ _ _ _ _ _ _ _ => tw_fail) (fun c x2 y2 _ h2 => tw_fail) (tw_pure (.same _)) tw_throw
  · exact rdP h1.1 (fun c c' x2 y2 _ _ hb hb' _ h2 => tw_bind (tw_declBlank n n' name hb hb' h2) fun _ x3 y3 h3 => tw_bd fun _ => tw_pure h3)
      (fun c x2 y2 _ h2 => tw_bind (tw_parseDecl n n' name h2) fun _ x3 y3 h3 => tw_bd fun _ => tw_pure h3) tw_fail tw_throw

theorem tw_parseDeclarations (n n' : Nat) (h : Loose D KeepsElse x y) : TwP D (parseDeclarations n) (parseDeclarations n') x y (Nr D KeepsElse) :=
  tw_loop (I := fun _ => Loose D KeepsElse) (Q := Nr D KeepsElse)
    (fun b _ _ h => tw_mono (tw_declBody n n' b h) fun i x y hi => by
      cases i with
      | next b => exact .inl hi
      | done r => exact hi) n n' () x y h
end

end Blang.Blanks
