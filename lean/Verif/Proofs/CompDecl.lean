import Verif.Proofs.CompStmt
import Verif.Proofs.Fuel
import Verif.Proofs.ProgMain
/-
Completeness of the parser, last part: declarations and the whole front end.
-/
namespace Blang
open Spec

theorem spaced_char {l : List Char} {t : Tok} {ts : List Tok} (h : SpacedE l (t :: ts)) {d : Char}
    (hd : ¬ Blank d ∧ d ≠ '/') (ht : ∀ x r, LexesE (d :: x) t r → False) :
    ∃ ch r, l = ch :: r ∧ ch ≠ d := by
  obtain ⟨lay, m, rfl, hl, hm⟩ := h
  cases hl with
  | nil =>
    obtain ⟨rr, h1, _, _⟩ := text_inv hm
    obtain ⟨ch, x, rfl, hc⟩ := lexes_first h1.quirk
    refine ⟨ch, x, rfl, ?_⟩
    rintro rfl
    exact ht _ _ h1
  | @blank b lay hb _ => exact ⟨b, _, rfl, by rintro rfl; exact hd.1 hb⟩
  | comment => exact ⟨'/', _, rfl, Ne.symm hd.2⟩

section
variable {l : List Char} {c : CState} {n : Nat} {us ts : List Tok}

theorem number_spaced {m ds : List Char} (h : SpacedE m (.num ds :: us)) :
    ∃ r, number ⟨m, .eof⟩ = .ok (BitVec.ofNat 64 (literalValue ds)) ⟨r, .eof⟩ ∧ After (.num ds) r us := by
  obtain ⟨lay, m, rfl, hl, hm⟩ := h
  obtain ⟨r, rfl, h1, h2, h3, h4⟩ := text_num hm
  exact ⟨r, number_digits hl h1 h2 h3, h4⟩

theorem ival_complete {v : Ival} {m : List Char} (h : IGram false ts v) (hm : TextE m (ts ++ us)) :
    Sim (SpacedE · us) (parseIvalConst (st m c)) (genIval v c) := by
  unfold parseIvalConst
  cases h with
  | none hq => exact absurd hq (by decide)
  | negNone hq => exact absurd hq (by decide)
  | @num ds =>
    obtain ⟨r, e, h1, h2, h3, h4⟩ := text_num hm
    cases ds with
    | nil => exact absurd rfl h1
    | cons d ds =>
      have hd := h2 d (by simp)
      subst e
      have e2 := number_text h1 h2 h3
      rw [List.cons_append] at e2 ⊢
      rw [M.bind_ok re_cons, if_neg (by rw [isLetter_iff]; intro h; revert hd h; unfold Letter Digit; omega),
        if_neg (digit_ne hd (by decide)), if_neg (digit_ne hd (by decide)), if_neg (digit_ne hd (by decide)), M.bind_ok un_st,
        M.bind_ok (lx_st (orMsg_of e2))]
      exact Sim.ok h4.spaced
  | @neg ds =>
    obtain ⟨r, e, _, _, h4⟩ := text_sym hm
    subst e
    obtain ⟨r2, e2, h5⟩ := number_spaced h4.spaced
    rw [List.cons_append, List.nil_append, M.bind_ok re_cons, if_neg (by decide), if_neg (by decide), if_neg (by decide), if_pos rfl,
      M.bind_ok (lx_st (orMsg_of e2))]
    exact Sim.ok h5.spaced
  | @chr vs =>
    obtain ⟨t, r, rfl, h1, h2, h3⟩ := text_chr hm
    rw [List.cons_append, M.bind_ok re_cons, if_neg (by decide), if_pos rfl,
      M.bind_ok (lx_st (orMsg_of (character_text h1 h2 r)))]
    exact Sim.ok h3.spaced
  | @str vs =>
    obtain ⟨t, r, rfl, h1, h3⟩ := text_str hm
    rw [List.cons_append, M.bind_ok re_cons, if_neg (by decide), if_neg (by decide), if_pos rfl,
      M.bind_ok (lx_st (stringLit_items h1 r .eof))]
    unfold genIval
    exact Sim.bd fun a c' _ => Sim.ok h3.spaced

theorem ivals_complete {vs : List Ival} (h : IsGram false ts vs) : ∀ {us : List Tok} {l : List Char} {c : CState} {n : Nat}
    {acc : List Const}, SpacedE l (ts ++ us) →
    Sim (SpacedE · us) (loop n ivalBody acc (st l c)) ((genIvals vs >>= fun cs => pure (acc ++ cs)) c) := by
  induction h with
  | @last ts v h =>
    intro us l c n acc ht
    cases n with
    | zero => exact .inl rfl
    | succ n =>
      obtain ⟨m, hm, hw⟩ := ht.ws
      rw [loop_step, ivalBody]
      simp only [M.bind_assoc']
      rw [M.bind_ok (lx_st hw), genIvals]
      simp only [M.bind_assoc', M.pure_bind']
      refine (ival_complete (us := .sym [';'] :: us) h (by simpa using hm)).bind fun a c' r _ hr => ?_
      obtain ⟨r2, ha2, hw2⟩ := ws_re hr
      rw [M.bind_ok (lx_st hw2), M.bind_ok re_cons, if_pos rfl, genIvals]
      exact Sim.ok ha2.spaced
  | @cons ts us' v vs h _ ih =>
    intro us l c n acc ht
    cases n with
    | zero => exact .inl rfl
    | succ n =>
      obtain ⟨m, hm, hw⟩ := ht.ws
      rw [loop_step, ivalBody]
      simp only [M.bind_assoc']
      rw [M.bind_ok (lx_st hw), genIvals]
      simp only [M.bind_assoc', M.pure_bind']
      refine (ival_complete (us := .sym [','] :: (us' ++ us)) h (by simpa using hm)).bind fun a c' r _ hr => ?_
      obtain ⟨r2, ha2, hw2⟩ := ws_re hr
      rw [M.bind_ok (lx_st hw2), M.bind_ok re_cons, if_neg (by decide), if_neg (by simp), M.pure_bind']
      have := ih (us := us) (l := r2) (c := c') (n := n) (acc := acc ++ [a]) ha2.spaced
      simpa [M.bind_assoc'] using this

theorem isgram_head {vs : List Ival} (h : IsGram false ts vs) : ∃ t ts', ts = t :: ts' ∧
    (∀ d, d = ';' ∨ d = '(' ∨ d = '[' → ∀ x r, LexesE (d :: x) t r → False) := by
  have : ∀ {ts v}, IGram false ts v → ∃ t ts', ts = t :: ts' ∧
      (∀ d, d = ';' ∨ d = '(' ∨ d = '[' → ∀ x r, LexesE (d :: x) t r → False) := by
    intro ts v h
    cases h with
    | none hq => exact absurd hq (by decide)
    | negNone hq => exact absurd hq (by decide)
    | num | neg | chr | str =>
      refine ⟨_, _, rfl, ?_⟩
      intro d hd x r hl
      obtain ⟨ch, y, e, hc⟩ := lexes_first hl.quirk
      cases e
      revert hc
      rcases hd with rfl | rfl | rfl <;> simp only <;> decide
  cases h with
  | last h | cons h _ =>
    obtain ⟨t, ts', rfl, h'⟩ := this h
    exact ⟨t, _, rfl, h'⟩

theorem isgram_ne {vs : List Ival} (h : IsGram false ts vs) : vs ≠ [] := by cases h <;> simp

theorem genIvals_length {vs : List Ival} : ∀ {c c' : CState} {cs : List Const}, genIvals vs c = .ok cs c' → cs.length = vs.length := by
  induction vs with
  | nil => intro c c' cs h; simp [genIvals] at h; rw [h.1]; rfl
  | cons v vs ih =>
    intro c c' cs h
    unfold genIvals at h
    obind h a s h1
    obind h b s2 h2
    simp at h
    rw [← h.1, List.length_cons, ih h2, List.length_cons]

theorem param_complete {xs : List Name} (h : NsGram [')'] ts xs) : ∀ {us : List Tok} {l : List Char} {n : Nat} {acc : List Name},
    SpacedE l (ts ++ us) → loop n paramBody acc ⟨l, .eof⟩ = .err .fuel ∨ ∃ r, loop n paramBody acc ⟨l, .eof⟩ = .ok (acc ++ xs) ⟨r, .eof⟩ ∧ SpacedE r us := by
  induction h with
  | @last x =>
    intro us l n acc ht
    cases n with
    | zero => exact .inl rfl
    | succ n =>
      right
      rw [loop_step, paramBody]
      obtain ⟨m, hm, hw⟩ := ht.ws
      obtain ⟨r, e, ha⟩ := identOr_text (msg := "expect ')' or identifier after function arguments") hm.spaced
      obtain ⟨r1, ha1, hw1⟩ := ws_re (show SpacedE r (.sym [')'] :: us) from ha.spaced)
      refine ⟨r1, ?_, ha1.spaced⟩
      simp only [M.bind_assoc']
      rw [M.bind_ok hw, M.bind_ok e, M.bind_ok hw1, M.bind_ok (readOrErr_cons _ _ _), if_pos rfl]
      rfl
  | @cons x ts xs _ ih =>
    intro us l n acc ht
    cases n with
    | zero => exact .inl rfl
    | succ n =>
      rw [loop_step, paramBody]
      obtain ⟨m, hm, hw⟩ := ht.ws
      obtain ⟨r, e, ha⟩ := identOr_text (msg := "expect ')' or identifier after function arguments") hm.spaced
      obtain ⟨r1, ha1, hw1⟩ := ws_re (show SpacedE r (.sym [','] :: (ts ++ us)) from ha.spaced)
      simp only [M.bind_assoc']
      rw [M.bind_ok hw, M.bind_ok e, M.bind_ok hw1, M.bind_ok (readOrErr_cons _ _ _), if_neg (by decide), if_pos rfl]
      have := ih (us := us) (l := r1) (n := n) (acc := acc ++ [x]) ha1.spaced
      rw [M.pure_bind']
      simpa using this

theorem vsize_complete {v : Word} {m : List Char} (h : VGram ts v) (hs : SpacedE m (ts ++ us)) :
    ∃ r, vectorSize ⟨m, .eof⟩ = .ok v ⟨r, .eof⟩ ∧ SpacedE r us := by
  unfold vectorSize
  cases h with
  | none =>
    obtain ⟨r, ha, hw⟩ := ws_re hs
    exact ⟨r, by rw [M.bind_ok hw, M.bind_ok (readOrErr_cons _ _ _), if_neg (by simp)]; rfl, ha.spaced⟩
  | @num ds =>
    obtain ⟨m, hm, hw⟩ := hs.ws
    obtain ⟨r, rfl, h1, h2, h3, h4⟩ := text_num hm
    cases ds with
    | nil => exact absurd rfl h1
    | cons d ds =>
      have hd := h2 d (by simp)
      obtain ⟨r1, ha1, hw1⟩ := ws_re (show SpacedE r (.sym [']'] :: us) from h4.spaced)
      refine ⟨r1, ?_, ha1.spaced⟩
      have e2 := number_text h1 h2 h3
      rw [List.cons_append] at e2 hw
      rw [M.bind_ok hw, M.bind_ok (readOrErr_cons _ _ _), if_pos (digit_ne hd (by decide)), M.bind_ok (unreadChar_apply _ _ _),
        M.bind_ok (orMsg_of e2), M.bind_ok hw1, M.bind_ok (expectChar_cons _ _ _ _)]
      rfl

theorem oivals_complete {vs : List Ival} (h : OIsGram false ts vs) (hs : SpacedE l (ts ++ us)) :
    Sim (SpacedE · us) ((lx whitespace >>= fun _ => lx readOrErr >>= fun ch => vectorInit n ch) (st l c)) (genIvals vs c) := by
  cases h with
  | none =>
    obtain ⟨r1, ha1, hw1⟩ := ws_re hs
    rw [M.bind_ok (lx_st hw1), M.bind_ok re_cons, vectorInit, if_neg (by simp), genIvals]
    exact Sim.ok ha1.spaced
  | some h =>
    obtain ⟨t, ts', rfl, hh⟩ := isgram_head h
    obtain ⟨m, hm, hw⟩ := hs.ws
    obtain ⟨ch, r, rfl, hc⟩ := spaced_char (show SpacedE m (t :: (ts' ++ us)) from hm.spaced) (by decide) (hh _ (.inl rfl))
    rw [M.bind_ok (lx_st hw), M.bind_ok re_cons, vectorInit, if_pos hc, M.bind_ok un_st]
    have := ivals_complete h (c := c) (n := n) (acc := []) hm.spaced
    simpa [bind_pure'] using this

theorem oivals_bind {α : Type} {K : List Char → Prop} {k : List Const → P α} {k' : List Const → B α} {vs : List Ival}
    (h : OIsGram false ts vs) (hs : SpacedE l (ts ++ us))
    (hk : ∀ cs c' r, genIvals vs c = .ok cs c' → SpacedE r us → Sim K (k cs (st r c')) (k' cs c')) :
    Sim K ((lx whitespace >>= fun _ => lx readOrErr >>= fun ch => vectorInit n ch >>= k) (st l c)) ((genIvals vs >>= k') c) := by
  have := (oivals_complete (n := n) (c := c) h hs).bind (k := k) (k' := k') hk
  simpa only [M.bind_assoc'] using this

theorem decl_complete {E : Env} {d : Decl} (h : DeclGram prec false ts d) (hs : SpacedE l (ts ++ us)) (hk : KnowsTop E c)
    (hc : d.Clear E) (hel : ¬ ElsHead us) : Sim (SpacedE · us) (((lx identifier >>= fun name => if name = [] then do
          match ← lx readChar with
          | .eof => pure (.done ())
          | .io => M.throw .io
          | .ch _ => fail "expect identifier at top level"
        else do
          match ← lx readChar with
          | .eof => fail "unexpected end of file after declaration"
          | .io => M.throw .io
          | .ch ch =>
            parseDecl n name ch
            bd clearTopLevelContext
            pure (.next ())) : P (Iter Unit Unit)) (st l c))
      ((genDecl d >>= fun _ => clearTopLevelContext >>= fun _ => pure (.next ())) c) := by
  have start : ∀ x us', SpacedE l (.defn x :: us') → (us' ≠ [] ∨ True) → ∃ r, After (.defn x) r us' ∧ x ≠ [] ∧ identifier ⟨l, .eof⟩ = .ok x ⟨r, .eof⟩ := by
    intro x us' hs _
    obtain ⟨lay, m, rfl, hl, hm⟩ := hs
    obtain ⟨r, rfl, h1, h2, h3, h4⟩ := text_defn hm
    exact ⟨r, h4, h1, ident_text hl rfl h1 h2 h3⟩
  cases h with
  | @global x ts vs ho =>
    obtain ⟨r, ha, hx, e⟩ := start x (ts ++ us) hs (.inr trivial)
    rw [M.bind_ok (lx_st e), if_neg hx, genDecl]
    cases ho with
    | none =>
      obtain ⟨r1, rfl, _, _, ha1⟩ := text_sym (ha.tight (by simp [Tight]))
      rw [List.cons_append, List.nil_append, M.bind_ok rd_cons]
      dsimp only
      rw [parseDecl, if_neg (by decide), if_neg (by decide)]
      simp only [M.bind_assoc']
      rw [M.bind_ok un_st, parseGlobal]
      simp only [M.bind_assoc']
      refine Sim.bd fun _ c1 _ => ?_
      rw [M.bind_ok re_cons, if_neg (by simp), genIvals, M.pure_bind', declareVals]
      exact Sim.bd fun _ c2 _ => Sim.bd fun _ c3 _ => Sim.ok ha1.spaced
    | some h =>
      obtain ⟨t, ts', rfl, hh⟩ := isgram_head h
      have hs2 : SpacedE r (t :: (ts' ++ us)) := ha.spaced
      obtain ⟨ch, r', rfl, n1⟩ := spaced_char hs2 (by decide) (hh _ (.inl rfl))
      obtain ⟨_, _, e', n2⟩ := spaced_char hs2 (by decide) (hh _ (.inr (.inl rfl)))
      cases e'
      obtain ⟨_, _, e', n3⟩ := spaced_char hs2 (by decide) (hh _ (.inr (.inr rfl)))
      cases e'
      rw [M.bind_ok rd_cons]
      dsimp only
      rw [parseDecl, if_neg n2, if_neg n3]
      simp only [M.bind_assoc']
      rw [M.bind_ok un_st, parseGlobal]
      simp only [M.bind_assoc']
      refine Sim.bd fun _ c1 _ => ?_
      rw [M.bind_ok re_cons, if_pos n1]
      simp only [M.bind_assoc']
      rw [M.bind_ok un_st]
      have := ivals_complete h (us := us) (c := c1) (n := n) (acc := []) hs2
      simp only [List.nil_append, bind_pure'] at this
      refine this.bind fun cs c2 m hcs hm => ?_
      have hl := genIvals_length hcs
      have hne := isgram_ne h
      unfold declareVals
      match cs with
      | [] => exact absurd (List.eq_nil_of_length_eq_zero hl.symm) hne
      | [v] => exact Sim.bd fun _ c2 _ => Sim.bd fun _ c3 _ => Sim.ok hm
      | v :: w :: cs => exact Sim.bd fun _ c2 _ => Sim.bd fun _ c3 _ => Sim.ok hm
  | @vector x ts us' n' vs hv ho =>
    obtain ⟨r, ha, hx, e⟩ := start x (.sym ['['] :: (ts ++ (us' ++ us))) (by simpa using hs) (.inr trivial)
    rw [M.bind_ok (lx_st e), if_neg hx, genDecl]
    obtain ⟨r1, rfl, _, _, ha1⟩ := text_sym (ha.tight (by simp [Tight]))
    rw [List.cons_append, List.nil_append, M.bind_ok rd_cons]
    dsimp only
    rw [parseDecl, if_neg (by decide), if_pos rfl, parseVector]
    simp only [M.bind_assoc']
    refine Sim.bd fun _ c1 _ => ?_
    obtain ⟨r2, e2, hr2⟩ := vsize_complete hv ha1.spaced
    rw [M.bind_ok (lx_st e2)]
    exact oivals_bind ho hr2 fun cs c2 r _ hr => Sim.bd fun _ _ _ => Sim.bd fun _ _ _ => Sim.ok hr
  | @func x ts us' ps b hp hb =>
    obtain ⟨r, ha, hx, e⟩ := start x (.sym ['('] :: (ts ++ (us' ++ us))) (by simpa using hs) (.inr trivial)
    have hn := hs.toks (.defn x) (by simp)
    have hnb := sgram_names hb fun t m => hs.toks t (by simp [m])
    rw [M.bind_ok (lx_st e), if_neg hx]
    obtain ⟨r1, rfl, _, _, ha1⟩ := text_sym (ha.tight (by simp [Tight]))
    rw [List.cons_append, List.nil_append, M.bind_ok rd_cons]
    dsimp only
    rw [parseDecl, if_pos rfl, parseFunction, genDecl]
    simp only [M.bind_assoc']
    have par : (lx readOrErr >>= fun ch => lx (paramList n ch)) (st r1 c) = .err .fuel ∨
        ∃ r2, (lx readOrErr >>= fun ch => lx (paramList n ch)) (st r1 c) = .ok ps (st r2 c) ∧ SpacedE r2 (us' ++ us) := by
      cases hp with
      | none =>
        obtain ⟨r2, rfl, _, _, ha2⟩ := text_sym (ha1.tight (by simp [Tight]))
        right
        refine ⟨r2, ?_, ha2.spaced⟩
        rw [List.cons_append, List.nil_append, M.bind_ok re_cons, paramList, if_neg (by simp)]
        rfl
      | some h =>
        obtain ⟨y, ts', rfl⟩ : ∃ y ts', ts = .word y :: ts' := by cases h <;> exact ⟨_, _, rfl⟩
        obtain ⟨ch, r', rfl, n1⟩ := spaced_char (d := ')') (show SpacedE r1 (.word y :: (ts' ++ (us' ++ us))) from ha1.spaced) (by decide) (by
          intro x r hl
          obtain ⟨ch, y, e, hc⟩ := lexes_first hl.quirk
          cases e
          revert hc
          simp only
          decide)
        rw [M.bind_ok re_cons, paramList, if_pos n1]
        rcases param_complete h (us := us' ++ us) (n := n) (acc := []) ha1.spaced with e | ⟨r2, e, hr2⟩
        · left
          exact lx_st_err (by rw [M.bind_ok (unreadChar_apply _ _ _)]; exact e)
        · right
          exact ⟨r2, lx_st (by rw [M.bind_ok (unreadChar_apply _ _ _)]; exact e), hr2⟩
    rw [← M.bind_assoc']
    rcases par with e | ⟨r2, e, hr2⟩
    · rw [M.bind_err e]; exact .inl rfl
    rw [M.bind_ok e]
    refine Sim.bd fun fn c1 h1 => Sim.bd fun _ c2 h2 => ?_
    have hk2 : Knows (E.enter x ps) c2 := by
      have hk0 := knows_entered hk hn ps
      have hp := tr_paramCode ps ⟨E.vars, x :: E.funs, [], []⟩
      rw [show (ps ++ ([] : List Name)) = ps by simp] at hp
      have h1' := h1
      rw [declareFunction_eq] at h1
      simp only [R.ok.injEq] at h1
      obtain ⟨rfl, rfl⟩ := h1
      rw [startFunction_eq, startParams_declared hk.functions (declareFunction_eq x ps c)] at h2
      exact hp.knows hk0 h2
    refine (sgram_good hb _ us r2 c2 n none [] hr2 hc hk2 ?_).bind fun _ c3 r3 _ hr3 => ?_
    · exact fun _ => hel
    · exact Sim.bd fun _ _ _ => Sim.bd fun _ _ _ => Sim.ok hr3

theorem proggram_start {p : Program} (h : ProgGram prec false ts p) : ¬ ElsHead ts := by
  rintro ⟨r, e⟩
  cases h with
  | nil => cases e
  | cons h _ => cases h <;> cases e

theorem prog_complete {p : Program} {ts : List Tok} (h : ProgGram prec false ts p) : ∀ {E : Env} {l : List Char} {c : CState} {k : Nat},
    SpacedE l ts → KnowsTop E c → Program.ClearIn E p → Sim (fun _ => True) (loop k (declBody n) () (st l c)) (genProg p c) := by
  induction h with
  | nil =>
    intro E l c k hs hk hc
    cases k with
    | zero => exact .inl rfl
    | succ k =>
      obtain ⟨lay, m, rfl, hl, hm⟩ := hs
      have := text_nil hm
      subst this
      have e : identifier ⟨lay ++ [], .eof⟩ = .ok [] ⟨[], .eof⟩ := by
        have := identifier_eq (lay := lay) (ds := []) (rest := []) (t := .eof) hl (by simp) trivial (fun _ => hm.stops)
        simpa using this
      rw [loop_step, declBody]
      simp only [M.bind_assoc']
      rw [M.bind_ok (lx_st e), if_pos rfl]
      simp only [M.bind_assoc']
      rw [M.bind_ok rd_nil]
      exact Sim.ok trivial
  | @cons ts us d p hd hp ih =>
    intro E l c k hs hk hc
    cases k with
    | zero => exact .inl rfl
    | succ k =>
      have hn := declgram_names hd fun t m => hs.toks t (by simp [m])
      rw [loop_step]
      have e : genProg (d :: p) c = ((genDecl d >>= fun _ => clearTopLevelContext >>= fun _ => pure (Iter.next (ρ := Unit) ())) >>= fun _ => genProg p) c := by
        simp only [genProg, M.bind_assoc', M.pure_bind']
      rw [e]
      refine (decl_complete (n := n) hd hs hk hc.1 (proggram_start hp)).bind fun it c1 r h1 hr => ?_
      obind h1 u c2 h2
      obind h1 u c3 h3
      simp at h1
      obtain ⟨rfl, rfl⟩ := h1
      exact ih hr ((tr_genDecl hk hn).2 c3 (by rw [M.bind_ok h2, h3])).2 hc.2
end

/-- The front end compiles every careful text of a clear program to the code of its tree. -/
theorem compileText_complete {text : List Char} {p : Program} (h : CarefulE prec text p) (hc : p.Clear) :
    (∀ c, genProg p newCompiler = .ok () c → compileText text .eof = .ok ⟨c.globals, c.funcs⟩) ∧
    ∀ e, genProg p newCompiler = .err e → ∃ e', compileText text .eof = .error e' := by
  obtain ⟨ts, hs, hp⟩ := h
  have h1 := prog_complete (n := fuelFor text.length) (k := fuelFor text.length) hp hs KnowsTop.init hc
  have h2 := (parseDeclarations_fuel (n := fuelFor text.length) (m := fuelFor text.length) (s := st text newCompiler)
    (by simp [fuelFor, plen, st]; omega) (Nat.le_refl _)).1
  unfold parseDeclarations at h2
  unfold compileText parseDeclarations
  rcases h1 with h1 | ⟨⟨e, h1⟩, e', h3⟩ | ⟨a, c, m, h3, h1, -⟩
  · exact absurd h1 h2
  · change loop _ _ _ (⟨⟨text, .eof⟩, newCompiler⟩ : PS) = _ at h1
    rw [h1, h3]
    exact ⟨fun c hc => (by cases hc), fun _ _ => ⟨_, rfl⟩⟩
  · change loop _ _ _ (⟨⟨text, .eof⟩, newCompiler⟩ : PS) = _ at h1
    rw [h1, h3]
    refine ⟨fun c hc => ?_, fun e hc => by cases hc⟩
    cases hc
    rfl

end Blang
