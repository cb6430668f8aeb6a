import Verif.Proofs.ClearExpr
/-
Second part: statements and programs. (The proofs follow Verif/Proofs/CompStmt.lean and Verif/Proofs/CompDecl.lean.)
-/
namespace Blang.Fine
open Blang Spec

section
variable {l : List Char} {c : CState} {n : Nat} {sw : Option Nat} {cs : Cases} {us ts : List Tok}

def GoodS (ts : List Tok) (s : St) : Prop := ∀ E us l c n sw cs, SpacedE l (ts ++ us) → Knows E c →
  (openIf s = true → ¬ ElsHead us) → Acc (fun m => SpacedE m us ∧ s.Clear E) (parseStmt n sw cs (st l c)) (genSt s sw cs c)

def GoodSs (ts : List Tok) (s : St) : Prop := ∀ E us l c n k sw cs, SpacedE l (ts ++ us) → Knows E c →
  Acc (fun m => SpacedE m us ∧ s.Clear E) (loop k (blockBody (parseStmt n) sw) cs (st l c)) (genSt s sw cs c)

/-- statements that are always clear -/
theorem goodS_of_clear {s : St} (h : Blang.GoodS ts s) (hc : ∀ E, s.Clear E) : GoodS ts s :=
  fun E us l c n sw cs hs hk ho => (Acc.of (h E us l c n sw cs hs (hc E) hk ho)).mono fun m hm => ⟨hm, hc E⟩

theorem goodS_block {s : St} (h : GoodSs ts s) : GoodS (.sym ['{'] :: ts) s := by
  intro E us l c n sw cs ht hk _
  cases n with
  | zero => exact .inl ⟨_, rfl⟩
  | succ n =>
    obtain ⟨r, ha, hw⟩ := ws_re (show SpacedE l (.sym ['{'] :: (ts ++ us)) from ht)
    rw [parseStmt, M.bind_ok (lx_st hw), M.bind_ok re_cons, if_pos rfl]
    exact h E us r c n n sw cs ha.spaced hk

theorem exprStmt_complete {V : Name → Prop} {e : Ex} (h : EGram prec 15 ts e) (ht : SpacedE l (ts ++ [.sym [';']] ++ us)) (hv : VS V c) :
    Acc (fun m => SpacedE m us ∧ e.Clear V) ((exprStmt n >>= fun _ => pure cs) (st l c)) (genSt (.expr e) sw cs c) := by
  unfold exprStmt genSt
  simp only [M.bind_assoc']
  refine (parseExpr_complete (us := .sym [';'] :: us) h (by simpa using ht) hv (stop_sym rfl _ _)).bind
    fun x c1 m _ ⟨hm, hcl⟩ => ?_
  rw [M.bind_ok hm.lws]
  obtain ⟨r, rfl, _, _, ha⟩ := text_sym hm
  rw [List.cons_append, List.nil_append, M.bind_ok exp_cons]
  exact Acc.ok ⟨ha.spaced, hcl⟩

theorem goodS_expr {e : Ex} (h : EGram prec 15 ts e) (hne : ∀ x us, ts ≠ .word x :: us) : GoodS (ts ++ [.sym [';']]) (.expr e) := by
  intro E us l c n sw cs ht hk _
  cases n with
  | zero => exact .inl ⟨_, rfl⟩
  | succ n =>
    obtain ⟨t, ts', rfl, hs⟩ := egram_start h
    obtain ⟨m, hm, hw⟩ := ht.ws
    have hm' := hm
    rw [List.cons_append, List.cons_append] at hm'
    obtain ⟨rr, h1, _, _⟩ := text_inv hm'
    obtain ⟨ch, x, rfl, hch⟩ := lexes_first h1.quirk
    have hx : ch ≠ '{' ∧ ch ≠ ';' ∧ ¬ Letter ch := by
      cases t with
      | num =>
        simp only at hch
        exact ⟨digit_ne hch (by decide), digit_ne hch (by decide), fun h => by revert hch h; unfold Letter Digit; omega⟩
      | chr | str => simp only at hch; subst hch; decide
      | word w => exact absurd rfl (hne w ts')
      | defn | head | els => exact hs.elim
      | sym s =>
        have : ∀ s ∈ [['('], ['+', '+'], ['-', '-'], ['!'], ['-'], ['*'], ['&']], ∀ ch, s.head? = some ch →
            ch ≠ '{' ∧ ch ≠ ';' ∧ ¬ Letter ch := by
          intro s hs
          simp only [List.mem_cons, List.not_mem_nil, or_false] at hs
          rcases hs with rfl | rfl | rfl | rfl | rfl | rfl | rfl <;> intro ch hh <;> simp at hh <;> subst hh <;> decide
        exact this s hs ch hch.1
    rw [parseStmt, M.bind_ok (lx_st hw), M.bind_ok re_cons, if_neg hx.1, if_neg hx.2.1, if_neg (by rw [isLetter_iff]; exact hx.2.2),
      M.bind_ok un_st]
    exact exprStmt_complete h hm.spaced hk.vs

theorem goodS_exprHead {x : List Char} {e : Ex} (h : EGram prec 15 (.word x :: ts) e) : GoodS (.head x :: ts ++ [.sym [';']]) (.expr e) := by
  intro E us l c n sw cs ht hk _
  cases n with
  | zero => exact .inl ⟨_, rfl⟩
  | succ n =>
    obtain ⟨m, hm, hw⟩ := ht.ws
    obtain ⟨r, e', h1, h2, h3, h4, h5, ha⟩ := text_head hm
    obtain ⟨m', hm', hw'⟩ := ha.spaced.ws
    rw [stmt_letter hw e' h1 h2 h3 hw', kwRest_other h4]
    -- the next token is a symbol
    obtain ⟨s, rest, hs, hcol⟩ : ∃ s rest, ts ++ [.sym [';']] ++ us = .sym s :: rest ∧ s.head? ≠ some ':' := by
      rcases egram_second h x ts rfl with rfl | ⟨s, rest, rfl, h'⟩
      · exact ⟨_, _, rfl, by decide⟩
      · exact ⟨_, _, rfl, h'⟩
    have hm2 : TextE m' (.sym s :: rest) := by rw [← hs]; exact hm'
    obtain ⟨r2, e2, hsym, _, _⟩ := text_sym hm2
    obtain ⟨d, s', rfl⟩ : ∃ d s', s = d :: s' := by
      cases s with
      | nil => exact absurd hsym (by decide)
      | cons d s' => exact ⟨d, s', rfl⟩
    have hd : ¬ IdentChar d := by
      have : ∀ s ∈ symbols, ∀ d, s.head? = some d → ¬ IdentChar d := by
        have h0 : ∀ s ∈ symbols, s.head?.all (fun d => !(isLetter d || isDigit d || d == '_')) = true := by decide
        intro s hs d hd
        have := h0 s hs
        rw [hd] at this
        simp only [Option.all_some, Bool.not_eq_true', Bool.or_eq_false_iff, beq_eq_false_iff_ne] at this
        rintro (h | h | h)
        · exact (isLetter_false d).1 this.1.1 h
        · exact (isDigit_false d).1 this.1.2 h
        · exact this.2 h
      exact this _ hsym d rfl
    rw [List.cons_append] at e2
    subst e2
    rw [M.bind_ok re_cons, if_neg (by simpa using hcol), M.bind_ok un_st,
      M.bind_ok (lx_st (show unreadAll (utf8 x) ⟨d :: (s' ++ r2), .eof⟩ = .ok () ⟨x ++ d :: (s' ++ r2), .eof⟩ from by
        rw [utf8_ascii h5.2, unreadAll_ok]))]
    refine exprStmt_complete h ?_ hk.vs
    have hx : x ≠ [] := by rintro rfl; exact h1
    refine TextE.spaced (.cons (lay := []) (rest := d :: (s' ++ r2)) (t := .word x) ?_ h5.1 .nil (fun _ _ _ h => h.elim) hm')
    exact .doc (.word hx h2 hd)

theorem goodS_ret {e : Ex} (h : EGram prec 15 ts e) :
    GoodS (.word "return".toList :: .sym ['('] :: ts ++ [.sym [')'], .sym [';']]) (.ret (some e)) := by
  intro E us l c n sw cs ht hk _
  cases n with
  | zero => exact .inl ⟨_, rfl⟩
  | succ n =>
    obtain ⟨m, hm, e⟩ := stmt_word (n := n) (sw := sw) (cs := cs) (c := c)
      (show SpacedE l (.word "return".toList :: (.sym ['('] :: (ts ++ [.sym [')'], .sym [';']] ++ us))) from by simpa using ht) (by decide : Letter 'r')
    rw [e]
    obtain ⟨r, rfl, _, _, ha⟩ := text_sym hm
    unfold kwRest parseReturn genSt
    rw [if_pos rfl]
    simp only [M.bind_assoc']
    rw [List.cons_append, List.nil_append, M.bind_ok re_cons, if_pos (by decide), if_neg (by simp)]
    simp only [M.bind_assoc']
    refine (parseExpr_complete (us := .sym [')'] :: .sym [';'] :: us) h (by simpa using ha.spaced) hk.vs (stop_sym rfl _ _)).bind
      fun x c1 m _ ⟨hm, hcl⟩ => ?_
    rw [M.bind_ok hm.lws]
    obtain ⟨r, rfl, _, _, ha⟩ := text_sym hm
    obtain ⟨r2, ha2, hw2⟩ := ws_re ha.spaced
    rw [List.cons_append, List.nil_append, M.bind_ok exp_cons, M.bind_ok (lx_st hw2), M.bind_ok exp_cons]
    exact Acc.bd fun _ c2 _ => Acc.ok ⟨ha2.spaced, hcl⟩

/-- the condition in parentheses -/
theorem cond_complete {V : Name → Prop} {e : Ex} {α : Type} {K : List Char → Prop} {k : Val → P α} {k' : Val → B α} {m : List Char}
    (h : EGram prec 15 ts e) (ht : SpacedE m (ts ++ .sym [')'] :: us)) (hv : VS V c) {msg : String}
    (hk : ∀ v c1 r, genR e c = .ok v c1 → e.Clear V → SpacedE r us → Acc K (k v (st r c1)) (k' v c1)) :
    Acc K ((parseExpression n >>= fun v => lx whitespace >>= fun _ => lx (expectChar ')' msg) >>= fun _ => k v) (st m c))
      ((genR e >>= k') c) := by
  refine (parseExpr_complete (us := .sym [')'] :: us) h ht hv (stop_sym rfl _ _)).bind
    fun x c1 m hx ⟨hm, hcl⟩ => ?_
  rw [M.bind_ok hm.lws]
  obtain ⟨r, rfl, _, _, ha⟩ := text_sym hm
  rw [List.cons_append, List.nil_append, M.bind_ok exp_cons]
  exact hk x c1 r hx hcl ha.spaced

theorem goodS_ifThen {vs : List Tok} {e : Ex} {t : St} (h : EGram prec 15 ts e) (hg : SGram prec false vs t) (ht : GoodS vs t) :
    GoodS (.word "if".toList :: .sym ['('] :: ts ++ .sym [')'] :: vs) (.ifThen e t) := by
  intro E us l c n sw cs hs hk ho
  cases n with
  | zero => exact .inl ⟨_, rfl⟩
  | succ n =>
    obtain ⟨m, hm, e1⟩ := stmt_word (n := n) (sw := sw) (cs := cs) (c := c)
      (show SpacedE l (.word "if".toList :: (.sym ['('] :: (ts ++ .sym [')'] :: (vs ++ us)))) from by simpa using hs) (by decide : Letter 'i')
    rw [e1]
    have hn := egram_names h fun t m => hs.toks t (by simp [m])
    have hn2 := sgram_names hg fun t m => hs.toks t (by simp [m])
    obtain ⟨r, rfl, _, _, ha⟩ := text_sym hm
    rw [kwRest, if_neg (by decide), if_neg (by decide), if_neg (by decide), if_pos rfl, parseIf, genSt]
    simp only [M.bind_assoc']
    rw [List.cons_append, List.nil_append, M.bind_ok exp_cons]
    refine cond_complete h ha.spaced hk.vs fun v c1 r1 hv hcl hr1 => ?_
    have hk1 := (tr_genR e hn E).knows hk hv
    unfold ifStart
    simp only [M.bind_assoc', M.pure_bind']
    refine Acc.bd fun a1 c2 h2 => Acc.bd fun a2 c3 h3 => Acc.bd fun a3 c4 h4 => Acc.bd fun a4 c5 h5 => Acc.bd fun a5 c6 h6 =>
      Acc.bd fun a6 c7 h7 => Acc.bd fun a7 c8 h8 => ?_
    have hk8 := (tr_setInsertPoint _).knows ((tr_setTerm _).knows ((tr_emit _).knows ((tr_newBlock _).knows ((tr_newBlock _).knows
      ((tr_newBlock _).knows (tr_freshLabelID.knows hk1 h2) h3) h4) h5) h6) h7) h8
    refine (ht _ us r1 c8 n none [] hr1 hk8 fun _ => ho rfl).bind fun a9 c9 r2 h9 ⟨hr2, hc2⟩ => ?_
    refine Acc.bd fun a10 c10 _ => Acc.bd fun a11 c11 _ => ?_
    obtain ⟨m2, hm2, hw2⟩ := hr2.ws
    rw [M.bind_ok (lx_st hw2), M.bind_ok (lx_st (tryElse_no hm2 (ho rfl))), if_neg (by decide), M.pure_bind']
    exact Acc.bd fun _ _ _ => Acc.bd fun _ _ _ => Acc.ok ⟨hm2.spaced, hcl, hc2⟩

theorem goodS_ifElse {vs ws : List Tok} {e : Ex} {t f : St} (h : EGram prec 15 ts e) (hg : SGram prec false vs t) (ht : GoodS vs t)
    (hop : openIf t = false) (hf : GoodS ws f) :
    GoodS (.word "if".toList :: .sym ['('] :: ts ++ .sym [')'] :: vs ++ .els :: ws) (.ifElse e t f) := by
  intro E us l c n sw cs hs hk ho
  cases n with
  | zero => exact .inl ⟨_, rfl⟩
  | succ n =>
    obtain ⟨m, hm, e1⟩ := stmt_word (n := n) (sw := sw) (cs := cs) (c := c)
      (show SpacedE l (.word "if".toList :: (.sym ['('] :: (ts ++ .sym [')'] :: (vs ++ .els :: (ws ++ us))))) from by simpa using hs)
      (by decide : Letter 'i')
    rw [e1]
    have hn := egram_names h fun t m => hs.toks t (by simp [m])
    have hn2 := sgram_names hg fun t m => hs.toks t (by simp [m])
    obtain ⟨r, rfl, _, _, ha⟩ := text_sym hm
    rw [kwRest, if_neg (by decide), if_neg (by decide), if_neg (by decide), if_pos rfl, parseIf, genSt]
    simp only [M.bind_assoc']
    rw [List.cons_append, List.nil_append, M.bind_ok exp_cons]
    refine cond_complete h ha.spaced hk.vs fun v c1 r1 hv hcl hr1 => ?_
    have hk1 := (tr_genR e hn E).knows hk hv
    unfold ifStart
    simp only [M.bind_assoc', M.pure_bind']
    refine Acc.bd fun a1 c2 h2 => Acc.bd fun a2 c3 h3 => Acc.bd fun a3 c4 h4 => Acc.bd fun a4 c5 h5 => Acc.bd fun a5 c6 h6 =>
      Acc.bd fun a6 c7 h7 => Acc.bd fun a7 c8 h8 => ?_
    have hk8 := (tr_setInsertPoint _).knows ((tr_setTerm _).knows ((tr_emit _).knows ((tr_newBlock _).knows ((tr_newBlock _).knows
      ((tr_newBlock _).knows (tr_freshLabelID.knows hk1 h2) h3) h4) h5) h6) h7) h8
    refine (ht _ _ r1 c8 n none [] hr1 hk8 fun h => by rw [hop] at h; cases h).bind fun a9 c9 r2 h9 ⟨hr2, hc2⟩ => ?_
    have hk9 := (tr_genSt t hn2 none [] _).knows hk8 h9
    refine Acc.bd fun a10 c10 h10 => Acc.bd fun a11 c11 h11 => ?_
    have hk11 := (tr_setInsertPoint _).knows ((tr_brIfOpen _).knows hk9 h10) h11
    obtain ⟨m2, hm2, hw2⟩ := hr2.ws
    obtain ⟨r3, e3, hr3⟩ := tryElse_yes hm2
    rw [M.bind_ok (lx_st hw2), M.bind_ok (lx_st e3), if_pos rfl]
    simp only [M.bind_assoc', M.pure_bind']
    refine (hf _ us r3 c11 n none [] hr3 hk11 ho).bind fun a12 c12 r4 h12 ⟨hr4, hc3⟩ => ?_
    exact Acc.bd fun _ _ _ => Acc.bd fun _ _ _ => Acc.ok ⟨hr4, hcl, hc2, hc3⟩

theorem goodS_while {vs : List Tok} {e : Ex} {t : St} (h : EGram prec 15 ts e) (ht : GoodS vs t) :
    GoodS (.word "while".toList :: .sym ['('] :: ts ++ .sym [')'] :: vs) (.while e t) := by
  intro E us l c n sw cs hs hk ho
  cases n with
  | zero => exact .inl ⟨_, rfl⟩
  | succ n =>
    obtain ⟨m, hm, e1⟩ := stmt_word (n := n) (sw := sw) (cs := cs) (c := c)
      (show SpacedE l (.word "while".toList :: (.sym ['('] :: (ts ++ .sym [')'] :: (vs ++ us)))) from by simpa using hs) (by decide : Letter 'w')
    rw [e1]
    have hn := egram_names h fun t m => hs.toks t (by simp [m])
    obtain ⟨r, rfl, _, _, ha⟩ := text_sym hm
    rw [kwRest, if_neg (by decide), if_neg (by decide), if_neg (by decide), if_neg (by decide), if_pos rfl, parseWhile, genSt, whileStart]
    simp only [M.bind_assoc', M.pure_bind']
    rw [List.cons_append, List.nil_append, M.bind_ok exp_cons]
    refine Acc.bd fun a1 c2 h2 => Acc.bd fun a2 c3 h3 => Acc.bd fun a3 c4 h4 => Acc.bd fun a4 c5 h5 => Acc.bd fun a5 c6 h6 =>
      Acc.bd fun a6 c7 h7 => ?_
    have hk7 := (tr_setInsertPoint _).knows ((tr_setTerm _).knows ((tr_newBlock _).knows ((tr_newBlock _).knows
      ((tr_newBlock _).knows (tr_freshLabelID.knows hk h2) h3) h4) h5) h6) h7
    refine cond_complete h ha.spaced hk7.vs fun v c1 r1 hv hcl hr1 => ?_
    have hk8 := (tr_genR e hn E).knows hk7 hv
    refine Acc.bd fun a8 c8 h8 => Acc.bd fun a9 c9 h9 => Acc.bd fun a10 c10 h10 => ?_
    have hk10 := (tr_setInsertPoint _).knows ((tr_setTerm _).knows ((tr_emit _).knows hk8 h8) h9) h10
    refine (ht _ us r1 c10 n none [] hr1 hk10 ho).bind fun a11 c11 r2 _ ⟨hr2, hc2⟩ => ?_
    exact Acc.bd fun _ _ _ => Acc.bd fun _ _ _ => Acc.ok ⟨hr2, hcl, hc2⟩

theorem goodS_switch {vs : List Tok} {e : Ex} {t : St} (h : EGram prec 15 ts e) (hg : SGram prec false vs t) (ht : GoodS vs t)
    (hq : ∀ s ws, vs = .sym s :: ws → s = ['{'] ∨ s = [';']) :
    GoodS (.word "switch".toList :: ts ++ vs) (.switch e t) := by
  intro E us l c n sw cs hs hk ho
  cases n with
  | zero => exact .inl ⟨_, rfl⟩
  | succ n =>
    obtain ⟨m, hm, e1⟩ := stmt_word (n := n) (sw := sw) (cs := cs) (c := c)
      (show SpacedE l (.word "switch".toList :: (ts ++ (vs ++ us))) from by simpa using hs) (by decide : Letter 's')
    rw [e1]
    have hn := egram_names h fun t m => hs.toks t (by simp [m])
    rw [kwRest, if_neg (by decide), if_neg (by decide), if_neg (by decide), if_neg (by decide), if_neg (by decide), if_pos rfl,
      parseSwitch, genSt]
    simp only [M.bind_assoc', M.pure_bind']
    refine Acc.bd fun a1 c2 h2 => ?_
    have hk2 := tr_freshLabelID.knows hk h2
    obtain ⟨q1, q2⟩ := sgram_switch (us := us) hg hq
    refine (parseExpr_complete h hm.spaced hk2.vs q2).bind fun v c3 m3 h3 ⟨hm3, hcl⟩ => ?_
    have hk3 := (tr_genR e hn E).knows hk2 h3
    unfold switchStart
    simp only [M.bind_assoc', M.pure_bind']
    refine Acc.bd fun a4 c4 h4 => Acc.bd fun a5 c5 h5 => Acc.bd fun a6 c6 h6 => Acc.bd fun a7 c7 h7 => Acc.bd fun a8 c8 h8 => ?_
    have hk8 := (tr_setInsertPoint _).knows ((tr_setTerm _).knows ((tr_newBlock _).knows ((tr_newBlock _).knows
      ((tr_newBlock _).knows hk3 h4) h5) h6) h7) h8
    refine (ht _ us m3 c8 n (some a1) [] hm3.spaced hk8 ho).bind fun a9 c9 r4 _ ⟨hr4, hc2⟩ => ?_
    exact Acc.bd fun _ _ _ => Acc.bd fun _ _ _ => Acc.bd fun _ _ _ => Acc.bd fun _ _ _ => Acc.ok ⟨hr4, hcl, hc2⟩

theorem goodS_case {t : Tok} {v : Word} {s : St} (h : CGram t v) (ht : GoodS ts s) :
    GoodS (.word "case".toList :: t :: .sym [':'] :: ts) (.case v s) := by
  intro E us l c n sw cs hs hk ho
  cases n with
  | zero => exact .inl ⟨_, rfl⟩
  | succ n =>
    obtain ⟨m, hm, e1⟩ := stmt_word (n := n) (sw := sw) (cs := cs) (c := c)
      (show SpacedE l (.word "case".toList :: (t :: .sym [':'] :: (ts ++ us))) from by simpa using hs) (by decide : Letter 'c')
    rw [e1]
    rw [kwRest, if_neg (by decide), if_neg (by decide), if_neg (by decide), if_neg (by decide), if_neg (by decide), if_neg (by decide),
      if_pos rfl]
    cases sw with
    | none => exact Acc.err
    | some id =>
      rw [genSt]
      dsimp only [parseCase]
      obtain ⟨r, e2, ha⟩ := caseConst_text hm h
      obtain ⟨r2, ha2, hw2⟩ := ws_re ha.spaced
      rw [M.bind_ok (lx_st e2), M.bind_ok (lx_st hw2), M.bind_ok exp_cons, genLabel]
      simp only [M.bind_assoc', M.pure_bind']
      refine Acc.bd fun a1 c2 h2 => Acc.bd fun a2 c3 h3 => Acc.bd fun a3 c4 h4 => ?_
      exact ht _ us r2 c4 n (some id) _ ha2.spaced ((tr_setInsertPoint _).knows ((tr_brIfOpen _).knows ((tr_getOrCreateLabel _).knows hk h2) h3) h4) ho

theorem goodS_label {x : List Char} {s : St} (h1 : StartsLetter x) (h2 : x ∉ keywords) (ht : GoodS ts s) :
    GoodS (.word x :: .sym [':'] :: ts) (.label x s) := by
  intro E us l c n sw cs hs hk ho
  cases n with
  | zero => exact .inl ⟨_, rfl⟩
  | succ n =>
    obtain ⟨m, hm, e1⟩ := stmt_word (n := n) (sw := sw) (cs := cs) (c := c)
      (show SpacedE l (.word x :: (.sym [':'] :: (ts ++ us))) from by simpa using hs) h1
    rw [e1, kwRest_other h2, genSt]
    obtain ⟨r, rfl, _, _, ha⟩ := text_sym hm
    rw [List.cons_append, List.nil_append, M.bind_ok re_cons, if_pos rfl, genLabel]
    simp only [M.bind_assoc', M.pure_bind']
    refine Acc.bd fun a1 c2 h2 => Acc.bd fun a2 c3 h3 => Acc.bd fun a3 c4 h4 => ?_
    exact ht _ us r c4 n sw _ ha.spaced ((tr_setInsertPoint _).knows ((tr_brIfOpen _).knows ((tr_getOrCreateLabel _).knows hk h2) h3) h4) ho

theorem goodSs_cons {vs : List Tok} {s t : St} (hg : SGram prec false ts s) (h1 : GoodS ts s) (hg2 : SsGram prec false vs t)
    (h2 : GoodSs vs t) : GoodSs (ts ++ vs) (.seq s t) := by
  intro E us l c n k sw cs hs hk
  cases k with
  | zero => exact .inl ⟨_, rfl⟩
  | succ k =>
    rw [loop_step, blockBody]
    simp only [M.bind_assoc']
    have hn := sgram_names hg fun t m => hs.toks t (by simp [m])
    obtain ⟨tk, ws, rfl, q1, q2⟩ := sgram_start hg
    obtain ⟨m, hm, hw⟩ := hs.ws
    have hm' := hm
    rw [List.cons_append, List.cons_append] at hm'
    obtain ⟨rr, hl, _, _⟩ := text_inv hm'
    obtain ⟨ch, x, rfl, hch⟩ := lexes_first hl.quirk
    have hx : ch ≠ '}' := by
      rintro rfl
      cases tk with
      | num | chr | str | word | head | defn => simp only at hch; revert hch; decide
      | els => exact q1 rfl
      | sym s =>
        have : ∀ s ∈ symbols, s.head? = some '}' → s = ['}'] := by decide
        exact q2 (by rw [this s hch.2 hch.1])
    rw [M.bind_ok (lx_st hw), M.bind_ok re_cons, if_neg hx]
    simp only [M.bind_assoc', M.pure_bind']
    rw [M.bind_ok un_st, genSt]
    obtain ⟨t2, ws2, rfl, q3⟩ := ssgram_start hg2
    refine (h1 E _ _ c n sw cs (by rw [List.append_assoc] at hm; exact hm.spaced) hk fun _ => ?_).bind fun a c1 r h1 hrc => ?_
    · rintro ⟨r, e⟩
      simp only [List.cons_append, List.cons.injEq] at e
      exact q3 e.1
    · exact (h2 _ us r c1 n k sw a hrc.1 ((tr_genSt s hn sw cs E).knows hk h1)).mono fun m hm => ⟨hm.1, hrc.2, hm.2⟩
end

mutual
theorem sgram_good {ts : List Tok} {s : St} (h : SGram prec false ts s) : GoodS ts s := by
  match h with
  | .block h => exact goodS_block (ssgram_good h)
  | .empty => exact goodS_of_clear Blang.goodS_empty fun _ => trivial
  | .exprHead h => exact goodS_exprHead h
  | .expr h hn => exact goodS_expr h hn
  | .ret0 => exact goodS_of_clear Blang.goodS_ret0 fun _ => trivial
  | .ret h => exact goodS_ret h
  | .auto h => exact goodS_of_clear (Blang.goodS_auto h) fun _ => trivial
  | .extrn h => exact goodS_of_clear (Blang.goodS_extrn h) fun _ => trivial
  | .ifThen h1 h2 => exact goodS_ifThen h1 h2 (sgram_good h2)
  | .ifElse h1 h2 ho h3 => exact goodS_ifElse h1 h2 (sgram_good h2) ho (sgram_good h3)
  | .while h1 h2 => exact goodS_while h1 (sgram_good h2)
  | .switch h1 h2 hq => exact goodS_switch h1 h2 (sgram_good h2) (hq rfl)
  | .case h1 h2 => exact goodS_case h1 (sgram_good h2)
  | .label h1 h2 h3 => exact goodS_label h1 h2 (sgram_good h3)
  | .goto => exact goodS_of_clear Blang.goodS_goto fun _ => trivial

theorem ssgram_good {ts : List Tok} {s : St} (h : SsGram prec false ts s) : GoodSs ts s := by
  match h with
  | .nil => exact fun E us l c n k sw cs hs hk => (Acc.of (Blang.goodSs_nil E us l c n k sw cs hs trivial hk)).mono fun m hm => ⟨hm, trivial⟩
  | .cons h1 h2 => exact goodSs_cons h1 (sgram_good h1) h2 (ssgram_good h2)
end


section
variable {l : List Char} {c : CState} {n : Nat} {us ts : List Tok}

/-- what a declaration is read as, up to `parseDecl` -/
theorem decl_complete {E : Env} {d : Decl} (h : DeclGram prec false ts d) (hs : SpacedE l (ts ++ us)) (hk : KnowsTop E c)
    (hel : ¬ ElsHead us) : Acc (fun m => SpacedE m us ∧ d.Clear E) (((lx identifier >>= fun name => if name = [] then do
          match ← lx readChar with
          | .eof => pure (.done ())
          | .io => M.throw .io
          | .ch _ => fail "expect identifier at top level"
        else do
          match ← lx readChar with
          | .eof => fail "unexpected end of file after declaration"
          | .io => M.throw .io
          | .ch ch =>
            parseDecl n name ch
            bd clearTopLevelContext
            pure (.next ())) : P (Iter Unit Unit)) (st l c))
      ((genDecl d >>= fun _ => clearTopLevelContext >>= fun _ => pure (.next ())) c) := by
  cases h with
  | global ho => exact (Acc.of (Blang.decl_complete (E := E) (.global ho) hs hk trivial hel)).mono fun m hm => ⟨hm, trivial⟩
  | vector hv ho => exact (Acc.of (Blang.decl_complete (E := E) (.vector hv ho) hs hk trivial hel)).mono fun m hm => ⟨hm, trivial⟩
  | @func x ts us' ps b hp hb =>
    have start : ∀ x us', SpacedE l (.defn x :: us') → ∃ r, After (.defn x) r us' ∧ x ≠ [] ∧ identifier ⟨l, .eof⟩ = .ok x ⟨r, .eof⟩ := by
      intro x us' hs
      obtain ⟨lay, m, rfl, hl, hm⟩ := hs
      obtain ⟨r, rfl, h1, h2, h3, h4⟩ := text_defn hm
      exact ⟨r, h4, h1, ident_text hl rfl h1 h2 h3⟩
    obtain ⟨r, ha, hx, e⟩ := start x (.sym ['('] :: (ts ++ (us' ++ us))) (by simpa using hs)
    have hn := hs.toks (.defn x) (by simp)
    have hnb := sgram_names hb fun t m => hs.toks t (by simp [m])
    rw [M.bind_ok (lx_st e), if_neg hx]
    obtain ⟨r1, rfl, _, _, ha1⟩ := text_sym (ha.tight (by simp [Tight]))
    rw [List.cons_append, List.nil_append, M.bind_ok rd_cons]
    dsimp only
    rw [parseDecl, if_pos rfl, parseFunction, genDecl]
    simp only [M.bind_assoc']
    have par : (lx readOrErr >>= fun ch => lx (paramList n ch)) (st r1 c) = .err .fuel ∨
        ∃ r2, (lx readOrErr >>= fun ch => lx (paramList n ch)) (st r1 c) = .ok ps (st r2 c) ∧ SpacedE r2 (us' ++ us) := by
      cases hp with
      | none =>
        obtain ⟨r2, rfl, _, _, ha2⟩ := text_sym (ha1.tight (by simp [Tight]))
        right
        refine ⟨r2, ?_, ha2.spaced⟩
        rw [List.cons_append, List.nil_append, M.bind_ok re_cons, paramList, if_neg (by simp)]
        rfl
      | some h =>
        obtain ⟨y, ts', rfl⟩ : ∃ y ts', ts = .word y :: ts' := by cases h <;> exact ⟨_, _, rfl⟩
        obtain ⟨ch, r', rfl, n1⟩ := spaced_char (d := ')') (show SpacedE r1 (.word y :: (ts' ++ (us' ++ us))) from ha1.spaced) (by decide) (by
          intro x r hl
          obtain ⟨ch, y, e, hc⟩ := lexes_first hl.quirk
          cases e
          revert hc
          simp only
          decide)
        rw [M.bind_ok re_cons, paramList, if_pos n1]
        rcases param_complete h (us := us' ++ us) (n := n) (acc := []) ha1.spaced with e | ⟨r2, e, hr2⟩
        · left
          exact lx_st_err (by rw [M.bind_ok (unreadChar_apply _ _ _)]; exact e)
        · right
          exact ⟨r2, lx_st (by rw [M.bind_ok (unreadChar_apply _ _ _)]; exact e), hr2⟩
    rw [← M.bind_assoc']
    rcases par with e | ⟨r2, e, hr2⟩
    · rw [M.bind_err e]; exact .inl ⟨_, rfl⟩
    rw [M.bind_ok e]
    refine Acc.bd fun fn c1 h1 => Acc.bd fun _ c2 h2 => ?_
    have hk2 : Knows (E.enter x ps) c2 := by
      have hk0 := knows_entered hk hn ps
      have hp := tr_paramCode ps ⟨E.vars, x :: E.funs, [], []⟩
      rw [show (ps ++ ([] : List Name)) = ps by simp] at hp
      have h1' := h1
      rw [declareFunction_eq] at h1
      simp only [R.ok.injEq] at h1
      obtain ⟨rfl, rfl⟩ := h1
      rw [startFunction_eq, startParams_declared hk.functions (declareFunction_eq x ps c)] at h2
      exact hp.knows hk0 h2
    refine (sgram_good hb _ us r2 c2 n none [] hr2 hk2 ?_).bind fun _ c3 r3 _ hr3 => ?_
    · exact fun _ => hel
    · exact Acc.bd fun _ _ _ => Acc.bd fun _ _ _ => Acc.ok hr3

theorem prog_complete {p : Program} {ts : List Tok} (h : ProgGram prec false ts p) : ∀ {E : Env} {l : List Char} {c : CState} {k : Nat},
    SpacedE l ts → KnowsTop E c → Acc (fun _ => Program.ClearIn E p) (loop k (declBody n) () (st l c)) (genProg p c) := by
  induction h with
  | nil =>
    intro E l c k hs hk
    exact (Acc.of (Blang.prog_complete (n := n) (.nil (pr := prec)) (E := E) hs hk trivial)).mono fun _ _ => trivial
  | @cons ts us d p hd hp ih =>
    intro E l c k hs hk
    cases k with
    | zero => exact .inl ⟨_, rfl⟩
    | succ k =>
      have hn := declgram_names hd fun t m => hs.toks t (by simp [m])
      rw [loop_step]
      have e : genProg (d :: p) c = ((genDecl d >>= fun _ => clearTopLevelContext >>= fun _ => pure (Iter.next (ρ := Unit) ())) >>= fun _ => genProg p) c := by
        simp only [genProg, M.bind_assoc', M.pure_bind']
      rw [e]
      refine (decl_complete (n := n) hd hs hk (proggram_start hp)).bind fun it c1 r h1 hr => ?_
      obind h1 u c2 h2
      obind h1 u c3 h3
      simp at h1
      obtain ⟨rfl, rfl⟩ := h1
      exact (ih hr.1 ((tr_genDecl hk hn).2 c3 (by rw [M.bind_ok h2, h3])).2).mono fun _ h => ⟨hr.2, h⟩
end

/-- An accepted careful text is clear. -/
theorem compileText_clear {text : List Char} {p : Program} (h : CarefulE prec text p) {m : Module}
    (hm : compileText text .eof = .ok m) : p.Clear := by
  obtain ⟨ts, hs, hp⟩ := h
  have h1 := prog_complete (n := fuelFor text.length) (k := fuelFor text.length) hp hs KnowsTop.init
  unfold compileText parseDeclarations at hm
  rcases h1 with ⟨e, h1⟩ | ⟨a, c, m, h3, h1, hc⟩
  · change loop _ _ _ (⟨⟨text, .eof⟩, newCompiler⟩ : PS) = _ at h1
    rw [h1] at hm
    cases hm
  · exact hc

end Blang.Fine
