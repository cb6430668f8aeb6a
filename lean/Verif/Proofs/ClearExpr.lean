import Verif.Proofs.CompDecl
/-
What the parser does on a text given by its tokens when nothing is known about names of functions
before `==` and assignment operators (`Ex.Clear`): it fails, or the expression is clear and the parser
does what the generator does. First part: expressions. (The proofs follow Verif/Proofs/CompExpr.lean.)
-/
namespace Blang.Fine
open Blang Spec

/-- The parser result `x` is an error, or it is what the generator result `y` says, and `K` holds of the remaining text. -/
def Acc {α : Type} (K : List Char → Prop) (x : R PS α) (y : R CState α) : Prop :=
  (∃ e, x = .err e) ∨ ∃ a c m, y = .ok a c ∧ x = .ok a (st m c) ∧ K m

section
variable {α β : Type} {K K' : List Char → Prop} {l : List Char} {c : CState}

theorem Acc.of {x : R PS α} {y : R CState α} (h : Sim K x y) : Acc K x y := by
  rcases h with h | ⟨h, _⟩ | h
  · exact .inl ⟨_, h⟩
  · exact .inl h
  · exact .inr h

theorem Acc.bind {f : P α} {g : B α} {k : α → P β} {k' : α → B β} (h : Acc K (f (st l c)) (g c))
    (hk : ∀ a c' m, g c = .ok a c' → K m → Acc K' (k a (st m c')) (k' a c')) :
    Acc K' ((f >>= k) (st l c)) ((g >>= k') c) := by
  rcases h with ⟨e, h⟩ | ⟨a, c', m, h', h, hm⟩
  · rw [M.bind_err h]; exact .inl ⟨_, rfl⟩
  · rw [M.bind_ok h, M.bind_ok h']; exact hk a c' m h' hm

theorem Acc.bd {f : B α} {k : α → P β} {k' : α → B β}
    (hk : ∀ a c', f c = .ok a c' → Acc K (k a (st l c')) (k' a c')) :
    Acc K ((Blang.bd f >>= k) (st l c)) ((f >>= k') c) := by
  cases h : f c with
  | err e => rw [M.bind_err (bd_st_err h)]; exact .inl ⟨_, rfl⟩
  | ok a c' => rw [M.bind_ok (bd_st h), M.bind_ok h]; exact hk a c' h

theorem Acc.bdLast {f : B α} (hk : K l) : Acc K (Blang.bd f (st l c)) (f c) := .of (Sim.bdLast hk)

theorem Acc.ok {a : α} (hk : K l) : Acc K ((pure a : P α) (st l c)) ((pure a : B α) c) :=
  .inr ⟨a, c, l, rfl, rfl, hk⟩

theorem Acc.err {e : Err} {y : R CState α} : Acc (α := α) K (.err e) y := .inl ⟨_, rfl⟩

theorem Acc.mono {x : R PS α} {y : R CState α} (h : Acc K x y) (hk : ∀ m, K m → K' m) : Acc K' x y := by
  rcases h with h | ⟨a, c', m, h', h, hm⟩
  · exact .inl h
  · exact .inr ⟨a, c', m, h', h, hk m hm⟩

/-- `Reach` with `Acc` -/
def Acr (body : α → P (Iter α β)) (K : List Char → Prop) (x : R PS β) (y : R CState α) : Prop :=
  (∃ e, x = .err e) ∨ ∃ a c m k, y = .ok a c ∧ x = loop k body a (st m c) ∧ K m

variable {body : α → P (Iter α β)}

theorem Acr.start {f : P α} {k : Nat} {y : R CState α} (h : Acc K (f (st l c)) y) :
    Acr body K ((f >>= loop k body) (st l c)) y := by
  rcases h with ⟨e, h⟩ | ⟨a, c', m, h', h, hm⟩
  · rw [M.bind_err h]; exact .inl ⟨_, rfl⟩
  · rw [M.bind_ok h]; exact .inr ⟨a, c', m, k, h', rfl, hm⟩

theorem Acr.next {x : R PS β} {f : B α} {g : α → B α} (h : Acr body K x (f c))
    (hk : ∀ a c' m, f c = .ok a c' → K m → Acc K' (body a (st m c')) ((g a >>= fun b => pure (Iter.next b)) c')) :
    Acr body K' x ((f >>= g) c) := by
  rcases h with h | ⟨a, c', m, k, h', rfl, hm⟩
  · exact .inl h
  · rw [M.bind_ok h']
    cases k with
    | zero => exact .inl ⟨_, rfl⟩
    | succ k =>
      rw [loop_step]
      rcases hk a c' m h' hm with ⟨e, h⟩ | ⟨it, c2, m2, h2, h, hm2⟩
      · rw [M.bind_err h]; exact .inl ⟨_, rfl⟩
      · rw [M.bind_ok h]
        cases hg : g a c' with
        | err e => rw [M.bind_err hg] at h2; cases h2
        | ok b c3 => rw [M.bind_ok hg] at h2; cases h2; exact .inr ⟨b, _, m2, k, rfl, rfl, hm2⟩

theorem Acr.last {x : R PS β} {f : B α} {g : α → B β} (h : Acr body K x (f c))
    (hk : ∀ a c' m, f c = .ok a c' → K m → Acc K' (body a (st m c')) ((g a >>= fun b => pure (Iter.done b)) c')) :
    Acc K' x ((f >>= g) c) := by
  rcases h with h | ⟨a, c', m, k, h', rfl, hm⟩
  · exact .inl h
  · rw [M.bind_ok h']
    cases k with
    | zero => exact .inl ⟨_, rfl⟩
    | succ k =>
      rw [loop_step]
      rcases hk a c' m h' hm with ⟨e, h⟩ | ⟨it, c2, m2, h2, h, hm2⟩
      · rw [M.bind_err h]; exact .inl ⟨_, rfl⟩
      · rw [M.bind_ok h]
        cases hg : g a c' with
        | err e => rw [M.bind_err hg] at h2; cases h2
        | ok b c3 => rw [M.bind_ok hg] at h2; cases h2; exact .inr ⟨b, _, m2, rfl, rfl, hm2⟩
end

/-! ### what the parser does on an expression -/

/-- the expression is clear, also with regard to the tokens that follow -/
structure Ok (V : Name → Prop) (e : Ex) (us : List Tok) : Prop where
  clear : e.Clear V
  eq : EqHead us → e.EndsVar V

structure Pre (V : Name → Prop) (ts us : List Tok) (l : List Char) (c : CState) : Prop where
  text : SpacedE l (ts ++ us)
  vs : VS V c

def GoodPf (ts : List Tok) (e : Ex) : Prop := ∀ V us l c n k, Pre V ts us l c → lev e ≤ 1 →
  ((∃ x, e = .var x) → ¬ ParHead us) →
  Acr (postfixBody (parseExpr n) k) (fun m => SpacedE m us ∧ Ok V e us) (parsePostfix (parseExpr n) k (st l c)) (genL e c)

def GoodU (ts : List Tok) (e : Ex) : Prop := ∀ V us l c n k, Pre V ts us l c → lev e ≤ 2 → Stop 2 us →
  Acc (fun m => TextE m us ∧ Ok V e us) (parseUnary (parseExpr n) k (st l c)) (genL e c)

def GoodR (ts : List Tok) (e : Ex) : Prop := ∀ V us l c n L, Pre V ts us l c → lev e ≤ 12 → 2 ≤ L → lev e ≤ L →
  Stop (tightness e) us →
  Acr (exprBody (parseExpr n) L) (fun m => TextE m us ∧ Ok V e us) (parseExpr (n + 1) L (st l c)) (genL e c)

def GoodF (ts : List Tok) (e : Ex) : Prop := ∀ V us l c n L, Pre V ts us l c → 2 ≤ L → lev e ≤ L → Stop L us →
  Acc (fun m => TextE m us ∧ Ok V e us) (parseExpr n L (st l c)) (genR e c)

theorem goodF_of_R {ts : List Tok} {e : Ex} (h : GoodR ts e) (hl : lev e ≤ 12) : GoodF ts e := by
  intro V us l c n L hp hL he hs
  cases n with
  | zero => exact .inl ⟨_, rfl⟩
  | succ n =>
    have ht : tightness e ≤ L := by
      cases e <;> simp only [tightness] <;> simp only [lev] at he <;> omega
    have := h V us l c n L hp hl hL he (hs.anti ht)
    refine this.last (g := rval) fun a c' m h1 hm => ?_
    rw [stop_iter hm.1 hs]
    exact Acc.bind (f := bd (rval a)) (Acc.bdLast (K := fun m => TextE m us ∧ Ok V e us) hm) fun a c' m _ hm => Acc.ok hm

theorem goodR_of_U {ts : List Tok} {e : Ex} (h : GoodU ts e) (hl : lev e ≤ 2) : GoodR ts e := by
  intro V us l c n L hp _ hL he hs
  have ht : tightness e = 2 := by
    cases e with
    | bin o l r => simp only [lev] at hl; have := prec_ge o; omega
    | _ => rfl
  exact Acr.start (h V us l c n n hp hl (ht ▸ hs))

/-! ### primary expressions -/

section
variable {rec : Nat → P Val} {m r l : List Char} {c : CState} {us : List Tok} {V : Name → Prop} {ts : List Tok}

theorem prim_var {x : List Char} {l : List Char} (h : SpacedE l (.word x :: us)) (hx : StartsLetter x) (hv : VS V c)
    (hpar : ¬ ParHead us) :
    Acc (fun m => TextE m us ∧ Ok V (.var x) us) (parsePrimary rec (st l c)) (genL (.var x) c) := by
  by_cases heq : EqHead us → V x
  · refine (Acc.of (Blang.prim_var h hx hv heq hpar)).mono fun m hm => ⟨hm, trivial, fun he y hy => ?_⟩
    simp only [Ex.last, Option.some.injEq] at hy
    subst hy
    exact heq he
  · obtain ⟨he, hne⟩ := Classical.not_imp.1 heq
    obtain ⟨m, hm, e⟩ := prim_word (rec := rec) (c := c) h hx
    have hpl : ¬ ((lookup x c.locals).isSome ∨ (lookup x c.ctx).isSome) := fun h => hne ((hv x).2 h)
    have hga : getAddress x c = .ok none c := by
      unfold getAddress
      rw [M.bind_ok (M.get_apply _)]
      cases hl : lookup x c.locals with
      | some v => exact absurd (.inl (by rw [hl]; rfl)) hpl
      | none =>
        cases hc : lookup x c.ctx with
        | some v => exact absurd (.inr (by rw [hc]; rfl)) hpl
        | none => rfl
    rw [e, if_neg (by rw [headRC_eq, text_parHead hm]; exact hpar), M.bind_ok (bd_st hga)]
    dsimp only
    unfold funcValue
    rw [M.bind_ok hm.lws, peek, if_pos (by rw [headRC_eq, text_eqHead hm]; exact he)]
    exact Acc.err

theorem Acc.bindR {α : Type} {K K' : List Char → Prop} {l : List Char} {c : CState} {f : P Val} {e : Ex} {k : Val → P α}
    {k' : Val → B α} (h : Acc K (f (st l c)) (genR e c))
    (hk : ∀ a c' m, genR e c = .ok a c' → K m → Acc K' (k a (st m c')) (k' a c')) :
    Acc K' ((f >>= k) (st l c)) ((genL e >>= fun v => rval v >>= k') c) := by
  have := Acc.bind h hk
  unfold genR at this
  rw [M.bind_assoc'] at this
  exact this

/-- the arguments of a call -/
def GoodA (ts : List Tok) (as : List Ex) : Prop := ∀ V us l c n k acc s, s = ['('] ∨ s = [','] →
  After (.sym s) l (ts ++ us) → VS V c →
  Acc (fun m => SpacedE m us ∧ Ex.ClearArgs V as) (loop k (argsBody (parseExpr n)) acc (st l c)) ((genArgs as >>= fun vs => pure (acc ++ vs)) c)

theorem goodPf_index {a i : Ex} {us' : List Tok} (h1 : GoodPf ts a) (h1' : lev a ≤ 1) (h2 : GoodF us' i) (h2' : lev i ≤ 15) :
    GoodPf (ts ++ .sym ['['] :: us' ++ [.sym [']']]) (.index a i) := by
  intro V us l c n k hp _ _
  unfold genL
  have hr := h1 V (.sym ['['] :: us' ++ [.sym [']']] ++ us) l c n k
    ⟨by have := hp.text; simpa using this, hp.vs⟩ h1'
    (fun _ => not_parHead (by decide))
  refine hr.next fun v c' m hv ⟨hm, ho⟩ => ?_
  have hvs := hp.vs.genL hv
  obtain ⟨m, ht, hw⟩ := hm.ws
  obtain ⟨r, rfl, _, _, ha⟩ := text_sym ht
  rw [post_cons hw, if_pos rfl]
  simp only [M.bind_assoc', M.pure_bind']
  refine Acc.bd fun b c1 hb => Acc.bd fun p c2 hb2 => ?_
  have hv2 : VS V c2 := (hvs.keep hb (VR.stable.rval _)).keep hb2 (VR.stable.emit _)
  refine Acc.bindR (h2 V (.sym [']'] :: us) r c2 n 15 ⟨by simpa using ha.spaced, hv2⟩
    (by decide) h2' (stop_sym rfl _ _)) fun x c3 m hx ⟨hm, ho2⟩ => ?_
  obtain ⟨r, rfl, _, _, ha⟩ := text_sym hm
  rw [List.cons_append, List.nil_append, M.bind_ok exp_cons]
  exact Acc.bd fun e c4 _ => Acc.ok ⟨ha.spaced, ⟨ho.clear, ho2.clear⟩, fun _ _ h => by cases h⟩

/-- the iteration of a call -/
theorem call_iter {as : List Ex} {v : LV} {n k : Nat} (ha : GoodA ts as) (ht : SpacedE l (.sym ['('] :: ts ++ us)) (hvs : VS V c) :
    Acc (fun m => SpacedE m us ∧ Ex.ClearArgs V as) (postfixBody (parseExpr n) k v (st l c))
      ((rval v >>= fun fn => genArgs as >>= fun vs => genCall fn vs >>= fun r => pure (Iter.next (r, false))) c) := by
  obtain ⟨m, ht, hw⟩ := ht.ws
  obtain ⟨r, rfl, _, _, hr⟩ := text_sym ht
  rw [post_cons hw, if_neg (by decide), if_pos rfl]
  refine Acc.bd fun fn c1 h1 => ?_
  have := ha V us r c1 n k [] ['('] (.inl rfl) hr (hvs.keep h1 (VR.stable.rval _))
  simp only [List.nil_append] at this
  rw [bind_pure'] at this
  exact Acc.bind this fun vs c2 m _ hm => Acc.bd fun a c3 _ => Acc.ok hm

theorem goodPf_callName {x : List Char} {as : List Ex} (hx : StartsLetter x) (ha : GoodA ts as) :
    GoodPf (.word x :: .sym ['('] :: ts) (.callName x as) := by
  intro V us l c n k hp _ _
  unfold genL
  have h1 : Acr (postfixBody (parseExpr n) k) (TextE · (.sym ['('] :: (ts ++ us))) (parsePostfix (parseExpr n) k (st l c)) (genCallee x c) :=
    Acr.start (.of (prim_callee hp.text hx))
  refine h1.next fun v c' m hv hm => ?_
  simp only [M.bind_assoc', M.pure_bind']
  exact (call_iter ha hm.spaced (hp.vs.keep hv (VR.stable.genCallee trivial))).mono fun m hm => ⟨hm.1, hm.2, fun _ _ h => by cases h⟩

theorem goodPf_call {us' : List Tok} {f : Ex} {as : List Ex} (h1 : GoodPf ts f) (h1' : lev f ≤ 1) (hf : ∀ x, f ≠ .var x) (ha : GoodA us' as) :
    GoodPf (ts ++ .sym ['('] :: us') (.call f as) := by
  intro V us l c n k hp _ _
  unfold genL
  have hr := h1 V (.sym ['('] :: us' ++ us) l c n k
    ⟨by have := hp.text; simpa using this, hp.vs⟩ h1'
    (fun ⟨x, hx⟩ => absurd hx (hf x))
  refine hr.next fun v c' m hv ⟨hm, ho⟩ => ?_
  simp only [M.bind_assoc', M.pure_bind']
  exact (call_iter ha hm (hp.vs.genL hv)).mono fun m hm => ⟨hm.1, ⟨ho.clear, hm.2⟩, fun _ _ h => by cases h⟩

theorem goodPf_post {d : Dir} {e : Ex} (h1 : GoodPf ts e) (h1' : lev e ≤ 1) : GoodPf (ts ++ [.sym d.text]) (.post d e) := by
  intro V us l c n k hp _ _
  unfold genL
  have hr := h1 V (.sym d.text :: us) l c n k
    ⟨by have := hp.text; simpa using this, hp.vs⟩ h1'
    (fun _ => not_parHead (by cases d <;> decide))
  refine hr.next fun v c' m hv ⟨hm, ho⟩ => ?_
  simp only [M.bind_assoc', M.pure_bind']
  obtain ⟨m, ht, hw⟩ := hm.ws
  obtain ⟨r, rfl, _, _, ha⟩ := text_sym ht
  have key : ∀ ch o, d.text = [ch, ch] → o = dirOp d → Acc (fun m => SpacedE m us ∧ Ok V (.post d e) us) (postfixOp ch o v (st (ch :: r) c'))
      ((needLval v >>= fun x => genPostfix (dirOp d) x >>= fun x => pure (Iter.next (x, false))) c') := by
    rintro ch o _ rfl
    unfold postfixOp
    rw [M.bind_ok rd_cons]
    dsimp only
    rw [if_neg (by simp)]
    obtain ⟨v, b⟩ := v
    cases b with
    | false => exact Acc.err
    | true => exact Acc.bd fun x c2 _ => Acc.ok ⟨ha.spaced, ho.clear, fun _ _ h => by cases h⟩
  cases d with
  | inc =>
    have hw' : whitespace ⟨_, .eof⟩ = .ok () ⟨'+' :: '+' :: r, .eof⟩ := hw
    rw [post_cons hw', if_neg (by decide), if_neg (by decide), if_pos rfl]
    exact key '+' .add rfl rfl
  | dec =>
    have hw' : whitespace ⟨_, .eof⟩ = .ok () ⟨'-' :: '-' :: r, .eof⟩ := hw
    rw [post_cons hw', if_neg (by decide), if_neg (by decide), if_neg (by decide), if_pos rfl]
    exact key '-' .sub rfl rfl

theorem goodPf_prim {e : Ex} (h : ∀ V us l c n, Pre V ts us l c → ((∃ x, e = .var x) → ¬ ParHead us) →
    Acc (fun m => SpacedE m us ∧ Ok V e us) (parsePrimary (parseExpr n) (st l c)) (genL e c)) : GoodPf ts e := by
  intro V us l c n k hp _ hn
  exact Acr.start (h V us l c n hp hn)

theorem goodPf_paren {e : Ex} (h2 : GoodF ts e) (h2' : lev e ≤ 15) : GoodPf (.sym ['('] :: ts ++ [.sym [')']]) (.paren e) := by
  refine goodPf_prim fun V us l c n hp _ => ?_
  obtain ⟨m, ht, hw⟩ := hp.text.ws
  rw [List.cons_append, List.cons_append] at ht
  obtain ⟨r, rfl, _, _, ha⟩ := text_sym ht
  rw [List.cons_append] at hw
  rw [prim_cons hw, if_neg (by decide), if_neg (by decide), if_pos rfl]
  unfold genL
  refine Acc.bindR (h2 V (.sym [')'] :: us) r c n 15 ⟨by simpa using ha.spaced, hp.vs⟩
    (by decide) h2' (stop_sym rfl _ _)) fun x c3 m hx ⟨hm, ho⟩ => ?_
  obtain ⟨r, rfl, _, _, ha⟩ := text_sym hm
  rw [List.cons_append, List.nil_append, M.bind_ok exp_cons]
  exact Acc.ok ⟨ha.spaced, ho.clear, fun _ _ h => by cases h⟩
end

/-! ### arguments -/

section
variable {ts : List Tok}

theorem goodA_nil : GoodA [.sym [')']] [] := by
  intro V us l c n k acc s hs ha hv
  exact (Acc.of (Blang.goodA_nil V us l c n k acc s hs ha hv trivial)).mono fun m hm => ⟨hm, trivial⟩

/-- an argument -/
theorem arg_iter {e : Ex} {V : Name → Prop} {us : List Tok} {l : List Char} {c : CState} {n k : Nat} {acc : List Val} {s : List Char}
    {L : Nat} {K : List Char → Prop} {y : B (List Val)} {z : Val → B (List Val)}
    (he : EGram prec L ts e) (hg : GoodF ts e) (hl : lev e ≤ 15) (hs : s = [')'] ∨ s = [','])
    (ha : SpacedE l (ts ++ .sym s :: us)) (hv : VS V c) (hy : y = genL e >>= fun v => rval v >>= z)
    (hk : ∀ x c' m, VS V c' → e.Clear V → After (.sym s) m us → Acc K
      ((if s = [')'] then (pure (acc ++ [x]) : P (List Val)) else loop k (argsBody (parseExpr n)) (acc ++ [x])) (st m c')) (z x c')) :
    Acc K (loop (k + 1) (argsBody (parseExpr n)) acc (st l c)) (y c) := by
  subst hy
  obtain ⟨t, ts', rfl, ht⟩ := egram_start he
  obtain ⟨ch, r, rfl, hch⟩ := spaced_first ha ht
  rw [loop_step]
  unfold argsBody
  simp only [M.bind_assoc']
  rw [M.bind_ok re_cons, if_neg hch]
  simp only [M.bind_assoc']
  rw [M.bind_ok un_st]
  refine Acc.bindR (hg V (.sym s :: us) _ c n 15 ⟨ha, hv⟩
    (by decide) hl (stop_sym (by rcases hs with rfl | rfl <;> rfl) _ _)) fun x c' m hx ⟨hm, ho⟩ => ?_
  rw [M.bind_ok hm.lws]
  obtain ⟨r, rfl, _, _, ha⟩ := text_sym hm
  have := hk x c' r (hv.genR hx) ho.clear ha
  rcases hs with rfl | rfl
  · rw [List.cons_append, List.nil_append, M.bind_ok re_cons, if_pos rfl]
    rw [if_pos rfl] at this
    exact this
  · rw [List.cons_append, List.nil_append, M.bind_ok re_cons, if_neg (by decide), if_neg (by simp)]
    rw [if_neg (by decide)] at this
    exact this

theorem goodA_last {e : Ex} {L : Nat} (he : EGram prec L ts e) (hg : GoodF ts e) (hl : lev e ≤ 15) : GoodA (ts ++ [.sym [')']]) [e] := by
  intro V us l c n k acc s hs ha hv
  cases k with
  | zero => exact .inl ⟨_, rfl⟩
  | succ k =>
    refine arg_iter he hg hl (.inl rfl) (by simpa using ha.spaced) hv
      (z := fun x => pure (acc ++ [x])) (by simp only [genArgs, M.bind_assoc', M.pure_bind']) fun x c' m hv hc hm => ?_
    rw [if_pos rfl]
    exact Acc.ok ⟨hm.spaced, hc, trivial⟩

theorem goodA_cons {us' : List Tok} {e : Ex} {es : List Ex} {L : Nat} (he : EGram prec L ts e) (hg : GoodF ts e) (hl : lev e ≤ 15)
    (h2 : GoodA us' es) : GoodA (ts ++ .sym [','] :: us') (e :: es) := by
  intro V us l c n k acc s hs ha hv
  cases k with
  | zero => exact .inl ⟨_, rfl⟩
  | succ k =>
    refine arg_iter (us := us' ++ us) he hg hl (.inr rfl) (by simpa using ha.spaced) hv
      (z := fun x => genArgs es >>= fun vs => pure (acc ++ x :: vs)) (by simp only [genArgs, M.bind_assoc', M.pure_bind']) fun x c' m hv hc hm => ?_
    rw [if_neg (by decide)]
    have := (h2 V us m c' n k (acc ++ [x]) [','] (.inr rfl) hm hv).mono (K' := fun m => SpacedE m us ∧ Ex.ClearArgs V (e :: es))
      fun m hm => ⟨hm.1, hc, hm.2⟩
    simpa using this
end

/-! ### unary operators -/

section
variable {ts us : List Tok} {e : Ex} {l r : List Char} {c : CState} {rec : Nat → P Val} {k : Nat}

theorem goodU_of_Pf {L : Nat} (he : EGram prec L ts e) (hl : lev e ≤ 1) (h : GoodPf ts e) : GoodU ts e := by
  intro V us l c n k hp _ hs
  cases k with
  | zero => exact .inl ⟨_, rfl⟩
  | succ k =>
    obtain ⟨t, ts', rfl, ht⟩ := egram_start1 he hl
    obtain ⟨m, hm, hw⟩ := hp.text.ws
    have hm' := hm
    rw [List.cons_append] at hm'
    obtain ⟨rr, h1, _, _⟩ := text_inv hm'
    obtain ⟨ch, x, rfl, hc⟩ := lexes_first h1.quirk
    have hne : ch ≠ '!' ∧ ch ≠ '-' ∧ ch ≠ '+' ∧ ch ≠ '*' ∧ ch ≠ '&' := by
      cases t with
      | num | chr | str | word | defn | head | els =>
        simp only at hc
        refine ⟨?_, ?_, ?_, ?_, ?_⟩ <;> (rintro rfl; revert hc; decide)
      | sym s => cases ht; simp at hc; rw [← hc.1]; decide
    rw [un_cons hw, if_neg hne.1, if_neg hne.2.1, if_neg hne.2.2.1, if_neg hne.2.2.2.1, if_neg hne.2.2.2.2, M.bind_ok un_st]
    have := h V us (ch :: x) c n k ⟨hm.spaced, hp.vs⟩ hl (by
      rintro _ ⟨r, rfl⟩
      exact absurd (hs _ _ rfl 1 rfl) (by decide))
    have := this.last (K' := fun m => TextE m us ∧ Ok V e us) (g := fun v => pure v)
      fun v c' m _ hm => (Acc.of (post_stop hm.1 hs)).mono fun m h => ⟨h, hm.2⟩
    rwa [bind_pure'] at this

/-- a unary operator -/
theorem goodU_pre {d : Dir} (h : GoodU ts e) (hl : lev e ≤ 2) : GoodU (.sym d.text :: ts) (.pre d e) := by
  intro V us l c n k hp _ hs
  cases k with
  | zero => exact .inl ⟨_, rfl⟩
  | succ k =>
    obtain ⟨m, hm, hw⟩ := hp.text.ws
    obtain ⟨r, rfl, _, _, ha⟩ := text_sym hm
    unfold genL
    have key := h V us r c n k ⟨ha.spaced, hp.vs⟩ hl hs
    cases d with
    | inc =>
      have hw' : whitespace ⟨l, .eof⟩ = .ok () ⟨'+' :: '+' :: r, .eof⟩ := hw
      rw [un_cons hw', if_neg (by decide), if_neg (by decide), if_pos rfl, M.bind_ok rd_cons]
      dsimp only
      rw [if_neg (by simp)]
      refine key.bind fun v c' m _ hm => ?_
      obtain ⟨v, b⟩ := v
      cases b with
      | false => exact Acc.err
      | true => exact Acc.bd fun _ c2 _ => Acc.ok ⟨hm.1, hm.2.clear, hm.2.eq⟩
    | dec =>
      have hw' : whitespace ⟨l, .eof⟩ = .ok () ⟨'-' :: '-' :: r, .eof⟩ := hw
      rw [un_cons hw', if_neg (by decide), if_pos rfl, M.bind_ok rd_cons, if_pos rfl]
      refine key.bind fun v c' m _ hm => ?_
      obtain ⟨v, b⟩ := v
      cases b with
      | false => exact Acc.err
      | true => exact Acc.bd fun _ c2 _ => Acc.ok ⟨hm.1, hm.2.clear, hm.2.eq⟩

theorem goodU_not (h : GoodU ts e) (hl : lev e ≤ 2) : GoodU (.sym ['!'] :: ts) (.not e) := by
  intro V us l c n k hp _ hs
  cases k with
  | zero => exact .inl ⟨_, rfl⟩
  | succ k =>
    obtain ⟨m, hm, hw⟩ := hp.text.ws
    obtain ⟨r, rfl, _, _, ha⟩ := text_sym hm
    unfold genL
    have key := h V us r c n k ⟨ha.spaced, hp.vs⟩ hl hs
    rw [un_cons hw, if_pos rfl]
    exact key.bind fun v c' m _ hm => Acc.bd fun _ c2 _ => Acc.ok ⟨hm.1, hm.2.clear, hm.2.eq⟩

theorem goodU_deref (h : GoodU ts e) (hl : lev e ≤ 2) : GoodU (.sym ['*'] :: ts) (.deref e) := by
  intro V us l c n k hp _ hs
  cases k with
  | zero => exact .inl ⟨_, rfl⟩
  | succ k =>
    obtain ⟨m, hm, hw⟩ := hp.text.ws
    obtain ⟨r, rfl, _, _, ha⟩ := text_sym hm
    unfold genL
    have key := h V us r c n k ⟨ha.spaced, hp.vs⟩ hl hs
    rw [un_cons hw, if_neg (by decide), if_neg (by decide), if_neg (by decide), if_pos rfl]
    exact key.bind fun v c' m _ hm => Acc.bd fun _ c2 _ => Acc.ok ⟨hm.1, hm.2.clear, hm.2.eq⟩

theorem goodU_addr (h : GoodU ts e) (hl : lev e ≤ 2) : GoodU (.sym ['&'] :: ts) (.addr e) := by
  intro V us l c n k hp _ hs
  cases k with
  | zero => exact .inl ⟨_, rfl⟩
  | succ k =>
    obtain ⟨m, hm, hw⟩ := hp.text.ws
    obtain ⟨r, rfl, _, _, ha⟩ := text_sym hm
    unfold genL
    have key := h V us r c n k ⟨ha.spaced, hp.vs⟩ hl hs
    rw [un_cons hw, if_neg (by decide), if_neg (by decide), if_neg (by decide), if_neg (by decide), if_pos rfl]
    refine key.bind fun v c' m _ hm => ?_
    obtain ⟨v, b⟩ := v
    cases b with
    | false => exact Acc.err
    | true => exact Acc.bd fun _ c2 _ => Acc.ok ⟨hm.1, hm.2.clear, hm.2.eq⟩

theorem goodU_neg (h : GoodU ts e) (hl : lev e ≤ 2) : GoodU (.sym ['-'] :: ts) (.neg e) := by
  intro V us l c n k hp _ hs
  cases k with
  | zero => exact .inl ⟨_, rfl⟩
  | succ k =>
    obtain ⟨m, hm, hw⟩ := hp.text.ws
    obtain ⟨r, rfl, _, hmm, ha⟩ := text_sym hm
    unfold genL
    have key := h V us r c n k ⟨ha.spaced, hp.vs⟩ hl hs
    rw [un_cons (r := r) hw, if_neg (by decide), if_pos rfl]
    have hne : headRC r ≠ .ch '-' := by
      rw [Ne, headRC_eq]; exact munch_head hmm (by decide)
    have : ∀ (A : P LV) (B : P LV), (lx readChar >>= fun c2 => if c2 = .ch '-' then A else lx (unreadRC c2) >>= fun _ => B) (st r c) = B (st r c) := by
      intro A B
      cases r with
      | nil => rfl
      | cons d r => rw [M.bind_ok rd_cons, if_neg (show RC.ch d ≠ .ch '-' from hne)]; rfl
    rw [this]
    exact key.bind fun v c' m _ hm => Acc.bd fun _ c2 _ => Acc.ok ⟨hm.1, hm.2.clear, hm.2.eq⟩
end

/-! ### binary operators, conditional expressions, assignments -/

section
variable {ts us' : List Tok} {l' r' : Ex}

theorem goodR_bin {o : Bop} (h1 : GoodR ts l') (h1' : lev l' ≤ prec o) (h2 : GoodF us' r') (h2' : lev r' ≤ prec o - 1) :
    GoodR (ts ++ .sym o.text :: us') (.bin o l' r') := by
  intro V us l c n L hp _ hL he hs
  have hpl := prec_le o
  have hpg := prec_ge o
  have hr := rlevel_spec o
  simp only [lev] at he
  unfold genL
  have hreach := h1 V (.sym o.text :: us' ++ us) l c n L
    ⟨by have := hp.text; simpa using this, hp.vs⟩ (by omega) hL (by omega)
    (Stop.sym fun k hk => by
      rw [opLevel_bop] at hk; cases hk
      have hpl' : ∀ o' a b, l' = .bin o' a b → prec o' - 1 < prec o := by
        rintro o' a b rfl; simp only [lev] at h1'; omega
      cases l' with
      | bin o' a b => exact hpl' o' a b rfl
      | _ => simp only [tightness]; omega)
  refine hreach.next fun v c' m hv ⟨hm, ho⟩ => ?_
  obtain ⟨r, ha, e⟩ := op_iter (rec := parseExpr n) (L := L) (v := v) (c := c') hm he
  rw [e]
  unfold binary
  simp only [M.bind_assoc', M.pure_bind']
  refine Acc.bd fun x c1 hx => ?_
  have hv1 := (hp.vs.genL hv).keep hx (VR.stable.rval _)
  refine Acc.bindR (h2 V us r c1 n (rlevel o) ⟨ha.spaced, hv1⟩ hr.1 (lev_rlevel h2')
    (hs.anti hr.2.1)) fun y c2 m hy ⟨hm, ho2⟩ => ?_
  exact Acc.bd fun z c3 _ => Acc.ok ⟨hm, ⟨fun e => ho.eq (by subst e; exact ⟨_, _, rfl, rfl⟩), ho.clear, ho2.clear⟩, ho2.eq⟩

theorem goodF_cond {vs : List Tok} {a t e : Ex} (h1 : GoodR ts a) (h1' : lev a ≤ 12) (h2 : GoodF us' t) (h2' : lev t ≤ 12)
    (h3 : GoodF vs e) (h3' : lev e ≤ 13) : GoodF (ts ++ .sym ['?'] :: us' ++ .sym [':'] :: vs) (.cond a t e) := by
  intro V us l c n L hp hL he hs
  cases n with
  | zero => exact .inl ⟨_, rfl⟩
  | succ n =>
    simp only [lev] at he
    have hreach := h1 V (.sym ['?'] :: us' ++ .sym [':'] :: vs ++ us) l c n L
      ⟨by have := hp.text; simpa using this, hp.vs⟩ h1' hL (by omega)
      (Stop.sym fun k hk => by
        have : k = 13 := by simpa [opLevel] using hk.symm
        subst this
        cases a with
        | bin o' _ _ => simp only [tightness]; have := prec_le o'; omega
        | _ => simp [tightness])
    unfold genR genL
    rw [M.bind_assoc']
    refine hreach.last fun v c' m hv ⟨hm, ho⟩ => ?_
    obtain ⟨r, ha, e⟩ := cond_iter (rec := parseExpr n) (L := L) (v := v) (c := c') hm he
    rw [e]
    unfold ternary condStart
    simp only [M.bind_assoc', M.pure_bind']
    refine Acc.bd fun x c1 hx => ?_
    have k1 := (hp.vs.genL hv).keep hx (VR.stable.rval _)
    refine Acc.bd fun id c2 hx => ?_
    have k2 := k1.keep hx VR.stable.freshLabelID
    refine Acc.bd fun tb c3 hx => ?_
    have k3 := k2.keep hx (VR.stable.newBlock _)
    refine Acc.bd fun eb c4 hx => ?_
    have k4 := k3.keep hx (VR.stable.newBlock _)
    refine Acc.bd fun nb c5 hx => ?_
    have k5 := k4.keep hx (VR.stable.newBlock _)
    refine Acc.bd fun cmp c6 hx => ?_
    have k6 := k5.keep hx (VR.stable.emit _)
    refine Acc.bd fun _ c7 hx => ?_
    have k7 := k6.keep hx (VR.stable.setTerm _)
    refine Acc.bd fun _ c8 hx => ?_
    have k8 := k7.keep hx (VR.stable.setInsertPoint _)
    refine Acc.bindR (h2 V (.sym [':'] :: vs ++ us) r c8 n 12 ⟨by simpa using ha.spaced, k8⟩ (by decide) h2'
      (stop_sym rfl _ _)) fun tv c9 m hx ⟨hm, ho2⟩ => ?_
    have k9 := k8.genR hx
    refine Acc.bd fun te c10 hx => ?_
    have k10 := k9.keep hx VR.stable.getInsertBlock
    refine Acc.bd fun _ c11 hx => ?_
    have k11 := k10.keep hx (VR.stable.setTerm _)
    rw [M.bind_ok hm.lws]
    obtain ⟨r, rfl, _, _, ha⟩ := text_sym hm
    rw [List.cons_append, List.nil_append, M.bind_ok exp_cons]
    refine Acc.bd fun _ c12 hx => ?_
    have k12 := k11.keep hx (VR.stable.setInsertPoint _)
    refine Acc.bindR (h3 V us r c12 n 13 ⟨ha.spaced, k12⟩ (by decide) h3'
      (hs.anti he)) fun ev c13 m hx ⟨hm, ho3⟩ => ?_
    refine Acc.bd fun _ c14 _ => Acc.bd fun _ c15 _ => Acc.bd fun _ c16 _ => Acc.bd fun v c17 _ => ?_
    exact Acc.ok ⟨hm, ⟨ho.clear, ho2.clear, ho3.clear⟩, ho3.eq⟩

/-- the right-hand side of an assignment -/
theorem asg_done {o : Option Bop} {V : Name → Prop} {us : List Tok} {r : List Char} {c : CState} {n L : Nat} {v : LV}
    (h2 : GoodF us' r') (h2' : lev r' ≤ 14) (hv : VS V c)
    (ha : SpacedE r (us' ++ us)) (hL : 14 ≤ L) (hs : Stop L us) :
    Acc (fun m => TextE m us ∧ Ok V r' us) (asgDone (parseExpr n) v (o.map opOf) (st r c))
      ((needLval v >>= fun a => genL r' >>= fun rv => rval rv >>= fun right => genAssign (o.map opOf) a right >>= fun x => pure (Iter.done x)) c) := by
  unfold asgDone
  obtain ⟨v, b⟩ := v
  cases b with
  | false => exact Acc.err
  | true =>
    refine Acc.bindR (h2 V us r c n 14 ⟨ha, hv⟩ (by decide) h2' (hs.anti hL)) fun x c1 m hx hm => ?_
    exact Acc.bd fun y c2 _ => Acc.ok hm

theorem goodF_assign {o : Option Bop} (h1 : GoodR ts l') (h1' : lev l' ≤ 2) (h2 : GoodF us' r') (h2' : lev r' ≤ 14) :
    GoodF (ts ++ .sym (asgText o) :: us') (.assign o l' r') := by
  intro V us l c n L hp hL he hs
  cases n with
  | zero => exact .inl ⟨_, rfl⟩
  | succ n =>
    simp only [lev] at he
    have hasg : (asgText o).head? = some '=' := by cases o <;> rfl
    have hreach := h1 V (.sym (asgText o) :: us' ++ us) l c n L
        ⟨by have := hp.text; simpa using this, hp.vs⟩ (by omega) hL (by omega)
        (Stop.sym fun k hk => by
          rw [opLevel_asg] at hk; cases hk
          cases l' with
          | bin o' _ _ => simp only [lev] at h1'; have := prec_ge o'; omega
          | _ => simp [tightness])
    unfold genR
    rw [genL]
    rw [M.bind_assoc']
    refine hreach.last fun v c' m hv ⟨hm, ho⟩ => ?_
    obtain ⟨r, ha, e⟩ := assign_iter (rec := parseExpr n) (L := L) (v := v) (c := c') hm he
    rw [e]
    simp only [M.bind_assoc', M.pure_bind']
    exact (asg_done h2 h2' (hp.vs.genL hv) ha.spaced he hs).mono fun m hm =>
      ⟨hm.1, ⟨fun _ => ho.eq ⟨_, _, rfl, hasg⟩, ho.clear, hm.2.clear⟩, hm.2.eq⟩
end

/-! ### all expressions -/

/-- what holds of every expression of the grammar -/
structure Good (ts : List Tok) (e : Ex) : Prop where
  pf : lev e ≤ 1 → GoodPf ts e
  u : lev e ≤ 2 → GoodU ts e
  r : lev e ≤ 12 → GoodR ts e
  f : GoodF ts e

theorem Good.of_pf {L : Nat} {ts : List Tok} {e : Ex} (he : EGram prec L ts e) (hl : lev e ≤ 1) (h : GoodPf ts e) : Good ts e :=
  ⟨fun _ => h, fun _ => goodU_of_Pf he hl h, fun _ => goodR_of_U (goodU_of_Pf he hl h) (by omega),
    goodF_of_R (goodR_of_U (goodU_of_Pf he hl h) (by omega)) (by omega)⟩

theorem Good.of_u {ts : List Tok} {e : Ex} (hl : lev e = 2) (h : GoodU ts e) : Good ts e :=
  ⟨fun h => by omega, fun _ => h, fun _ => goodR_of_U h (by omega), goodF_of_R (goodR_of_U h (by omega)) (by omega)⟩

theorem Good.of_r {ts : List Tok} {e : Ex} (hl : 2 < lev e) (hl' : lev e ≤ 12) (h : GoodR ts e) : Good ts e :=
  ⟨fun h => by omega, fun h => by omega, fun _ => h, goodF_of_R h hl'⟩

theorem Good.of_f {ts : List Tok} {e : Ex} (hl : 12 < lev e) (h : GoodF ts e) : Good ts e :=
  ⟨fun h => by omega, fun h => by omega, fun h => by omega, h⟩

theorem ok_leaf {V : Name → Prop} {e : Ex} {us : List Tok} (h : e.Clear V) (hl : e.last = none) : Ok V e us :=
  ⟨h, fun _ x hx => by rw [hl] at hx; cases hx⟩

mutual
theorem egram_good {L : Nat} {ts : List Tok} {e : Ex} (h : EGram prec L ts e) : Good ts e := by
  match h with
  | .num =>
    exact .of_pf (EGram.num (L := 0)) (by simp [lev]) (goodPf_prim fun V us l c n hp _ =>
      (Acc.of (prim_num hp.text)).mono fun m hm => ⟨hm, ok_leaf trivial rfl⟩)
  | .chr => exact .of_pf (EGram.chr (L := 0)) (by simp [lev]) (goodPf_prim fun V us l c n hp _ =>
      (Acc.of (prim_chr hp.text)).mono fun m hm => ⟨hm, ok_leaf trivial rfl⟩)
  | .str => exact .of_pf (EGram.str (L := 0)) (by simp [lev]) (goodPf_prim fun V us l c n hp _ =>
      (Acc.of (prim_str hp.text)).mono fun m hm => ⟨hm, ok_leaf trivial rfl⟩)
  | .var hx =>
    exact .of_pf (EGram.var (L := 0) hx) (by simp [lev]) (goodPf_prim fun V us l c n hp hn =>
      (prim_var hp.text hx hp.vs (hn ⟨_, rfl⟩)).mono fun _ hm => ⟨hm.1.spaced, hm.2⟩)
  | .paren h1 => exact .of_pf (EGram.paren (L := 0) h1) (by simp [lev]) (goodPf_paren (egram_good h1).f (egram_lev h1))
  | .index _ h1 h2 =>
    exact .of_pf (EGram.index (L := 1) (Nat.le_refl 1) h1 h2) (by simp [lev]) (goodPf_index ((egram_good h1).pf (egram_lev h1)) (egram_lev h1) (egram_good h2).f (egram_lev h2))
  | .callName _ hx h2 => exact .of_pf (EGram.callName (L := 1) (Nat.le_refl 1) hx h2) (by simp [lev]) (goodPf_callName hx (agram_good h2))
  | .call _ h1 hf h2 =>
    exact .of_pf (EGram.call (L := 1) (Nat.le_refl 1) h1 hf h2) (by simp [lev]) (goodPf_call ((egram_good h1).pf (egram_lev h1)) (egram_lev h1) hf (agram_good h2))
  | .post _ h1 => exact .of_pf (EGram.post (L := 1) (Nat.le_refl 1) h1) (by simp [lev]) (goodPf_post ((egram_good h1).pf (egram_lev h1)) (egram_lev h1))
  | .pre _ h1 => exact .of_u rfl (goodU_pre ((egram_good h1).u (egram_lev h1)) (egram_lev h1))
  | .not _ h1 => exact .of_u rfl (goodU_not ((egram_good h1).u (egram_lev h1)) (egram_lev h1))
  | .neg _ h1 => exact .of_u rfl (goodU_neg ((egram_good h1).u (egram_lev h1)) (egram_lev h1))
  | .deref _ h1 => exact .of_u rfl (goodU_deref ((egram_good h1).u (egram_lev h1)) (egram_lev h1))
  | .addr _ h1 => exact .of_u rfl (goodU_addr ((egram_good h1).u (egram_lev h1)) (egram_lev h1))
  | .bin (o := o) _ h1 h2 =>
    have := prec_ge o
    have := prec_le o
    have a := egram_lev h1
    exact .of_r (by simp only [lev]; omega) (by simp only [lev]; omega)
      (goodR_bin ((egram_good h1).r (by omega)) a (egram_good h2).f (egram_lev h2))
  | .cond _ h1 h2 h3 =>
    exact .of_f (by simp [lev]) (goodF_cond ((egram_good h1).r (egram_lev h1)) (egram_lev h1) (egram_good h2).f (egram_lev h2)
      (egram_good h3).f (egram_lev h3))
  | .assign _ h1 h2 =>
    have a := egram_lev h1
    exact .of_f (by simp [lev]) (goodF_assign (o := none) ((egram_good h1).r (by omega)) a (egram_good h2).f (egram_lev h2))
  | .assignOp (o := o) _ h1 h2 =>
    have a := egram_lev h1
    exact .of_f (by simp [lev]) (goodF_assign (o := some o) ((egram_good h1).r (by omega)) a (egram_good h2).f (egram_lev h2))

theorem agram_good {ts : List Tok} {as : List Ex} (h : AGram prec ts as) : GoodA ts as := by
  match h with
  | .nil => exact goodA_nil
  | .last h1 => exact goodA_last h1 (egram_good h1).f (egram_lev h1)
  | .cons h1 h2 => exact goodA_cons h1 (egram_good h1).f (egram_lev h1) (agram_good h2)
end

/-- The parser on the text of an expression does what the generator does on its tree, or fails; it fails if the
expression is not clear. -/
theorem parseExpr_complete {ts us : List Tok} {e : Ex} {V : Name → Prop} {l : List Char} {c : CState} {n : Nat}
    (h : EGram prec 15 ts e) (ht : SpacedE l (ts ++ us)) (hv : VS V c) (hs : Stop 15 us) :
    Acc (fun m => TextE m us ∧ e.Clear V) (parseExpression n (st l c)) (genR e c) :=
  ((egram_good h).f V us l c n 15 ⟨ht, hv⟩ (by decide) (egram_lev h) hs).mono fun _ hm => ⟨hm.1, hm.2.clear⟩

end Blang.Fine
