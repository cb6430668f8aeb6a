import Verif.Spec.Runs
import Verif.Proofs.Det
import Verif.Proofs.Mem
import Verif.Props.Scope
/-
Properties C11, C12, C14-C18, C23, C30, C33, C34: the emitted module does what the program means.

The meaning of a program is in Verif/Spec/BSem.lean, that of a module in Verif/Spec/IRSem.lean; the
vocabulary that relates them in Verif/Spec/Runs.lean.  `Program.Tame` states the conditions.
-/
namespace Blang.Props
open Blang Blang.Spec

/-- the module does whatever the program means -/
def Implements (m : Module) (p : Program) : Prop :=
  ∀ (M : IRMachine) (X : Calls M.World) (n : Nat) (f : Ident) (args : List Word) (σ : Store M.World) (v : Word) (σ1 : Store M.World),
    p.Reaches M.toB X n f args σ (.done v σ1) → Module.Does m M X f args σ v (.back M.leave σ σ1)

theorem does_of_call {p : Program} {c : CState} (h : Between p newCompiler c) (hn : ∀ d ∈ p, d.All NameOk) (ht : p.Tame) {M : IRMachine}
    {X : Calls M.World} {n : Nat} {f : Ident} {args : List Word} {σ σ' : Store M.World} {v : Word}
    (hc : p.Call M.toB X n (M.addr (symbolOf f)) args σ v σ') : Module.Does ⟨c.globals, c.funcs⟩ M X f args σ v σ' := by
  have h1 := call_sim h hn ht.1 ht.2 n _ _ _ _ _ hc
  refine ⟨⟨n, h1⟩, ?_⟩
  intro hl k v1 σ1 h2
  have hd := moduleCall_det (m := ⟨c.globals, c.funcs⟩) hl.functional (h.mid hn).nodup hl.apart hl.external (max n k)
  exact hd _ _ _ _ _ _ _ (moduleCall_le (Nat.le_max_right n k) h2) (moduleCall_le (Nat.le_max_left n k) h1)

theorem implements_of {p : Program} {c : CState} (h : Between p newCompiler c) (hn : ∀ d ∈ p, d.All NameOk) (ht : p.Tame) :
    Implements ⟨c.globals, c.funcs⟩ p := by
  rintro M X n f args σ v σ1 ⟨ps, body, P, h1, h2, h3⟩
  exact does_of_call h hn ht (n := n + 1) (.inr ⟨f, ps, body, P, h1, rfl, h2, σ1, h3, rfl⟩)

theorem tree_between {chars : List Char} {p : Program} {m : Module} (h : TreeOf chars p m) :
    ∃ c, Between p newCompiler c ∧ m = ⟨c.globals, c.funcs⟩ := by
  obtain ⟨_, c, h1, h2⟩ := h
  exact ⟨c, between_of_gen h1, h2⟩

theorem tree_implements {chars : List Char} {p : Program} {m : Module} (h : TreeOf chars p m) (ht : p.Tame) : Implements m p := by
  obtain ⟨c, h1, rfl⟩ := tree_between h
  exact implements_of h1 (reads_names h.1) ht

theorem bsteps_trans {M : BMachine} {R : Calls M.World} {P0 : Place} {body : St} {x y z : BState M.World}
    (h1 : BSteps M R P0 body x y) (h2 : BSteps M R P0 body y z) : BSteps M R P0 body x z := by
  induction h1 with
  | refl => exact h2
  | head h _ ih => exact .head h (ih h2)

theorem goesOn_of_step {m : Module} {p : Program} (hi : Implements m p) {M : IRMachine} {X : Calls M.World} {n : Nat} {x y : BState M.World}
    (hs : ∀ P0 body, BStep M.toB (p.Call M.toB X n) P0 body x y) : Module.GoesOn m p M X n x y := by
  rintro f args σ v σ' ⟨ps, body, P, h1, h2, h3, h4⟩
  exact hi M X n f args σ v σ' ⟨ps, body, P, h1, h2, bsteps_trans h3 (.head (hs P body) h4)⟩

theorem returnsFrom_of_step {m : Module} {p : Program} (hi : Implements m p) {M : IRMachine} {X : Calls M.World} {n : Nat}
    {x : BState M.World} {v : Word} {σ' : Store M.World}
    (hs : ∀ P0 body, BStep M.toB (p.Call M.toB X n) P0 body x (.done v σ')) : Module.ReturnsFrom m p M X n x v σ' := by
  rintro f args σ ⟨ps, body, P, h1, h2, h3⟩
  exact hi M X n f args σ v σ' ⟨ps, body, P, h1, h2, bsteps_trans h3 (.head (hs P body) .refl)⟩

/-- the last definition is the only one -/
theorem defines_unique {p : Program} {f : Ident} {ps ps' : List Ident} {b b' : St} {P P' : Place} (h1 : p.Defines f ps b P)
    (h2 : p.Defines f ps' b' P') : ps = ps' ∧ b = b' ∧ P = P' := by
  obtain ⟨pre, post, e1, n1, rfl⟩ := h1
  obtain ⟨pre', post', e2, n2, rfl⟩ := h2
  have key : ∀ (pre pre' post post' : Program), (∀ qs b, Decl.func f qs b ∉ post) → (∀ qs b, Decl.func f qs b ∉ post') →
      pre ++ Decl.func f ps b :: post = pre' ++ Decl.func f ps' b' :: post' → pre = pre' ∧ ps = ps' ∧ b = b' := by
    intro pre
    induction pre with
    | nil =>
      intro pre' post post' n1 n2 e
      cases pre' with
      | nil => simp at e; exact ⟨rfl, e.1.1, e.1.2⟩
      | cons d pre' =>
        simp only [List.nil_append, List.cons_append, List.cons.injEq] at e
        exact absurd (by rw [e.2]; simp) (n1 ps' b')
    | cons d pre ih =>
      intro pre' post post' n1 n2 e
      cases pre' with
      | nil =>
        simp only [List.nil_append, List.cons_append, List.cons.injEq] at e
        exact absurd (by rw [← e.2]; simp) (n2 ps b)
      | cons d' pre' =>
        simp only [List.cons_append, List.cons.injEq] at e
        obtain ⟨h1, h2⟩ := ih pre' post post' n1 n2 e.2
        exact ⟨by rw [e.1, h1], h2⟩
  obtain ⟨rfl, rfl, rfl⟩ := key pre pre' post post' n1 n2 (e1 ▸ e2)
  exact ⟨rfl, rfl, rfl⟩

section
variable {chars : List Char} {p : Program} {m : Module} (h : TreeOf chars p m) (ht : p.Tame) {M : IRMachine} {X : Calls M.World} {n : Nat}
include h ht

/-! ## C15 -/

/-- C15. If the B program prescribes that the function, called with some arguments in some store, ends
with a result and a store, then this is what calling it in the module does, and the module has no other
outcome. -/
theorem C15_control_flow {f : Ident} {args : List Word} {σ σ' : Store M.World} {v : Word}
    (hr : p.Reaches M.toB X n f args σ (.done v σ')) : Module.Does m M X f args σ v (.back M.leave σ σ') :=
  tree_implements h ht M X n f args σ v σ' hr

/-- C15. `if` whose condition is not 0 -/
theorem C15_if_true {P : Place} {c : Ex} {t : St} {k : Cont} {ρ : Frame} {σ σ1 : Store M.World} {v : Word}
    (hv : c.Value M.toB (p.Call M.toB X n) P ρ σ v σ1) (h0 : v ≠ 0) :
    Module.GoesOn m p M X n (.run P (.ifThen c t) k ρ σ) (.run (P.afterEx c) t k ρ σ1) :=
  goesOn_of_step (tree_implements h ht) fun _ _ => .ifTrue hv h0

/-- C15. `if` whose condition is 0 -/
theorem C15_if_false {P : Place} {c : Ex} {t : St} {k : Cont} {ρ : Frame} {σ σ1 : Store M.World}
    (hv : c.Value M.toB (p.Call M.toB X n) P ρ σ 0 σ1) :
    Module.GoesOn m p M X n (.run P (.ifThen c t) k ρ σ) (.run P .skip k ρ σ1) :=
  goesOn_of_step (tree_implements h ht) fun _ _ => .ifFalse hv rfl

/-- C15. `if`-`else` -/
theorem C15_if_else {P : Place} {c : Ex} {t e : St} {k : Cont} {ρ : Frame} {σ σ1 : Store M.World} {v : Word}
    (hv : c.Value M.toB (p.Call M.toB X n) P ρ σ v σ1) :
    Module.GoesOn m p M X n (.run P (.ifElse c t e) k ρ σ)
      (if v ≠ 0 then .run (P.afterEx c) t k ρ σ1 else .run ((P.afterEx c).after t) e k ρ σ1) := by
  by_cases h0 : v = 0
  · rw [if_neg (not_not_intro h0)]; exact goesOn_of_step (tree_implements h ht) fun _ _ => .elseFalse hv h0
  · rw [if_pos h0]; exact goesOn_of_step (tree_implements h ht) fun _ _ => .elseTrue hv h0

/-- C15. `while`: the body is executed before the condition is evaluated again. -/
theorem C15_while_true {P : Place} {c : Ex} {b : St} {k : Cont} {ρ : Frame} {σ σ1 : Store M.World} {v : Word}
    (hv : c.Value M.toB (p.Call M.toB X n) P ρ σ v σ1) (h0 : v ≠ 0) :
    Module.GoesOn m p M X n (.run P (.while c b) k ρ σ) (.run (P.afterEx c) b (.loop P c b k) ρ σ1) :=
  goesOn_of_step (tree_implements h ht) fun _ _ => .whileTrue hv h0

theorem C15_while_again {P Q : Place} {c : Ex} {b : St} {k : Cont} {ρ : Frame} {σ : Store M.World} :
    Module.GoesOn m p M X n (.run Q .skip (.loop P c b k) ρ σ) (.run P (.while c b) k ρ σ) :=
  goesOn_of_step (tree_implements h ht) fun _ _ => .endLoop

theorem C15_while_false {P : Place} {c : Ex} {b : St} {k : Cont} {ρ : Frame} {σ σ1 : Store M.World}
    (hv : c.Value M.toB (p.Call M.toB X n) P ρ σ 0 σ1) :
    Module.GoesOn m p M X n (.run P (.while c b) k ρ σ) (.run P .skip k ρ σ1) :=
  goesOn_of_step (tree_implements h ht) fun _ _ => .whileFalse hv rfl

/-- C15. Blocks: one statement after the other. -/
theorem C15_block {P : Place} {s t : St} {k : Cont} {ρ : Frame} {σ : Store M.World} :
    Module.GoesOn m p M X n (.run P (.seq s t) k ρ σ) (.run P s (.seq (P.after s) t k) ρ σ) :=
  goesOn_of_step (tree_implements h ht) fun _ _ => .seq

theorem C15_next {P Q : Place} {t : St} {k : Cont} {ρ : Frame} {σ : Store M.World} :
    Module.GoesOn m p M X n (.run P .skip (.seq Q t k) ρ σ) (.run Q t k ρ σ) :=
  goesOn_of_step (tree_implements h ht) fun _ _ => .endSeq

/-! ## C11 -/

/-- C11. A function that gets to `return(e)` returns the value of `e` and leaves the store that the
evaluation of `e` leaves. -/
theorem C11_value {P : Place} {e : Ex} {k : Cont} {ρ : Frame} {σ σ1 : Store M.World} {v : Word}
    (hv : e.Value M.toB (p.Call M.toB X n) P ρ σ v σ1) :
    Module.ReturnsFrom m p M X n (.run P (.ret (some e)) k ρ σ) v σ1 :=
  returnsFrom_of_step (tree_implements h ht) fun _ _ => .ret hv

/-- C11. A function that gets to the statement `e;` goes on with the store that the evaluation of `e` leaves. -/
theorem C11_effects {P : Place} {e : Ex} {k : Cont} {ρ : Frame} {σ σ1 : Store M.World} {v : Word}
    (hv : e.Value M.toB (p.Call M.toB X n) P ρ σ v σ1) :
    Module.GoesOn m p M X n (.run P (.expr e) k ρ σ) (.run P .skip k ρ σ1) :=
  goesOn_of_step (tree_implements h ht) fun _ _ => .expr hv

/-! ## C12 -/

/-- C12. `x =op y`: with `a` the cell that `x` designates (evaluated first, once), `w` the value of `y`
(evaluated next) and `v` what `op` makes of the old value of the cell and `w`, the cell receives `v`
and the rest of the memory is as `y` left it; `v` is the value of the expression. -/
theorem C12_compound {P : Place} {o : Bop} {x y : Ex} {k : Cont} {ρ : Frame} {σ σ1 σ2 : Store M.World} {a : Word} {d : Res} {v : Word}
    (hx : x.Eval M.toB (p.Call M.toB X n) P.env ρ P.lits σ (.cell a) σ1)
    (hy : y.Eval M.toB (p.Call M.toB X n) P.env ρ (P.lits + x.strings.length) σ1 d σ2)
    (ho : o.sem (loadW σ2.mem a) (d.value σ2.mem) = some v) :
    Module.GoesOn m p M X n (.run P (.expr (.assign (some o) x y)) k ρ σ) (.run P .skip k ρ (σ2.store a v)) ∧
    Module.ReturnsFrom m p M X n (.run P (.ret (some (.assign (some o) x y))) k ρ σ) v (σ2.store a v) ∧
    loadW (σ2.store a v).mem a = v ∧
    (∀ b, 8 ≤ (b - a).toNat → (σ2.store a v).mem b = σ2.mem b) ∧ (σ2.store a v).world = σ2.world := by
  have hv : Ex.Value M.toB (p.Call M.toB X n) (.assign (some o) x y) P ρ σ v (σ2.store a v) :=
    ⟨.val v, ⟨a, σ1, d, σ2, v, hx, hy, ho, rfl, rfl⟩, rfl⟩
  refine ⟨C11_effects h ht hv, C11_value h ht hv, loadW_storeW _ _ _, fun b hb => ?_, rfl⟩
  simp only [Store.store, storeW]
  rw [if_neg (by omega)]

/-! ## C14 -/

/-- the relation that a comparison operator stands for -/
def comparison : Bop → Option (Int → Int → Prop)
  | .eq => some (· = ·)
  | .ne => some (· ≠ ·)
  | .lt => some (· < ·)
  | .le => some (· ≤ ·)
  | .gt => some (· > ·)
  | .ge => some (· ≥ ·)
  | _ => none

omit h ht in
theorem comparison_sem {o : Bop} {r : Int → Int → Prop} (hr : comparison o = some r) (x y : Word) :
    (r x.toInt y.toInt → o.sem x y = some 1) ∧ (¬ r x.toInt y.toInt → o.sem x y = some 0) := by
  cases o <;> simp only [comparison, reduceCtorEq, Option.some.injEq] at hr
  all_goals
    subst hr
    refine ⟨fun hc => ?_, fun hc => ?_⟩
    all_goals
      simp only [Bop.sem, truth, BitVec.toInt_inj, ne_eq] at *
      simp [hc]

/-- C14. A comparison of an expression with value `v` and one with value `w` is 1 if the relation
holds between `v` and `w` as signed numbers, else 0. -/
theorem C14_comparison {P : Place} {o : Bop} {x y : Ex} {k : Cont} {ρ : Frame} {σ σ1 σ2 : Store M.World} {v w : Word}
    {r : Int → Int → Prop} (hr : comparison o = some r)
    (hx : x.Value M.toB (p.Call M.toB X n) P ρ σ v σ1)
    (hy : y.Value M.toB (p.Call M.toB X n) ⟨P.env, P.lits + x.strings.length⟩ ρ σ1 w σ2) :
    (r v.toInt w.toInt → Module.ReturnsFrom m p M X n (.run P (.ret (some (.bin o x y))) k ρ σ) 1 σ2) ∧
    (¬ r v.toInt w.toInt → Module.ReturnsFrom m p M X n (.run P (.ret (some (.bin o x y))) k ρ σ) 0 σ2) := by
  obtain ⟨d1, hx, rfl⟩ := hx
  obtain ⟨d2, hy, rfl⟩ := hy
  obtain ⟨h1, h2⟩ := comparison_sem hr (d1.value σ1.mem) (d2.value σ2.mem)
  exact ⟨fun hc => C11_value h ht ⟨.val 1, ⟨d1, σ1, d2, 1, hx, hy, h1 hc, rfl⟩, rfl⟩,
    fun hc => C11_value h ht ⟨.val 0, ⟨d1, σ1, d2, 0, hx, hy, h2 hc, rfl⟩, rfl⟩⟩

/-- C14. `!e` is 1 if the value of `e` is 0, else 0. -/
theorem C14_not {P : Place} {e : Ex} {k : Cont} {ρ : Frame} {σ σ1 : Store M.World} {v : Word}
    (hv : e.Value M.toB (p.Call M.toB X n) P ρ σ v σ1) :
    (v = 0 → Module.ReturnsFrom m p M X n (.run P (.ret (some (.not e))) k ρ σ) 1 σ1) ∧
    (v ≠ 0 → Module.ReturnsFrom m p M X n (.run P (.ret (some (.not e))) k ρ σ) 0 σ1) := by
  obtain ⟨d, hv, rfl⟩ := hv
  refine ⟨fun hc => C11_value h ht ⟨.val 1, ⟨d, hv, ?_⟩, rfl⟩, fun hc => C11_value h ht ⟨.val 0, ⟨d, hv, ?_⟩, rfl⟩⟩
  · simp only [truth, if_pos hc]
  · simp only [truth, if_neg hc]

/-! ## C16 -/

/-- C16, for programs in which nothing follows a `return` in the same line of control (`Program.Tame`).
A function that gets to a `return` returns the value to its caller, whatever statements follow, and
nothing happens after the evaluation of the value. -/
theorem C16_return_partial {P : Place} {e : Ex} {k : Cont} {ρ : Frame} {σ σ1 : Store M.World} {v : Word}
    (hv : e.Value M.toB (p.Call M.toB X n) P ρ σ v σ1) :
    Module.ReturnsFrom m p M X n (.run P (.ret (some e)) k ρ σ) v σ1 :=
  C11_value h ht hv

theorem C16_return_nothing_partial {P : Place} {k : Cont} {ρ : Frame} {σ : Store M.World} :
    Module.ReturnsFrom m p M X n (.run P (.ret none) k ρ σ) 0 σ :=
  returnsFrom_of_step (tree_implements h ht) fun _ _ => .ret0

/-- C16. A function that gets to its end returns 0. -/
theorem C16_fall_off_partial {P : Place} {ρ : Frame} {σ : Store M.World} :
    Module.ReturnsFrom m p M X n (.run P .skip .stop ρ σ) 0 σ :=
  returnsFrom_of_step (tree_implements h ht) fun _ _ => .endFun

/-! ## C17 -/

omit h ht in
theorem findCase_none {v : Word} {b : St} : ∀ {P : Place} {k : Cont}, findCase v b P k = none ↔ v ∉ b.cases := by
  induction b with
  | seq s t ih1 ih2 =>
    intro P k
    simp only [findCase, Option.or_eq_none_iff, ih1, ih2, St.cases, List.mem_append, not_or]
  | case w s ih =>
    intro P k
    simp only [findCase, St.cases, List.mem_cons, not_or]
    by_cases hw : w = v
    · subst hw; simp
    · rw [if_neg hw, ih]; exact ⟨fun h => ⟨fun e => hw e.symm, h⟩, fun h => h.2⟩
  | label l s ih => intro P k; simp only [findCase, St.cases, ih]
  | _ => intro P k; simp [findCase, St.cases]

/-- C17. A `switch` evaluates its expression once and goes on at the case with that value;
`findCase` (Verif/Spec/BSem.lean) says where that is. -/
theorem C17_switch {P : Place} {e : Ex} {b : St} {k : Cont} {ρ : Frame} {σ σ1 : Store M.World} {v : Word}
    (hv : e.Value M.toB (p.Call M.toB X n) P ρ σ v σ1) (hc : v ∈ b.cases) :
    ∃ Q s k', findCase v b (P.afterEx e) k = some (Q, s, k') ∧
      Module.GoesOn m p M X n (.run P (.switch e b) k ρ σ) (.run Q s k' ρ σ1) := by
  cases hf : findCase v b (P.afterEx e) k with
  | none => exact absurd hc (findCase_none.1 hf)
  | some r =>
    obtain ⟨Q, s, k'⟩ := r
    exact ⟨Q, s, k', rfl, goesOn_of_step (tree_implements h ht) fun _ _ => .switchCase hv hf⟩

/-- C17. Without such a case it goes on after the switch. -/
theorem C17_no_case {P : Place} {e : Ex} {b : St} {k : Cont} {ρ : Frame} {σ σ1 : Store M.World} {v : Word}
    (hv : e.Value M.toB (p.Call M.toB X n) P ρ σ v σ1) (hc : v ∉ b.cases) :
    Module.GoesOn m p M X n (.run P (.switch e b) k ρ σ) (.run P .skip k ρ σ1) :=
  goesOn_of_step (tree_implements h ht) fun _ _ => .switchNone hv (findCase_none.2 hc)

/-- C17. Execution falls through into a case: what stands before does not matter. -/
theorem C17_fall_through {P : Place} {w : Word} {s : St} {k : Cont} {ρ : Frame} {σ : Store M.World} :
    Module.GoesOn m p M X n (.run P (.case w s) k ρ σ) (.run P s k ρ σ) :=
  goesOn_of_step (tree_implements h ht) fun _ _ => .case

/-- C17 for the usual form: in `switch(e) { s1 ... case v: s; t }` where `s1 ...` has no case `v`,
execution goes on with `s`, then `t` and what follows. -/
theorem C17_usual {P : Place} {e : Ex} {pre : List St} {s t : St} {k : Cont} {ρ : Frame} {σ σ1 : Store M.World} {v : Word}
    (hv : e.Value M.toB (p.Call M.toB X n) P ρ σ v σ1) (hc : ∀ u ∈ pre, v ∉ u.cases) :
    let Q := pre.foldl Place.after (P.afterEx e)
    Module.GoesOn m p M X n (.run P (.switch e (pre.foldr .seq (.seq (.case v s) t))) k ρ σ) (.run Q s (.seq (Q.after (.case v s)) t k) ρ σ1) := by
  intro Q
  have hf : ∀ (pre : List St) (P : Place), (∀ u ∈ pre, v ∉ u.cases) →
      findCase v (pre.foldr .seq (.seq (.case v s) t)) P k =
        some (pre.foldl Place.after P, s, .seq ((pre.foldl Place.after P).after (.case v s)) t k) := by
    intro pre
    induction pre with
    | nil => intro P _; simp [findCase]
    | cons u pre ih =>
      intro P hc
      simp only [List.foldr_cons, List.foldl_cons, findCase]
      rw [findCase_none.2 (hc u (by simp)), ih _ (fun x hx => hc x (by simp [hx]))]
      rfl
  exact goesOn_of_step (tree_implements h ht) fun _ _ => .switchCase hv (hf pre _ hc)

/-! ## C18 -/

/-- C18. `goto l` goes on at the statement labelled `l` of the same function, wherever that is;
`findLabel` (Verif/Spec/BSem.lean) says what statement this is and what follows it. -/
theorem C18_goto {f : Ident} {ps : List Ident} {body : St} {P0 : Place} (hd : p.Defines f ps body P0)
    {P Q : Place} {l : Ident} {s : St} {k k' : Cont} {ρ : Frame} {σ1 : Store M.World}
    (hf : findLabel l body P0 .stop = some (Q, s, k')) {args : List Word} {σ σ' : Store M.World} {v : Word}
    (ht' : p.Through M.toB X n f args σ (.run P (.goto l) k ρ σ1) (.run Q s k' ρ σ1) v σ') :
    Module.Does m M X f args σ v (.back M.leave σ σ') := by
  obtain ⟨ps', body', P', h1, h2, h3, h4⟩ := ht'
  obtain ⟨rfl, rfl, rfl⟩ := defines_unique hd h1
  exact tree_implements h ht M X n f args σ v σ' ⟨_, _, _, h1, h2, bsteps_trans h3 (.head (.goto hf) h4)⟩

omit h ht in
theorem findLabel_none {l : Ident} {b : St} : ∀ {P : Place} {k : Cont}, findLabel l b P k = none ↔ l ∉ b.labels := by
  induction b with
  | seq s t ih1 ih2 | ifElse c s t ih1 ih2 =>
    intro P k
    simp only [findLabel, Option.or_eq_none_iff, ih1, ih2, St.labels, List.mem_append, not_or]
  | label w s ih =>
    intro P k
    simp only [findLabel, St.labels, List.mem_cons, not_or]
    by_cases hw : w = l
    · subst hw; simp
    · rw [if_neg hw, ih]; exact ⟨fun h => ⟨fun e => hw e.symm, h⟩, fun h => h.2⟩
  | case w s ih | ifThen w s ih | «while» w s ih | switch w s ih => intro P k; simp only [findLabel, St.labels, ih]
  | _ => intro P k; simp [findLabel, St.labels]

omit h ht in
/-- C18. Every label of the function is found, in whatever blocks it lies. -/
theorem C18_found {l : Ident} {b : St} (hl : l ∈ b.labels) (P : Place) (k : Cont) :
    ∃ Q s k', findLabel l b P k = some (Q, s, k') := by
  cases hf : findLabel l b P k with
  | none => exact absurd hl (findLabel_none.1 hf)
  | some r => exact ⟨r.1, r.2.1, r.2.2, rfl⟩

/-! ## C34 -/

/-- C34. A call of a name that is no variable of the function: the function of that name, of the
program or external, is called with the values of the arguments, evaluated from left to right, in
order. -/
theorem C34_function {P : Place} {f : Ident} {as : List Ex} {k : Cont} {ρ : Frame} {σ σ1 σ2 : Store M.World} {vs : List Word} {v : Word}
    (hf : ¬ P.env.Var f) (ha : Ex.EvalArgs M.toB (p.Call M.toB X n) P.env ρ as P.lits σ vs σ1)
    (hc : p.Call M.toB X n (M.addr (symbolOf f)) vs σ1 v σ2) :
    Module.ReturnsFrom m p M X n (.run P (.ret (some (.callName f as))) k ρ σ) v σ2 := by
  refine C11_value h ht ⟨.val v, ⟨.val (M.addr (symbolOf f)), vs, σ1, v, ?_, ha, hc, rfl⟩, rfl⟩
  have h1 : f ∉ P.env.locals := fun hm => hf (.inl hm)
  have h2 : f ∉ P.env.exts := fun hm => hf (.inr hm)
  simp [nameRes, h1, h2]

/-- C34. A call of a name that an `extrn` of the function made a variable: the function whose address
the variable holds before the arguments are evaluated is called.  (Missing for C34: names that are
parameters or `auto` variables, see the counterexample; `Program.Tame` excludes them.) -/
theorem C34_extrn_partial {P : Place} {f : Ident} {as : List Ex} {k : Cont} {ρ : Frame} {σ σ1 σ2 : Store M.World} {vs : List Word} {v : Word}
    (hf : f ∈ P.env.exts) (hl : f ∉ P.env.locals) (ha : Ex.EvalArgs M.toB (p.Call M.toB X n) P.env ρ as P.lits σ vs σ1)
    (hc : p.Call M.toB X n (loadW σ.mem (M.addr (symbolOf f))) vs σ1 v σ2) :
    Module.ReturnsFrom m p M X n (.run P (.ret (some (.callName f as))) k ρ σ) v σ2 := by
  refine C11_value h ht ⟨.val v, ⟨.cell (M.addr (symbolOf f)), vs, σ1, v, ?_, ha, hc, rfl⟩, rfl⟩
  simp [nameRes, hf, hl]

/-- C34. A call of the value of an expression. -/
theorem C34_pointer {P : Place} {g : Ex} {as : List Ex} {k : Cont} {ρ : Frame} {σ σ0 σ1 σ2 : Store M.World} {vs : List Word} {a v : Word}
    (hg : g.Value M.toB (p.Call M.toB X n) P ρ σ a σ0)
    (ha : Ex.EvalArgs M.toB (p.Call M.toB X n) P.env ρ as (P.lits + g.strings.length) σ0 vs σ1)
    (hc : p.Call M.toB X n a vs σ1 v σ2) :
    Module.ReturnsFrom m p M X n (.run P (.ret (some (.call g as))) k ρ σ) v σ2 := by
  obtain ⟨d, hg, rfl⟩ := hg
  exact C11_value h ht ⟨.val v, ⟨d, σ0, vs, σ1, v, hg, ha, hc, rfl⟩, rfl⟩

/-! ## C30 -/

omit h ht in
theorem bindParams_other {ps : List Ident} : ∀ {cs : List Word} {ρ : Frame} {x : Ident}, x ∉ ps → bindParams ps cs ρ x = ρ x := by
  induction ps with
  | nil => intro cs ρ x _; cases cs <;> rfl
  | cons q ps ih =>
    intro cs ρ x hx
    cases cs with
    | nil => rfl
    | cons a cs =>
      simp only [List.mem_cons, not_or] at hx
      simp only [bindParams]
      rw [ih hx.2, Frame.bind, if_neg hx.1]

omit h ht in
theorem storeArgs_other {cs : List Word} : ∀ {vs : List Word} {mem : Mem} {a : Word}, (∀ c ∈ cs, Apart c a) →
    loadW (storeArgs cs vs mem) a = loadW mem a := by
  induction cs with
  | nil => intro vs mem a _; cases vs <;> rfl
  | cons c cs ih =>
    intro vs mem a ha
    cases vs with
    | nil => rfl
    | cons v vs =>
      simp only [storeArgs]
      rw [ih (fun b hb => ha b (by simp [hb])), loadW_other (ha c (by simp))]

omit h ht in
/-- C30, the state at the beginning of a function: if the cells reserved for the parameters do not
overlap, then the cell of each parameter holds the argument of its position. -/
theorem entry_params {ps : List Ident} : ∀ {cs args : List Word} {mem : Mem} {ρ : Frame}, ps.Nodup → cs.length = ps.length →
    cs.Pairwise (fun a b => Apart b a) → ∀ (i : Nat) (x : Ident) (v : Word), ps[i]? = some x → args[i]? = some v →
    ∃ a, bindParams ps cs ρ x = some a ∧ cs[i]? = some a ∧ loadW (storeArgs cs args mem) a = v := by
  induction ps with
  | nil => intro cs args mem ρ _ _ _ i x v hx; simp at hx
  | cons q ps ih =>
    intro cs args mem ρ hn hl hp i x v hx hv
    cases cs with
    | nil => simp at hl
    | cons c cs =>
    cases args with
    | nil => simp at hv
    | cons w args =>
    have hp' := List.pairwise_cons.1 hp
    have hn' := List.nodup_cons.1 hn
    cases i with
    | zero =>
      simp only [List.getElem?_cons_zero, Option.some.injEq] at hx hv
      subst hx; subst hv
      refine ⟨c, ?_, rfl, ?_⟩
      · simp only [bindParams]; rw [bindParams_other hn'.1]; simp [Frame.bind]
      · simp only [storeArgs]; rw [storeArgs_other hp'.1]; exact loadW_storeW _ _ _
    | succ i =>
      simp only [List.getElem?_cons_succ] at hx hv ⊢
      simp only [bindParams, storeArgs]
      exact ih hn'.2 (by simpa using hl) hp'.2 i x v hx hv

omit h ht in
theorem cells_length (M : IRMachine) : ∀ (k : Nat) (w : M.World), (M.cells w k).1.length = k := by
  intro k
  induction k with
  | zero => intro w; rfl
  | succ k ih => intro w; simp [IRMachine.cells, ih]

omit h ht in
theorem paramCells_length (M : IRMachine) (w : M.World) (k : Nat) : (M.paramCells w k).1.length = k := by
  cases k with
  | zero => rfl
  | succ k =>
    cases k with
    | zero => rfl
    | succ k => simp [IRMachine.paramCells, cells_length]

/-- C30. A function with the parameters `ps`, called with at least as many arguments, starts its body
in a state in which the cell of each parameter holds the argument of its position; from this state
on the module does what the body prescribes.  The cells reserved by the machine must not overlap and
the parameters must have different names. -/
theorem C30_arguments {f : Ident} {ps : List Ident} {body : St} {P : Place} (hd : p.Defines f ps body P) (hn : ps.Nodup)
    {args : List Word} (hl : ps.length ≤ args.length) {σ : Store M.World}
    (hc : (M.paramCells σ.world ps.length).1.Pairwise fun a b => Apart b a) :
    ∃ (ρ : Frame) (σ0 : Store M.World),
      (∀ (i : Nat) (x : Ident) (v : Word), ps[i]? = some x → args[i]? = some v → ∃ a, ρ x = some a ∧ loadW σ0.mem a = v) ∧
      ∀ v σ', BSteps M.toB (p.Call M.toB X n) P body (.run P body .stop ρ σ0) (.done v σ') →
        Module.Does m M X f args σ v (.back M.leave σ σ') := by
  refine ⟨bindParams ps (M.paramCells σ.world ps.length).1 (fun _ => none),
    ⟨storeArgs (M.paramCells σ.world ps.length).1 args σ.mem, (M.paramCells σ.world ps.length).2⟩, ?_, ?_⟩
  · intro i x v hx hv
    obtain ⟨a, h1, _, h2⟩ := entry_params hn (paramCells_length M σ.world ps.length) hc i x v hx hv (mem := σ.mem) (ρ := fun _ => none)
    exact ⟨a, h1, h2⟩
  · intro v σ' hs
    exact tree_implements h ht M X n f args σ v σ' ⟨ps, body, P, hd, hl, hs⟩

/-- C30, seen from outside: `f(x1,...,xk){ return(xi); }` returns its i-th argument. -/
theorem C30_returned {f : Ident} {ps : List Ident} {x : Ident} {P : Place} (hd : p.Defines f ps (.seq (.ret (some (.var x))) .skip) P)
    (hn : ps.Nodup) {args : List Word} (hl : ps.length ≤ args.length) {σ : Store M.World}
    (hc : (M.paramCells σ.world ps.length).1.Pairwise fun a b => Apart b a) {i : Nat} (hx : ps[i]? = some x) {v : Word}
    (hv : args[i]? = some v) : ∃ σ', Module.Does m M X f args σ v σ' := by
  obtain ⟨ρ, σ0, h1, h2⟩ := C30_arguments (X := X) (n := 0) h ht hd hn hl hc
  obtain ⟨a, k1, k2⟩ := h1 i x v hx hv
  refine ⟨_, h2 v σ0 (.head .seq (.head (.ret (v := v) ?_) .refl))⟩
  have hP : P.env.locals = ps := by
    obtain ⟨_, _, _, _, rfl⟩ := hd; rfl
  refine ⟨.cell a, ⟨?_, rfl⟩, k2.symm⟩
  have : x ∈ P.env.locals := hP ▸ List.mem_of_getElem? hx
  simp [nameRes, this, k1]

/-! ## C33 -/

omit h ht in
/-- where the variables of an `auto` statement get their cells, in order -/
def autoCells (M : IRMachine) : List (Ident × Option Word) → M.World → List Word
  | [], _ => []
  | (_, none) :: ds, w => (M.alloc w 8).1 :: autoCells M ds (M.alloc w 8).2
  | (_, some n) :: ds, w =>
    let r := M.alloc w (8 * ((if n = 0 then 1 else n.toNat) + 1))
    r.1 :: autoCells M ds r.2

omit h ht in
theorem declare_spec {ds : List (Ident × Option Word)} : ∀ {ρ : Frame} {σ : Store M.World}, (ds.map (·.1)).Nodup →
    (autoCells M ds σ.world).Pairwise (fun a b => Apart b a) →
    (∀ x, x ∉ ds.map (·.1) → (declare M.toB ds ρ σ).1 x = ρ x) ∧
    (∀ a, (∀ c ∈ autoCells M ds σ.world, Apart c a) → loadW (declare M.toB ds ρ σ).2.mem a = loadW σ.mem a) ∧
    ∀ (i : Nat) (x : Ident) (sz : Option Word), ds[i]? = some (x, sz) → ∃ a, (autoCells M ds σ.world)[i]? = some a ∧
      (declare M.toB ds ρ σ).1 x = some a ∧ loadW (declare M.toB ds ρ σ).2.mem a = match sz with | none => 0 | some _ => a + 8 := by
  induction ds with
  | nil => intro ρ σ _ _; exact ⟨fun _ _ => rfl, fun _ _ => rfl, fun i x sz hi => by simp at hi⟩
  | cons d ds ih =>
    intro ρ σ hn hp
    obtain ⟨x, sz⟩ := d
    simp only [List.map_cons, List.nodup_cons] at hn
    cases sz with
    | none =>
      simp only [autoCells, List.pairwise_cons] at hp
      obtain ⟨h1, h2, h3⟩ := ih (ρ := ρ.bind x (M.alloc σ.world 8).1)
        (σ := (Store.mk σ.mem (M.alloc σ.world 8).2).store (M.alloc σ.world 8).1 0) hn.2 hp.2
      refine ⟨?_, ?_, ?_⟩
      · intro y hy
        simp only [List.map_cons, List.mem_cons, not_or] at hy
        simp only [declare]
        rw [h1 y hy.2, Frame.bind, if_neg hy.1]
      · intro a ha
        simp only [autoCells, List.mem_cons, forall_eq_or_imp] at ha
        simp only [declare]
        rw [h2 a ha.2]
        exact loadW_other ha.1
      · intro i y sz hi
        cases i with
        | zero =>
          simp only [List.getElem?_cons_zero, Option.some.injEq, Prod.mk.injEq] at hi
          obtain ⟨rfl, rfl⟩ := hi
          refine ⟨(M.alloc σ.world 8).1, rfl, ?_, ?_⟩
          · simp only [declare]; rw [h1 _ hn.1]; simp [Frame.bind]
          · simp only [declare]; rw [h2 _ hp.1]; exact loadW_storeW _ _ _
        | succ i => exact h3 i y sz hi
    | some k =>
      simp only [autoCells, List.pairwise_cons] at hp
      obtain ⟨h1, h2, h3⟩ := ih (ρ := ρ.bind x (M.alloc σ.world (8 * ((if k = 0 then 1 else k.toNat) + 1))).1)
        (σ := (Store.mk σ.mem (M.alloc σ.world (8 * ((if k = 0 then 1 else k.toNat) + 1))).2).store
          (M.alloc σ.world (8 * ((if k = 0 then 1 else k.toNat) + 1))).1
          ((M.alloc σ.world (8 * ((if k = 0 then 1 else k.toNat) + 1))).1 + 8)) hn.2 hp.2
      refine ⟨?_, ?_, ?_⟩
      · intro y hy
        simp only [List.map_cons, List.mem_cons, not_or] at hy
        simp only [declare]
        rw [h1 y hy.2, Frame.bind, if_neg hy.1]
      · intro a ha
        simp only [autoCells, List.mem_cons, forall_eq_or_imp] at ha
        simp only [declare]
        rw [h2 a ha.2]
        exact loadW_other ha.1
      · intro i y sz hi
        cases i with
        | zero =>
          simp only [List.getElem?_cons_zero, Option.some.injEq, Prod.mk.injEq] at hi
          obtain ⟨rfl, rfl⟩ := hi
          refine ⟨(M.alloc σ.world (8 * ((if k = 0 then 1 else k.toNat) + 1))).1, rfl, ?_, ?_⟩
          · simp only [declare]; rw [h1 _ hn.1]; simp [Frame.bind]
          · simp only [declare]; rw [h2 _ hp.1]; exact loadW_storeW _ _ _
        | succ i => exact h3 i y sz hi

/-- C33. Executing an `auto` statement gives each variable the next storage that the machine reserves
(`autoCells`; 8 bytes for a variable, 8(N+1) bytes, N at least 1, for a vector of N words); afterwards
a variable is 0 and a vector holds the address of the bytes 8, 9, ... of its own storage.  The cells
reserved must not overlap. -/
theorem C33_auto {P : Place} {ds : List (Ident × Option Word)} {k : Cont} {ρ : Frame} {σ : Store M.World}
    (hn : (ds.map (·.1)).Nodup) (hp : (autoCells M ds σ.world).Pairwise fun a b => Apart b a) :
    ∃ (ρ1 : Frame) (σ1 : Store M.World), Module.GoesOn m p M X n (.run P (.auto ds) k ρ σ) (.run P .skip k ρ1 σ1) ∧
      (∀ x, x ∉ ds.map (·.1) → ρ1 x = ρ x) ∧
      (∀ a, (∀ c ∈ autoCells M ds σ.world, Apart c a) → loadW σ1.mem a = loadW σ.mem a) ∧
      ∀ (i : Nat) (x : Ident) (sz : Option Word), ds[i]? = some (x, sz) → ∃ a, (autoCells M ds σ.world)[i]? = some a ∧
        ρ1 x = some a ∧ loadW σ1.mem a = match sz with | none => 0 | some _ => a + 8 :=
  ⟨_, _, goesOn_of_step (tree_implements h ht) fun _ _ => .auto, declare_spec hn hp⟩

/-! ## C23 -/

/-- C23. What a name stands for when its value is taken: the local variable of that name if there is one
at this place of the function, ... -/
theorem C23_local {P : Place} {x : Ident} {k : Cont} {ρ : Frame} {σ : Store M.World} {a : Word} (hx : x ∈ P.env.locals) (ha : ρ x = some a) :
    Module.ReturnsFrom m p M X n (.run P (.ret (some (.var x))) k ρ σ) (loadW σ.mem a) σ :=
  C11_value h ht ⟨.cell a, ⟨by simp [nameRes, hx, ha], rfl⟩, rfl⟩

/-- ... else the global variable if the function has named it in an `extrn` before, ... -/
theorem C23_extrn {P : Place} {x : Ident} {k : Cont} {ρ : Frame} {σ : Store M.World} (hl : x ∉ P.env.locals) (hx : x ∈ P.env.exts) :
    Module.ReturnsFrom m p M X n (.run P (.ret (some (.var x))) k ρ σ) (loadW σ.mem (M.addr (symbolOf x))) σ :=
  C11_value h ht ⟨.cell (M.addr (symbolOf x)), ⟨by simp [nameRes, hl, hx], rfl⟩, rfl⟩

/-- ... else the function. -/
theorem C23_function {P : Place} {x : Ident} {k : Cont} {ρ : Frame} {σ : Store M.World} (hl : x ∉ P.env.locals) (hx : x ∉ P.env.exts) :
    Module.ReturnsFrom m p M X n (.run P (.ret (some (.var x))) k ρ σ) (M.addr (symbolOf x)) σ :=
  C11_value h ht ⟨.val (M.addr (symbolOf x)), ⟨by simp [nameRes, hl, hx], rfl⟩, rfl⟩

end

/-! ### where names come from -/

/-- names that may be local or external in what remains to be done -/
def ContIn (L Xs : List Ident) : Cont → Prop
  | .stop => True
  | .seq P t k => (P.env.locals ⊆ L ∧ P.env.exts ⊆ Xs) ∧ (t.autos ⊆ L ∧ t.extrns ⊆ Xs) ∧ ContIn L Xs k
  | .loop P _ b k => (P.env.locals ⊆ L ∧ P.env.exts ⊆ Xs) ∧ (b.autos ⊆ L ∧ b.extrns ⊆ Xs) ∧ ContIn L Xs k

theorem after_in {L Xs : List Ident} {P : Place} {s : St} (h1 : P.env.locals ⊆ L ∧ P.env.exts ⊆ Xs) (h2 : s.autos ⊆ L ∧ s.extrns ⊆ Xs) :
    (P.after s).env.locals ⊆ L ∧ (P.after s).env.exts ⊆ Xs := by
  constructor
  · intro x hx
    rcases (after_locals s P.env x).1 hx with h | h
    · exact h2.1 h
    · exact h1.1 h
  · intro x hx
    rcases (after_exts s P.env x).1 hx with h | h
    · exact h2.2 h
    · exact h1.2 h

theorem findCase_in {L Xs : List Ident} {v : Word} {b : St} : ∀ {P Q : Place} {s : St} {k k' : Cont}, findCase v b P k = some (Q, s, k') →
    (P.env.locals ⊆ L ∧ P.env.exts ⊆ Xs) → (b.autos ⊆ L ∧ b.extrns ⊆ Xs) → ContIn L Xs k →
    (Q.env.locals ⊆ L ∧ Q.env.exts ⊆ Xs) ∧ (s.autos ⊆ L ∧ s.extrns ⊆ Xs) ∧ ContIn L Xs k' := by
  induction b with
  | seq s t ih1 ih2 =>
    intro P Q u k k' h h1 h2 h3
    simp only [St.autos, St.extrns, List.append_subset] at h2
    simp only [findCase, Option.or_eq_some_iff] at h
    rcases h with h | ⟨_, h⟩
    · exact ih1 h h1 ⟨h2.1.1, h2.2.1⟩ ⟨after_in h1 ⟨h2.1.1, h2.2.1⟩, ⟨h2.1.2, h2.2.2⟩, h3⟩
    · exact ih2 h (after_in h1 ⟨h2.1.1, h2.2.1⟩) ⟨h2.1.2, h2.2.2⟩ h3
  | case w s ih =>
    intro P Q u k k' h h1 h2 h3
    simp only [findCase] at h
    split at h
    · simp only [Option.some.injEq, Prod.mk.injEq] at h
      obtain ⟨rfl, rfl, rfl⟩ := h
      exact ⟨h1, h2, h3⟩
    · exact ih h h1 h2 h3
  | label l s ih =>
    intro P Q u k k' h h1 h2 h3
    exact ih h h1 h2 h3
  | _ => intro P Q u k k' h; simp [findCase] at h

theorem findLabel_in {L Xs : List Ident} {l : Ident} {b : St} : ∀ {P Q : Place} {s : St} {k k' : Cont}, findLabel l b P k = some (Q, s, k') →
    (P.env.locals ⊆ L ∧ P.env.exts ⊆ Xs) → (b.autos ⊆ L ∧ b.extrns ⊆ Xs) → ContIn L Xs k →
    (Q.env.locals ⊆ L ∧ Q.env.exts ⊆ Xs) ∧ (s.autos ⊆ L ∧ s.extrns ⊆ Xs) ∧ ContIn L Xs k' := by
  induction b with
  | seq s t ih1 ih2 =>
    intro P Q u k k' h h1 h2 h3
    simp only [St.autos, St.extrns, List.append_subset] at h2
    simp only [findLabel, Option.or_eq_some_iff] at h
    rcases h with h | ⟨_, h⟩
    · exact ih1 h h1 ⟨h2.1.1, h2.2.1⟩ ⟨after_in h1 ⟨h2.1.1, h2.2.1⟩, ⟨h2.1.2, h2.2.2⟩, h3⟩
    · exact ih2 h (after_in h1 ⟨h2.1.1, h2.2.1⟩) ⟨h2.1.2, h2.2.2⟩ h3
  | ifElse c s t ih1 ih2 =>
    intro P Q u k k' h h1 h2 h3
    simp only [St.autos, St.extrns, List.append_subset] at h2
    simp only [findLabel, Option.or_eq_some_iff] at h
    rcases h with h | ⟨_, h⟩
    · exact ih1 h h1 ⟨h2.1.1, h2.2.1⟩ h3
    · exact ih2 h (after_in (P := P.afterEx c) h1 ⟨h2.1.1, h2.2.1⟩) ⟨h2.1.2, h2.2.2⟩ h3
  | label w s ih =>
    intro P Q u k k' h h1 h2 h3
    simp only [findLabel] at h
    split at h
    · simp only [Option.some.injEq, Prod.mk.injEq] at h
      obtain ⟨rfl, rfl, rfl⟩ := h
      exact ⟨h1, h2, h3⟩
    · exact ih h h1 h2 h3
  | case w s ih | ifThen w s ih | switch w s ih =>
    intro P Q u k k' h h1 h2 h3
    exact ih h h1 h2 h3
  | «while» w s ih =>
    intro P Q u k k' h h1 h2 h3
    exact ih h h1 h2 ⟨h1, h2, h3⟩
  | _ => intro P Q u k k' h; simp [findLabel] at h

/-- the names known at a state -/
def StateIn {World : Type} (L Xs : List Ident) : BState World → Prop
  | .run P s k _ _ => (P.env.locals ⊆ L ∧ P.env.exts ⊆ Xs) ∧ (s.autos ⊆ L ∧ s.extrns ⊆ Xs) ∧ ContIn L Xs k
  | .done _ _ => True

theorem step_in {M : BMachine} {R : Calls M.World} {L Xs : List Ident} {P0 : Place} {body : St}
    (h0 : P0.env.locals ⊆ L ∧ P0.env.exts ⊆ Xs) (hb : body.autos ⊆ L ∧ body.extrns ⊆ Xs) {x y : BState M.World}
    (hs : BStep M R P0 body x y) (hx : StateIn L Xs x) : StateIn L Xs y := by
  cases hs with
  | endFun | ret0 | ret => trivial
  | endSeq => exact hx.2.2
  | endLoop => exact ⟨hx.2.2.1, hx.2.2.2.1, hx.2.2.2.2⟩
  | seq =>
    obtain ⟨h1, h2, h3⟩ := hx
    simp only [St.autos, St.extrns, List.append_subset] at h2
    exact ⟨h1, ⟨h2.1.1, h2.2.1⟩, after_in h1 ⟨h2.1.1, h2.2.1⟩, ⟨h2.1.2, h2.2.2⟩, h3⟩
  | expr | extrn | ifFalse | whileFalse | switchNone | auto => exact ⟨hx.1, ⟨by simp [St.autos], by simp [St.extrns]⟩, hx.2.2⟩
  | ifTrue | case | label => exact hx
  | elseTrue =>
    obtain ⟨h1, h2, h3⟩ := hx
    simp only [St.autos, St.extrns, List.append_subset] at h2
    exact ⟨h1, ⟨h2.1.1, h2.2.1⟩, h3⟩
  | elseFalse =>
    obtain ⟨h1, h2, h3⟩ := hx
    simp only [St.autos, St.extrns, List.append_subset] at h2
    exact ⟨after_in (P := Place.afterEx _ _) h1 ⟨h2.1.1, h2.2.1⟩, ⟨h2.1.2, h2.2.2⟩, h3⟩
  | whileTrue => exact ⟨hx.1, hx.2.1, hx.1, hx.2.1, hx.2.2⟩
  | switchCase hv hf => exact findCase_in hf hx.1 hx.2.1 hx.2.2
  | goto hf => exact findLabel_in hf h0 hb trivial

/-- C23. At every place that a function gets to, the names that stand for variables are its parameters,
names that its own `auto` statements declare, and names in its own `extrn` statements: nothing that
other functions or the rest of the program declare. -/
theorem C23_own_names {p : Program} {M : BMachine} {X : Calls M.World} {n : Nat} {f : Ident} {ps : List Ident} {body : St} {P0 : Place}
    (hd : p.Defines f ps body P0) {args : List Word} {σ : Store M.World} {P : Place} {s : St} {k : Cont} {ρ : Frame} {σ1 : Store M.World}
    (hr : p.Reaches M X n f args σ (.run P s k ρ σ1)) :
    (∀ x ∈ P.env.locals, x ∈ ps ∨ x ∈ body.autos) ∧ ∀ x ∈ P.env.exts, x ∈ body.extrns := by
  obtain ⟨ps', body', P', h1, h2, h3⟩ := hr
  obtain ⟨rfl, rfl, rfl⟩ := defines_unique hd h1
  have hP : P0.env.locals = ps ∧ P0.env.exts = [] := by
    obtain ⟨_, _, _, _, rfl⟩ := hd; exact ⟨rfl, rfl⟩
  have h0 : P0.env.locals ⊆ ps ++ body.autos ∧ P0.env.exts ⊆ body.extrns := by
    rw [hP.1, hP.2]; exact ⟨by simp, by simp⟩
  have hb : body.autos ⊆ ps ++ body.autos ∧ body.extrns ⊆ body.extrns := ⟨by simp, by simp⟩
  have key : ∀ {x y : BState M.World}, BSteps M (p.Call M X n) P0 body x y → StateIn (ps ++ body.autos) body.extrns x →
      StateIn (ps ++ body.autos) body.extrns y := by
    intro x y hs
    induction hs with
    | refl => exact id
    | head hs _ ih => exact fun hx => ih (step_in h0 hb hs hx)
  have := key h3 ⟨h0, hb, trivial⟩
  exact ⟨fun x hx => List.mem_append.1 (this.1.1 hx), fun x hx => this.1.2 hx⟩

/-! ### counterexamples -/

/-- the module emitted for a text -/
def emitted (s : String) : Option Module := (compileText s.toList .eof).toOption

theorem compile_of_emitted {s : String} {m : Module} (h : emitted s = some m) : compileText s.toList .eof = .ok m := by
  unfold emitted at h
  cases hc : compileText s.toList .eof with
  | ok m' => rw [hc] at h; simp only [Except.toOption, Option.some.injEq] at h; rw [h]
  | error e => rw [hc] at h; simp [Except.toOption] at h

/-- C16 is false in general: the second `return` of `main(){ return(1); return(2); }` wins. -/
theorem C16_second_return_counterexample : ∃ m, compileText "main(){return(1); return(2);}".toList .eof = .ok m ∧
    ∀ (M : IRMachine) (X : Calls M.World) (σ : Store M.World),
      Module.Does m M X "main".toList [] σ 2 ⟨σ.mem, M.leave σ.world σ.world⟩ := by
  refine ⟨⟨[], [⟨"main".toList, [], false, [⟨"entry".toList, [], some (.ret (.const 2))⟩]⟩]⟩, compile_of_emitted (by decide +kernel), ?_⟩
  intro M X σ
  have h1 : Module.Call ⟨[], [⟨"main".toList, [], false, [⟨"entry".toList, [], some (.ret (.const 2))⟩]⟩]⟩ M X 1 (M.addr (symbolOf "main".toList)) []
      σ 2 ⟨σ.mem, M.leave σ.world σ.world⟩ := by
    refine .inr ⟨⟨"main".toList, [], false, [⟨"entry".toList, [], some (.ret (.const 2))⟩]⟩, by simp, by simp, by congr 1, ?_⟩
    exact ⟨.start σ, .refl, ⟨_, _, rfl, rfl, rfl, rfl⟩, rfl⟩
  refine ⟨⟨1, h1⟩, ?_⟩
  intro hl k v1 σ1 h2
  have hd := moduleCall_det hl.functional (by simp) hl.apart hl.external (max 1 k)
  exact hd _ _ _ _ _ _ _ (moduleCall_le (Nat.le_max_right 1 k) h2) (moduleCall_le (Nat.le_max_left 1 k) h1)

/-- C34 is false for parameters (and `auto` variables): `f(a){ return(a(1)); }` calls the external
function `a`, whatever the argument `q` of `f` is. -/
theorem C34_parameter_counterexample : ∃ m, compileText "f(a){return(a(1));}".toList .eof = .ok m ∧
    ∀ (M : IRMachine) (X : Calls M.World) (q : Word) (σ : Store M.World) (v : Word) (σ1 : Store M.World),
      X (M.addr (symbolOf "a".toList)) [1] ⟨storeW σ.mem (M.alloc σ.world 8).1 q, (M.alloc σ.world 8).2⟩ v σ1 →
      Module.Does m M X "f".toList [q] σ v ⟨σ1.mem, M.leave σ.world σ1.world⟩ := by
  let F : Func := ⟨"b.f".toList, ["a".toList], true, [⟨"entry".toList,
    [(0, .alloca .i64), (1, .store .param (.reg 0)), (2, .bitcast (.func "b.a".toList true 0)), (3, .call (.reg 2) [.const 1])],
    some (.ret (.reg 3))⟩]⟩
  let m : Module := ⟨[], [F, ⟨"b.a".toList, [], true, []⟩]⟩
  refine ⟨m, compile_of_emitted (by decide +kernel), ?_⟩
  intro M X q σ v σ1 hx
  have h1 : Module.Call m M X 1 (M.addr (symbolOf "f".toList)) [q] σ v ⟨σ1.mem, M.leave σ.world σ1.world⟩ := by
    refine .inr ⟨F, by simp [m], by simp [F], by congr 1, ?_⟩
    have s1 : IRStep M (Module.Call m M X 0) F.blocks [q] (.start σ)
        ((Cfg.start σ).next 0 (M.alloc σ.world 8).1 [] ⟨σ.mem, (M.alloc σ.world 8).2⟩) := .inst rfl rfl ⟨rfl, rfl, rfl⟩
    have s2 := IRStep.inst (M := M) (R := Module.Call m M X 0) (bs := F.blocks) (args := [q])
      (g := (Cfg.start σ).next 0 (M.alloc σ.world 8).1 [] ⟨σ.mem, (M.alloc σ.world 8).2⟩) rfl rfl
      (r := 0) (va := []) (st := ⟨storeW σ.mem (M.alloc σ.world 8).1 q, (M.alloc σ.world 8).2⟩) ⟨⟨q, _, rfl, rfl, rfl⟩, rfl, rfl⟩
    have s3 := IRStep.inst (M := M) (R := Module.Call m M X 0) (bs := F.blocks) (args := [q])
      (g := ((Cfg.start σ).next 0 (M.alloc σ.world 8).1 [] ⟨σ.mem, (M.alloc σ.world 8).2⟩).next 1 0 []
        ⟨storeW σ.mem (M.alloc σ.world 8).1 q, (M.alloc σ.world 8).2⟩) rfl rfl
      (r := M.addr "b.a".toList) (va := []) (st := ⟨storeW σ.mem (M.alloc σ.world 8).1 q, (M.alloc σ.world 8).2⟩) ⟨rfl, rfl, rfl⟩
    have s4 := IRStep.inst (M := M) (R := Module.Call m M X 0) (bs := F.blocks) (args := [q])
      (g := (((Cfg.start σ).next 0 (M.alloc σ.world 8).1 [] ⟨σ.mem, (M.alloc σ.world 8).2⟩).next 1 0 []
        ⟨storeW σ.mem (M.alloc σ.world 8).1 q, (M.alloc σ.world 8).2⟩).next 2 (M.addr "b.a".toList) []
        ⟨storeW σ.mem (M.alloc σ.world 8).1 q, (M.alloc σ.world 8).2⟩) rfl rfl
      (r := v) (va := []) (st := σ1) ⟨⟨_, [1], rfl, rfl, hx⟩, rfl⟩
    exact ⟨_, .head s1 (.head s2 (.head s3 (.head s4 .refl))), ⟨_, _, rfl, rfl, rfl, rfl⟩, rfl⟩
  refine ⟨⟨1, h1⟩, ?_⟩
  intro hl k v1 σ2 h2
  have hd := moduleCall_det hl.functional (by decide +kernel) hl.apart hl.external (max 1 k)
  exact hd _ _ _ _ _ _ _ (moduleCall_le (Nat.le_max_right 1 k) h2) (moduleCall_le (Nat.le_max_left 1 k) h1)

end Blang.Props
