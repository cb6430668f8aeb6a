import Verif.Spec.Events
/-
Programs that go wrong: whose meaning is undefined.
-/
namespace Blang.Spec

/-- The run of a function cannot go on in this state, although the function is not finished and every call that is made
in it returns: an operation without result (such as a division by 0), a variable whose declaration was not executed,
an assignment to something that is no cell, or a `goto` without label. -/
def BState.Stuck (M : BMachine) (R : Calls M.World) (P : Place) (body : St) (x : BState M.World) : Prop :=
  (∀ v σ, x ≠ .done v σ) ∧ (∀ y, ¬ BStep M R P body x y) ∧ ∀ a vs σ, x.Enters M R a vs σ → ∃ v σ', R a vs σ v σ'

/-- The function `f` of the program, called with `args` in the store `σ`, goes wrong: it has more parameters than
there are arguments, or its run cannot go on, or it calls a function that goes wrong. -/
inductive Program.Wrong (p : Program) (M : BMachine) (X : Calls M.World) : Ident → List Word → Store M.World → Prop where
  | few {f args σ ps body P} : p.Defines f ps body P → args.length < ps.length → p.Wrong M X f args σ
  | stuck {f args σ ps body P x} : p.Defines f ps body P → ps.length ≤ args.length →
      BSteps M (p.Returns M X) P body (.entry M P ps body args σ) x → x.Stuck M (p.Returns M X) P body → p.Wrong M X f args σ
  | inner {f args σ x g ws σ1} : p.Gets M X f args σ x → x.Enters M (p.Returns M X) (M.global g) ws σ1 → p.Wrong M X g ws σ1 →
      p.Wrong M X f args σ

/-- The functions of the program are placed properly: the external functions `X` have at most one outcome and are
not confused with the functions of the program, which have different addresses. -/
structure Program.Placed (p : Program) (M : BMachine) (X : Calls M.World) : Prop where
  functional : ∀ a args σ v1 σ1 v2 σ2, X a args σ v1 σ1 → X a args σ v2 σ2 → v1 = v2 ∧ σ1 = σ2
  external : ∀ f ps b, Decl.func f ps b ∈ p → ∀ args σ v σ', ¬ X (M.global f) args σ v σ'
  apart : ∀ f ps b g qs d, Decl.func f ps b ∈ p → Decl.func g qs d ∈ p → M.global f = M.global g → f = g

end Blang.Spec
