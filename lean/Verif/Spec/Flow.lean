import Verif.Spec.Scope
/-
Conditions on statements under which the emitted code is compared with the meaning of the program.
Nothing here depends on the compiler.
-/
namespace Blang.Spec

/-- Nothing follows a `return` in the same line of control: `s.exit true = some r` says that in `s`
a `return` is followed only by `extrn`, by a label or case, or by the end of the enclosing branch, loop
body, switch body or function; `r` is whether `s` ends otherwise than with a `return`.  The argument
says whether what stands before `s` ends otherwise than with a `return`. -/
def St.exit : St → Bool → Option Bool
  | .skip, r => some r
  | .seq s t, r => (s.exit r).bind t.exit
  | .expr _, r => if r then some true else none
  | .ret _, r => if r then some false else none
  | .auto _, r => if r then some true else none
  | .extrn _, r => some r
  | .ifThen _ t, r => if r then (t.exit true).map fun _ => true else none
  | .ifElse _ t e, r => if r then (t.exit true).bind fun _ => (e.exit true).map fun _ => true else none
  | .while _ b, r => if r then (b.exit true).map fun _ => true else none
  | .switch _ b, r => if r then (b.exit true).map fun _ => true else none
  | .case _ s, _ => s.exit true
  | .label _ s, _ => s.exit true
  | .goto _, r => if r then some true else none

/-- case values of the innermost switch that the statement is the body of, in the order of the text -/
def St.cases : St → List Word
  | .seq s t => s.cases ++ t.cases
  | .case v s => v :: s.cases
  | .label _ s => s.cases
  | _ => []

/-- no switch has two cases with the same value -/
def St.Distinct : St → Prop
  | .seq s t => s.Distinct ∧ t.Distinct
  | .ifThen _ t => t.Distinct
  | .ifElse _ t e => t.Distinct ∧ e.Distinct
  | .while _ b => b.Distinct
  | .switch _ b => b.cases.Nodup ∧ b.Distinct
  | .case _ s | .label _ s => s.Distinct
  | _ => True

/-- sizes of the `auto` vectors -/
def St.sizes : St → List Word
  | .auto ds => ds.filterMap (·.2)
  | .seq s t => s.sizes ++ t.sizes
  | .ifThen _ t => t.sizes
  | .ifElse _ t e => t.sizes ++ e.sizes
  | .while _ b | .switch _ b => b.sizes
  | .case _ s | .label _ s => s.sizes
  | _ => []

/-- The conditions on a function with parameters `ps` and body `b`. -/
structure Regular (ps : List Ident) (b : St) : Prop where
  /-- nothing follows a `return` in the same line of control -/
  exit : (b.exit true).isSome
  /-- no label is defined twice -/
  labels : b.labels.Nodup
  /-- no switch has two equal cases -/
  cases : b.Distinct
  /-- parameters and `auto` variables are not called by their names -/
  callees : ∀ f ∈ b.callees, f ∉ ps ∧ f ∉ b.autos
  /-- no `auto` vector has the size 2^64 - 1 -/
  sizes : ∀ n ∈ b.sizes, n ≠ -1

end Blang.Spec
