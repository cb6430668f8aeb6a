import Verif.Spec.Flow
import Verif.Spec.Effective
/-
Definite declaration: which `auto` variables are declared on every way through the text of a function to a given
point.  This is the rule that Java calls definite assignment, with `auto x` in the role of the assignment; conditions
are not evaluated, so both ways of an `if` count as possible.  Nothing here depends on the compiler.
-/
namespace Blang.Spec

/-- a set of names -/
abbrev Names := Ident → Prop

/-- every name of the first set is in the second -/
def Names.Within (A B : Names) : Prop := ∀ x, A x → B x

mutual
/-- The variables that an expression uses, by name.  (`f` in the call `f(…)` is not among them: the compiler takes it for
the name of a function, see C34.) -/
def Ex.vars : Ex → List Ident
  | .num _ | .str _ => []
  | .var x => [x]
  | .paren e | .post _ e | .pre _ e | .not e | .neg e | .deref e | .addr e => e.vars
  | .index a i => a.vars ++ i.vars
  | .callName _ args => Ex.varsArgs args
  | .call f args => f.vars ++ Ex.varsArgs args
  | .bin _ l r | .assign _ l r => l.vars ++ r.vars
  | .cond c t e => c.vars ++ t.vars ++ e.vars
def Ex.varsArgs : List Ex → List Ident
  | [] => []
  | e :: es => e.vars ++ Ex.varsArgs es
end

/-- every name that the expression uses and that an `auto` above it declares (`V`) has been declared (`D`) -/
def Ex.Declared (e : Ex) (V : List Ident) (D : Names) : Prop := ∀ x ∈ e.vars, x ∈ V → D x

/-- Whether control gets to what follows the statement, given whether it gets to its beginning: a `return` ends it, unless it is
followed by another turn of control, which takes its place (C16, C88). -/
def St.flows : St → Bool → Bool
  | .skip, r | .auto _, r | .extrn _, r => r
  | .seq s t, r => t.flows (s.flows r)
  | .expr e, r => r || e.branches
  | .ret _, _ => false
  | .ifThen _ _, _ | .ifElse _ _ _, _ | .while _ _, _ | .switch _ _, _ | .goto _, _ => true
  | .case _ s, _ | .label _ s, _ => s.flows true

/-- `s.Declared L K V r D D'`: if the names `D` have been declared whenever control gets to the beginning of `s`, then the names `D'`
have been declared whenever control leaves it at its end, and on the way every `auto` variable that is used has been declared.
`V` are the names that an `auto` above `s` declares; `r` says whether control gets to the beginning of `s` from above; `L l` are the
names that have been declared whenever control gets to the label `l`, and `K v` to the case `v` of the innermost `switch`. -/
def St.Declared (L : Ident → Names) : St → (Word → Names) → List Ident → Bool → Names → Names → Prop
  | .skip, _, _, _, D, D' => D'.Within D
  | .seq s t, K, V, r, D, D' => ∃ D1, s.Declared L K V r D D1 ∧ t.Declared L K (V ++ s.autos) (s.flows r) D1 D'
  | .expr e, _, V, _, D, D' => e.Declared V D ∧ D'.Within D
  | .ret none, _, _, _, D, D' => D'.Within D
  | .ret (some e), _, V, _, D, D' => e.Declared V D ∧ D'.Within D
  | .auto ds, _, _, _, D, D' => D'.Within fun x => D x ∨ x ∈ ds.map (·.1)
  | .extrn _, _, _, _, D, D' => D'.Within D
  | .ifThen c t, K, V, _, D, D' => c.Declared V D ∧ ∃ D1, t.Declared L K V true D D1 ∧
      (t.flows true = true → D'.Within D1) ∧ D'.Within D
  | .ifElse c t e, K, V, _, D, D' => c.Declared V D ∧ ∃ D1 D2, t.Declared L K V true D D1 ∧
      e.Declared L K (V ++ t.autos) true D D2 ∧
      (t.flows true = true → D'.Within D1) ∧ (e.flows true = true → D'.Within D2)
  | .while c b, K, V, _, D, D' => ∃ I D1, I.Within D ∧ c.Declared V I ∧ b.Declared L K V true I D1 ∧
      (b.flows true = true → I.Within D1) ∧ D'.Within I
  | .switch e b, _, V, _, D, D' => e.Declared V D ∧ ∃ (K : Word → Names) (D1 : Names), (∀ v ∈ b.cases, (K v).Within D) ∧
      b.Declared L K V true (fun _ => True) D1 ∧ (b.flows true = true → D'.Within D1) ∧ D'.Within D
  | .case v s, K, V, r, D, D' => (r = true → (K v).Within D) ∧ s.Declared L K V true (K v) D'
  | .label l s, K, V, r, D, D' => (r = true → (L l).Within D) ∧ s.Declared L K V true (L l) D'
  | .goto l, _, _, _, D, _ => (L l).Within D

/-- On every way through the text of the function body, an `auto` variable is declared before it is used.  (A body has no cases of its
own, so that `K` does not matter.) -/
def St.DeclaredFirst (b : St) : Prop := ∃ L K D', b.Declared L K [] true (fun _ => False) D'

end Blang.Spec
