import Verif.Spec.Syntax
import Verif.Spec.Typing
/-
Calls: which functions a program calls by name with how many arguments, and the number of arguments
that LLVM demands of a call instruction.
-/
namespace Blang.Spec

mutual
/-- the calls by name in an expression: name and number of arguments -/
def Ex.calls : Ex → List (List Char × Nat)
  | .num _ | .str _ | .var _ => []
  | .paren e | .post _ e | .pre _ e | .not e | .neg e | .deref e | .addr e => e.calls
  | .index a i => a.calls ++ i.calls
  | .callName f as => (f, as.length) :: Ex.callsArgs as
  | .call f as => f.calls ++ Ex.callsArgs as
  | .bin _ l r => l.calls ++ r.calls
  | .cond c t e => c.calls ++ (t.calls ++ e.calls)
  | .assign _ l r => l.calls ++ r.calls

def Ex.callsArgs : List Ex → List (List Char × Nat)
  | [] => []
  | e :: es => e.calls ++ Ex.callsArgs es
end

/-- the calls by name in a statement -/
def St.calls : St → List (List Char × Nat)
  | .seq s t => s.calls ++ t.calls
  | .expr e | .ret (some e) => e.calls
  | .ifThen c t => c.calls ++ t.calls
  | .ifElse c t e => c.calls ++ (t.calls ++ e.calls)
  | .while c b => c.calls ++ b.calls
  | .switch e b => e.calls ++ b.calls
  | .case _ s | .label _ s => s.calls
  | _ => []

/-- the calls by name in a program -/
def Program.calls (p : Program) : List (List Char × Nat) :=
  p.flatMap fun | .func _ _ b => b.calls | _ => []

/-- Functions that the program defines without parameters are called without arguments, those that it
defines with parameters are called with at least one argument. -/
def Program.CallsFit (p : Program) : Prop :=
  ∀ f ps b, Decl.func f ps b ∈ p → ∀ k, (f, k) ∈ p.calls → (ps = [] ↔ k = 0)

/-- The last definition of `f` in `p` has the parameters `ps`. -/
def Program.Latest (p : Program) (f : List Char) (ps : List (List Char)) : Prop :=
  ∃ pre b post, p = pre ++ Decl.func f ps b :: post ∧ ∀ qs b', Decl.func f qs b' ∉ post

/-- Whenever a function that is not defined again later calls a function by name, and the called function has been
defined before or is the calling function itself, then without arguments if that definition has no parameters, and
with at least one argument if it has parameters. -/
def Program.CallsFitBefore (p : Program) : Prop :=
  ∀ pre f ps b post, p = pre ++ Decl.func f ps b :: post → (∀ qs b', Decl.func f qs b' ∉ post) →
    ∀ g k, (g, k) ∈ b.calls → ∀ qs, Program.Latest (pre ++ [Decl.func f ps b]) g qs → (qs = [] ↔ k = 0)

/-- A function type with `fixed` parameters takes `k` arguments. -/
def Takes (fixed : Nat) (variadic : Bool) (k : Nat) : Prop := if variadic then fixed ≤ k else k = fixed

/-- A call passes as many arguments as the type of the function that is called demands. -/
def Inst.ArityOk (S : Nat → IRTy → Prop) : Inst → Prop
  | .call f as => ∃ k b, ValType S f (.code k b) ∧ Takes k b as.length
  | _ => True

/-- Every call of the code passes as many arguments as the function demands. -/
def CodeArity (bs : List Block) : Prop := ∀ B ∈ bs, ∀ p ∈ B.insts, Inst.ArityOk (RegType bs) p.2

end Blang.Spec
