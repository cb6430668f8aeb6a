import Verif.Spec.Syntax
/-
What the compiler makes of a `return` with more code behind it.

A `return` ends a basic block, but the statements behind it are added to the same block.  If one of them ends the
block again - another `return`, an `if`, `while`, `switch` or `goto`, or an expression with `?:` - then this end
replaces the earlier one, and of the `return` only the evaluation of its expression remains.  `Program.effective`
is the program with those `return`s taken away: `return(e);` becomes `(e);` and `return;` becomes `;`.
Nothing here depends on the compiler.
-/
namespace Blang.Spec

mutual
/-- the expression contains `?:` -/
def Ex.branches : Ex → Bool
  | .num _ | .str _ | .var _ => false
  | .paren e | .post _ e | .pre _ e | .not e | .neg e | .deref e | .addr e => e.branches
  | .index a i => a.branches || i.branches
  | .callName _ args => Ex.branchesAny args
  | .call f args => f.branches || Ex.branchesAny args
  | .bin _ l r | .assign _ l r => l.branches || r.branches
  | .cond _ _ _ => true
def Ex.branchesAny : List Ex → Bool
  | [] => false
  | e :: es => e.branches || Ex.branchesAny es
end

/-- control passes straight through the statement -/
def St.straight : St → Bool
  | .skip | .auto _ | .extrn _ => true
  | .expr e => !e.branches
  | .seq s t => s.straight && t.straight
  | _ => false

/-- whoever gets to the statement from above leaves the straight line in it, before any label or case -/
def St.turns : St → Bool
  | .ret _ | .ifThen _ _ | .ifElse _ _ _ | .while _ _ | .switch _ _ | .goto _ => true
  | .expr e => e.branches
  | .seq s t => s.turns || (s.straight && t.turns)
  | _ => false

/-- The statement without the `return`s that are followed by another turn of control, where `k` says whether what
follows the statement turns before any label, case, or end of the enclosing branch, loop body, switch body or function. -/
def St.effective : St → Bool → St
  | .ret e, false => .ret e
  | .ret (some e), true => .expr (.paren e)
  | .ret none, true => .skip
  | .seq s t, k => .seq (s.effective (t.turns || (t.straight && k))) (t.effective k)
  | .ifThen c t, _ => .ifThen c (t.effective false)
  | .ifElse c t e, _ => .ifElse c (t.effective false) (e.effective false)
  | .while c b, _ => .while c (b.effective false)
  | .switch e b, _ => .switch e (b.effective false)
  | .case v s, k => .case v (s.effective k)
  | .label l s, k => .label l (s.effective k)
  | .expr e, _ => .expr e
  | .skip, _ => .skip
  | .auto ds, _ => .auto ds
  | .extrn xs, _ => .extrn xs
  | .goto l, _ => .goto l

def Decl.effective : Decl → Decl
  | .func f ps b => .func f ps (b.effective false)
  | d => d

/-- the program without the `return`s that another turn of control follows -/
def Program.effective (p : Program) : Program := p.map Decl.effective

end Blang.Spec
