import Verif.Spec.Careful
/-
The one place where the compiler's operator levels (`prec`) and those of the manual (`docPrec`) differ:
the right operand of `<`, `<=`, `>`, `>=` is a shift that is not in parentheses, as in `a < b << c`.
Nothing here depends on the compiler.
-/
namespace Blang.Spec

/-- `<<` and `>>` -/
def Bop.Shift (o : Bop) : Prop := o = .shl ∨ o = .shr
/-- `<`, `<=`, `>`, `>=` -/
def Bop.Rel (o : Bop) : Prop := o = .lt ∨ o = .le ∨ o = .gt ∨ o = .ge

/-- the expression is a shift (and not in parentheses) -/
def Ex.IsShift (e : Ex) : Prop := ∃ o l r, e = .bin o l r ∧ o.Shift

mutual
/-- No relational operator has an unparenthesised shift as its right operand. -/
def Ex.Unmixed : Ex → Prop
  | .num _ | .str _ | .var _ => True
  | .paren e | .post _ e | .pre _ e | .not e | .neg e | .deref e | .addr e => e.Unmixed
  | .index a i => a.Unmixed ∧ i.Unmixed
  | .callName _ as => Ex.UnmixedArgs as
  | .call f as => f.Unmixed ∧ Ex.UnmixedArgs as
  | .bin o l r => (o.Rel → ¬ r.IsShift) ∧ l.Unmixed ∧ r.Unmixed
  | .cond c t e => c.Unmixed ∧ t.Unmixed ∧ e.Unmixed
  | .assign _ l r => l.Unmixed ∧ r.Unmixed

def Ex.UnmixedArgs : List Ex → Prop
  | [] => True
  | e :: es => e.Unmixed ∧ Ex.UnmixedArgs es
end

def St.Unmixed : St → Prop
  | .seq s t => s.Unmixed ∧ t.Unmixed
  | .expr e | .ret (some e) => e.Unmixed
  | .ifThen c t => c.Unmixed ∧ t.Unmixed
  | .ifElse c t e => c.Unmixed ∧ t.Unmixed ∧ e.Unmixed
  | .while c b => c.Unmixed ∧ b.Unmixed
  | .switch e b => e.Unmixed ∧ b.Unmixed
  | .case _ s | .label _ s => s.Unmixed
  | _ => True

def Decl.Unmixed : Decl → Prop
  | .func _ _ b => b.Unmixed
  | _ => True

def Program.Unmixed (p : Program) : Prop := ∀ d ∈ p, d.Unmixed

end Blang.Spec
