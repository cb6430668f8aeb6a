import Verif.Spec.Paths
/-
Symbols: what the code and the initial values of a module refer to.
-/
namespace Blang.Spec

/-- The operand refers to nothing outside the function, or to a variable or function of the module. -/
def Val.Declared (m : Module) : Val → Prop
  | .glob s _ => ∃ g ∈ m.globals, g.sym = s
  | .func s _ _ => ∃ F ∈ m.funcs, F.sym = s
  | _ => True

/-- The initial value is a number, or an address in a variable of the module. -/
def Const.Declared (m : Module) : Const → Prop
  | .int _ => True
  | .addr s _ _ => ∃ g ∈ m.globals, g.sym = s

/-- the initial values of the words of a global -/
def GInit.consts : GInit → List Const
  | .word k => [k]
  | .arr _ ks => ks
  | .zero _ | .bytes _ => []

/-- Everything that the code and the initial values of the module refer to is in the module. -/
structure Linked (m : Module) : Prop where
  insts : ∀ F ∈ m.funcs, ∀ B ∈ F.blocks, ∀ p ∈ B.insts, ∀ v ∈ Inst.operands p.2, Val.Declared m v
  terms : ∀ F ∈ m.funcs, ∀ B ∈ F.blocks, ∀ t, B.term = some t → ∀ v ∈ Term.operands t, Val.Declared m v
  inits : ∀ g ∈ m.globals, ∀ k ∈ GInit.consts g.init, Const.Declared m k

end Blang.Spec
