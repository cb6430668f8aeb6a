import Verif.Model.IR
import Verif.Spec.Syntax
/-
How large a module is, counted in things that take memory: a unit for every global, function, parameter,
block, instruction, terminator, argument of a call, case of a switch, word and byte of an initial value.
A block of zeros is a unit, whatever its length.
-/
namespace Blang.Spec

def instUnits : Inst → Nat
  | .call _ args => 1 + args.length
  | _ => 1

def termUnits : Term → Nat
  | .switch _ _ cases => 1 + cases.length
  | _ => 1

def blockUnits (b : Block) : Nat :=
  1 + (b.insts.map fun i => instUnits i.2).sum + (b.term.map termUnits).getD 0

def funcUnits (f : Func) : Nat := 1 + f.params.length + (f.blocks.map blockUnits).sum

def initUnits : GInit → Nat
  | .word _ => 1
  | .arr _ cs => cs.length
  | .zero _ => 1
  | .bytes bs => bs.length

def globalUnits (g : GlobalDef) : Nat := 1 + initUnits g.init

def moduleUnits (m : Module) : Nat := (m.globals.map globalUnits).sum + (m.funcs.map funcUnits).sum

/-- The number of words a vector with initial values is declared with. -/
def Decl.filled : Decl → Nat
  | .vector _ n (_ :: _) => n.toInt.toNat
  | _ => 0

/-- The number of words all vectors with initial values are declared with. -/
def Program.filled (p : Program) : Nat := (p.map Decl.filled).sum

end Blang.Spec
