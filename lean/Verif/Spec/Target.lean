import Verif.Spec.BSem
import Verif.Spec.IRSem
import Verif.Spec.Module
import Verif.Model.Builder
/-
How the compiled program fills in what B leaves to the implementation.
-/
namespace Blang.Spec

/-- that many cells, reserved one after the other -/
def IRMachine.cells (M : IRMachine) : M.World → Nat → List Word × M.World
  | w, 0 => ([], w)
  | w, k + 1 => ((M.alloc w 8).1 :: (M.cells (M.alloc w 8).2 k).1, (M.cells (M.alloc w 8).2 k).2)

/-- Cells for parameters: with two or more of them the `va_list` (48 bytes) is reserved after the
first one. -/
def IRMachine.paramCells (M : IRMachine) (w : M.World) : Nat → List Word × M.World
  | 0 => ([], w)
  | 1 => ([(M.alloc w 8).1], (M.alloc w 8).2)
  | k + 2 => ((M.alloc w 8).1 :: (M.cells (M.alloc (M.alloc w 8).2 48).2 (k + 1)).1,
      (M.cells (M.alloc (M.alloc w 8).2 48).2 (k + 1)).2)

/-- The machine of B programs that a machine for the emitted code provides: a variable is an `alloca`
of 8 bytes, a vector of n words an `alloca` of 8(n+1) bytes of which the first 8 are the cell, a
global is at the address of its symbol, the n-th string literal at that of the n-th string constant. -/
abbrev IRMachine.toB (M : IRMachine) : BMachine where
  World := M.World
  cell w := M.alloc w 8
  vec w n := ((M.alloc w (8 * (n + 1))).1, (M.alloc w (8 * (n + 1))).1 + 8, (M.alloc w (8 * (n + 1))).2)
  params := M.paramCells
  leave := M.leave
  global x := M.addr (symbolOf x)
  literal n := M.addr (strSym n)

end Blang.Spec
