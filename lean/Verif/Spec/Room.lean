import Verif.Spec.Library
import Verif.Spec.Image
import Verif.Spec.Linked
/-
What is said of whole processes in the claims about particular programs (C74): what they write, and that their
variables have room in memory.
-/
namespace Blang.Spec

/-- The process ends with status 0, and in no other way; it has written the bytes `bs` to its standard output, nothing to other
files, and has read nothing. -/
def Module.Outputs (m : Module) (C : Computer) (X : Calls C.machine.World) (σ : Store C.machine.World) (bs : List (BitVec 8)) : Prop :=
  ∃ σ' : Store C.machine.World, (∀ status σ1, Module.Ends m C.machine X σ status σ1 ↔ status = 0 ∧ σ1 = σ') ∧
    writtenTo 1 (C.see σ').trace = writtenTo 1 (C.see σ).trace ++ bs ∧
    (∀ fd, fd ≠ 1 → writtenTo fd (C.see σ').trace = writtenTo fd (C.see σ).trace) ∧
    (C.see σ').input = (C.see σ).input

/-- the 8 bytes of the word at `a` -/
def InWord (a b : Word) : Prop := (b - a).toNat < 8

/-- The `k` next words that the machine reserves for variables do not overlap each other, nor the bytes in use. -/
def Computer.Room (C : Computer) : Nat → C.Stack → (Word → Prop) → Prop
  | 0, _, _ => True
  | k + 1, w, used => (∀ b, InWord (C.alloc w 8).1 b → ¬ used b) ∧
      C.Room k (C.alloc w 8).2 fun b => used b ∨ InWord (C.alloc w 8).1 b

/-- the number of bytes of a global of the module -/
def globalSize : GInit → Nat
  | .bytes bs => bs.length
  | i => 8 * ((wordsOf i).getD []).length

/-- the bytes that hold the data of the module: its global variables, vectors and string literals -/
def Module.Occupies (m : Module) (addr : List Char → Word) (b : Word) : Prop :=
  ∃ g ∈ m.globals, (b - addr g.sym).toNat < globalSize g.init

/-- the globals of the module do not overlap in memory -/
def Module.Scattered (m : Module) (addr : List Char → Word) : Prop :=
  ∀ g ∈ m.globals, ∀ h ∈ m.globals, g.sym ≠ h.sym → ∀ b, (b - addr g.sym).toNat < globalSize g.init → ¬ (b - addr h.sym).toNat < globalSize h.init

end Blang.Spec
