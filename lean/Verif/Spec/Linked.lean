import Verif.Spec.IRSem
import Verif.Spec.Module
import Verif.Model.Runtime
/-
A module linked with the runtime library and loaded into memory.
-/
namespace Blang.Spec

/-- The external function `printf` of the machine is the one of the runtime library
(Verif/Model/Runtime.lean).  `see` is what the runtime library sees of the machine: memory, input,
output so far, ...; `sc`: plain `char` is signed. -/
structure RuntimeAt (M : IRMachine) (X : Calls M.World) (see : Store M.World → RTState) (sc : Bool) : Prop where
  mem : ∀ σ, (see σ).mem = σ.mem
  /-- `junk` is what its local buffers contain at the start and `stream` are the arguments and whatever lies
  beyond them; wherever `printf(fmt, args)` then ends, in `s`, the call in the machine does the same.  (It returns no value,
  so the result may be anything.) -/
  printf : ∀ fmt args σ, ∃ junk stream, (∀ i (h : i < args.length), stream i = args[i]) ∧
    ∀ fuel s, rtPrintf sc fuel junk fmt stream (see σ) = .ok () s →
      ∃ v σ', X (M.addr (symbolOf "printf".toList)) (fmt :: args) σ v σ' ∧ see σ' = s
  /-- Nothing is written when a function returns to its caller. -/
  leave : ∀ σ w, (see ⟨σ.mem, M.leave w σ.world⟩).trace = (see σ).trace

/-- The string constants of the module are in memory. -/
def StringsIn (m : Module) (M : IRMachine) (mem : Mem) : Prop :=
  ∀ g ∈ m.globals, ∀ bs, g.init = .bytes bs → ∀ i (h : i < bs.length), mem (M.addr g.sym + BitVec.ofNat 64 i) = bs[i]

/-- the bytes in the trace that were written to file descriptor `fd` -/
def writtenTo (fd : BitVec 64) (trace : List (BitVec 64 × List (BitVec 8))) : List (BitVec 8) :=
  ((trace.filter (·.1 = fd)).map (·.2)).flatten

end Blang.Spec
