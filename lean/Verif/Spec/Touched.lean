import Verif.Spec.Driver
/-
Vocabulary for C70 and C76: the outputs and the temporaries of an invocation, and what the driver may do.
-/
namespace Blang.Props
open Blang Blang.Driver

/-- `o` is one of the outputs of the invocation: the argument of `-o`, or without it the documented default
(in executable mode: of the first input) -/
def IsOutput (args : Options) (o : Path) : Prop :=
  if args.outputFile ≠ [] then o = args.outputFile
  else if args.outputType = .executable then ∃ i, args.inputFiles.head? = some i ∧ OutName .executable i o
  else ∃ i ∈ args.inputFiles, OutName args.outputType i o

/-- `t` is one of the temporaries of the invocation: `<output>.tmp.ll`, and for a link also
`<base>.tmp.<k>.ll` for the source number `k` -/
def IsTemp (args : Options) (t : Path) : Prop :=
  args.outputType ≠ .ir ∧
  ((∃ o, IsOutput args o ∧ t = o ++ ".tmp.ll".toList) ∨
   (args.outputType = .executable ∧ ∃ (k : Nat) (i stem : Path), args.inputFiles[k]? = some i ∧
      LastComponent i (stem ++ ".b".toList) ∧ t = stem ++ ".tmp.".toList ++ natDec k ++ ".ll".toList))

/-- what the driver may do in this invocation -/
def Permitted (args : Options) : Event → Prop
  | .create p | .write p => (args.outputType = .ir ∧ IsOutput args p) ∨ IsTemp args p
  | .remove p => args.saveTemps = false ∧ IsTemp args p
  | .run cmd => args.outputType ≠ .ir ∧
      ∃ pre o post, IsOutput args o ∧ cmd = pre ++ "-o".toList :: o :: post ∧
        (post = [] ∨ ∃ j, post = [j] ∧ (j ∈ args.inputFiles ∨ IsTemp args j))

end Blang.Props
