import Verif.Spec.Driver
/-
Vocabulary for C92: what a link leaves behind in the file system.
-/
namespace Blang.Driver

/-- Nothing fails but compilations and `clang`: files that exist can be opened and read, files can be created, written, closed and removed,
and every module can be printed. -/
structure Untroubled (env : Env) : Prop where
  io : NoIoErrors env
  opens : ∀ w p, env.openOk w p = true
  reads : ∀ w p, env.readErr w p = none
  creates : ∀ w p, env.createOk w p = true

/-- The input can go into a link: a source that exists and compiles, or a file of another kind that `clang` takes. -/
def Usable (env : Env) (fs : FS) (i : Path) : Prop :=
  (ExtIn i [".b".toList] ∧ ∃ text, IrOf env fs i text) ∨ (¬ ExtIn i [".b".toList] ∧ ExtIn i (accepts .executable))

/-- `t` is the temporary of a source among the first `n` inputs of the link, and `text` the IR of that source. -/
def TempFor (env : Env) (args : Options) (fs : FS) (n : Nat) (t : Path) (text : Content) : Prop :=
  ∃ k i, k < n ∧ args.inputFiles[k]? = some i ∧ ExtIn i [".b".toList] ∧ LinkTemp args.inputFiles.length args.outputFile k i t ∧
    IrOf env fs i text

end Blang.Driver
