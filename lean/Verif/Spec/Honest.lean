import Verif.Spec.Touched
/-
Vocabulary for C76 and C36: what it means that every step of an invocation succeeded, and that some step failed.
-/
namespace Blang.Driver

/-- One step of the driver that succeeded, as the environment sees it. (Removing a temporary file is never reported.) -/
inductive Good (env : Env) : World → World → Prop where
  /-- `p` was created -/
  | create {w : World} (p : Path) : env.createOk w p = true → Good env w ⟨w.fs.set p (some []), w.events ++ [.create p]⟩
  /-- `text` was written to `p` completely and the file was closed -/
  | write {w : World} (p : Path) (text : Content) : env.writeErr w p = none →
      env.closeOk ⟨w.fs.set p (some text), w.events ++ [.write p]⟩ p = true →
      Good env w ⟨w.fs.set p (some text), w.events ++ [.write p]⟩
  | remove {w : World} (p : Path) :
      Good env w ⟨if env.removeOk w p then w.fs.set p none else w.fs, w.events ++ [.remove p]⟩
  /-- clang was run and reported success -/
  | run {w : World} (cmd : List (List Char)) : (env.clang w cmd).2 = true →
      Good env w ⟨(env.clang w cmd).1, w.events ++ [.run cmd]⟩

/-- From `w` to `w'` every step succeeded. -/
inductive Smooth (env : Env) : World → World → Prop where
  | refl (w : World) : Smooth env w w
  | step {w u v : World} : Smooth env w u → Good env u v → Smooth env w v

/-- From `w` to `w'` temporary files were removed, nothing else. -/
inductive Tidied (env : Env) : World → World → Prop where
  | refl (w : World) : Tidied env w w
  | step {w u : World} (p : Path) : Tidied env w u →
      Tidied env w ⟨if env.removeOk u p then u.fs.set p none else u.fs, u.events ++ [.remove p]⟩

/-- the kinds of failures -/
inductive Cause where
  /-- an input that the mode does not accept -/
  | kind
  /-- several inputs, or none, for one output -/
  | several
  /-- a source that cannot be read or is rejected -/
  | source
  /-- a file that cannot be created -/
  | create
  /-- the file `p` cannot be written completely or closed -/
  | file (p : Path)
  /-- clang fails -/
  | tool

/-- What can go wrong in the world `w` when the request is `args`; the second world is the one after it. -/
inductive Fault (env : Env) (args : Options) : Cause → World → World → Prop where
  /-- the request names an input that the mode does not accept -/
  | kind {w : World} (i : Path) : i ∈ args.inputFiles → ¬ ExtIn i (accepts args.outputType) → Fault env args .kind w w
  /-- one output, but not one input -/
  | several {w : World} : args.outputType ≠ .executable → args.outputFile ≠ [] → args.inputFiles.length ≠ 1 → Fault env args .several w w
  /-- a source that cannot be opened -/
  | unreadable {w : World} (i : Path) : i ∈ args.inputFiles → (w.fs i = none ∨ env.openOk w i = false) → Fault env args .source w w
  /-- a source that the front end rejects, or that cannot be read to its end -/
  | rejected {w : World} (i : Path) : i ∈ args.inputFiles → FrontEndFails env w i → Fault env args .source w w
  /-- an output or a temporary of the invocation that cannot be created -/
  | create {w : World} (p : Path) : Props.Permitted args (.create p) → env.createOk w p = false → Fault env args .create w w
  | write {w : World} (p : Path) (text : Content) (k : Nat) : env.writeErr w p = some k →
      Fault env args (.file p) w ⟨w.fs.set p (some (text.take k)), w.events ++ [.write p]⟩
  | close {w : World} (p : Path) (text : Content) : env.writeErr w p = none →
      env.closeOk ⟨w.fs.set p (some text), w.events ++ [.write p]⟩ p = false →
      Fault env args (.file p) w ⟨w.fs.set p (some text), w.events ++ [.write p]⟩
  | run {w : World} (cmd : List (List Char)) : (env.clang w cmd).2 = false →
      Fault env args .tool w ⟨(env.clang w cmd).1, w.events ++ [.run cmd]⟩

/-- Everything succeeded until there was a failure of the kind `c`; after that only temporary files were removed. -/
def FailedBy (env : Env) (args : Options) (c : Cause) (w w' : World) : Prop :=
  ∃ u v, Smooth env w u ∧ Fault env args c u v ∧ Tidied env v w'

/-- Everything succeeded until something failed; after that only temporary files were removed. -/
def Failed (env : Env) (args : Options) (w w' : World) : Prop := ∃ c, FailedBy env args c w w'

/-- the files that were created and that nobody has been asked to remove since, after those of `L` -/
def leftBy : List Path → List Event → List Path
  | L, [] => L
  | L, .create p :: es => leftBy (L ++ [p]) es
  | L, .remove p :: es => leftBy (L.filter (· ≠ p)) es
  | L, _ :: es => leftBy L es

/-- the files that were created and not removed -/
def leftover (es : List Event) : List Path := leftBy [] es

/-- what a failure leaves behind, if `cs` are the files created: the file that could not be written; all of them, if an
input of the wrong kind is found; otherwise nothing -/
def Cause.leaves (cs : List Path) : Cause → List Path
  | .file p => [p]
  | .kind => cs
  | _ => []

/-- Between `w` and `v` the source `i` was translated: it was read to its end and accepted by the front end, and the
world `v` is the one in which its IR has just been written to the file `o`. -/
def Translated (env : Env) (w : World) (i o : Path) (v : World) : Prop :=
  ∃ u text, Smooth env w u ∧ Translates env u i text ∧ Smooth env u v ∧
    v.fs o = some text ∧ v.events = u.events ++ [.create o, .write o]

/-- What success means for one input: a source was translated, and outside the IR mode the input itself or the
translation of the source was given to a run of clang that succeeded. -/
def Served (env : Env) (args : Options) (w w' : World) (i : Path) : Prop :=
  ∃ x v, ((ExtIn i [".b".toList] ∧ Translated env w i x v) ∨ (¬ ExtIn i [".b".toList] ∧ x = i ∧ v = w)) ∧ Smooth env v w' ∧
    (args.outputType ≠ .ir → ∃ u cmd, Smooth env v u ∧ x ∈ cmd ∧ (env.clang u cmd).2 = true ∧
      Smooth env ⟨(env.clang u cmd).1, u.events ++ [.run cmd]⟩ w')

end Blang.Driver
