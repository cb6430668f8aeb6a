import Verif.Model.Driver
/-
Vocabulary for the properties of the command-line driver (C35-C45).  The types `World`, `Env`, `Event`,
`Options`, `Flags` describe the outside world and the user's request; see `Verif/Model/Driver.lean`.
-/
namespace Blang.Driver

/-- The file `i` can be read completely in `w`, the front end accepts it, and its IR is `text`. -/
def Translates (env : Env) (w : World) (i : Path) (text : Content) : Prop :=
  ∃ c m, w.fs i = some c ∧ env.openOk w i = true ∧ env.readErr w i = none ∧
    compileFile c .eof = .ok m ∧ env.print m = some text

/-- `text` is the IR of the program stored in file `i` of the file system `fs`. -/
def IrOf (env : Env) (fs : FS) (i : Path) (text : Content) : Prop :=
  ∃ c m, fs i = some c ∧ compileFile c .eof = .ok m ∧ env.print m = some text

/-- The file `i` can be opened in `w` and the front end reports an error, on its contents or because
reading it fails. -/
def FrontEndFails (env : Env) (w : World) (i : Path) : Prop :=
  ∃ c, w.fs i = some c ∧ env.openOk w i = true ∧
    ((env.readErr w i = none ∧ ∃ e, compileFile c .eof = .error e) ∨
     (∃ k, env.readErr w i = some k ∧ ∃ e, compileFile (c.take k) .io = .error e))

/-- `name` has extension `e` (with its dot) after `stem`. -/
def HasExt (name stem e : Path) : Prop :=
  name = stem ++ e ∧ ∃ r, e = '.' :: r ∧ '.' ∉ r ∧ '/' ∉ r

/-- the last component of `p` is `name` -/
def LastComponent (p name : Path) : Prop :=
  '/' ∉ name ∧ (p = name ∨ ∃ dir, p = dir ++ '/' :: name)

/-- the extensions each mode accepts -/
def accepts : OutputType → List Path
  | .ir => [".b".toList]
  | .assembly => [".b".toList, ".ll".toList]
  | .object => [".b".toList, ".ll".toList, ".s".toList]
  | .executable => [".b".toList, ".ll".toList, ".s".toList, ".o".toList, ".a".toList]

/-- the input `p` has one of the extensions `es` -/
def ExtIn (p : Path) (es : List Path) : Prop := ∃ e ∈ es, ∃ stem, HasExt p stem e

/-- extension of the output of each mode -/
def outExt : OutputType → Path
  | .ir => ".ll".toList
  | .assembly => ".s".toList
  | .object => ".o".toList
  | .executable => []

/-- `o` is the documented default output for input `i`: its last component with the extension replaced -/
def OutName (m : OutputType) (i o : Path) : Prop :=
  ∃ stem e, LastComponent i (stem ++ e) ∧ HasExt (stem ++ e) stem e ∧ o = stem ++ outExt m

/-- `t` is the documented name of the intermediate IR of input number `k` (from 0) of a link of `n` inputs
into `out`: `<out>.tmp.ll` for a single input, otherwise `<base>.tmp.<k>.ll` -/
def LinkTemp (n : Nat) (out : Path) (k : Nat) (i t : Path) : Prop :=
  (n = 1 ∧ t = out ++ ".tmp.ll".toList) ∨
  (n ≠ 1 ∧ ∃ stem, LastComponent i (stem ++ ".b".toList) ∧
    t = stem ++ ".tmp.".toList ++ natDec k ++ ".ll".toList)

/-- paths written by an `os.Create` among the events -/
def created (es : List Event) : List Path :=
  es.filterMap fun e => match e with | .create p => some p | _ => none

/-- commands run -/
def runs (es : List Event) : List (List (List Char)) :=
  es.filterMap fun e => match e with | .run a => some a | _ => none

/-- `clang` changes no file but the one named after `-o`. -/
def ClangPolite (env : Env) : Prop :=
  ∀ w args pre out post p, args = pre ++ ['-', 'o'] :: out :: post → p ≠ out →
    (env.clang w args).1 p = w.fs p

/-- Writing, closing and removing files never fails, and every module can be printed. -/
def NoIoErrors (env : Env) : Prop :=
  (∀ w p, env.writeErr w p = none) ∧ (∀ w p, env.closeOk w p = true) ∧
  (∀ w p, env.removeOk w p = true) ∧ (∀ m, env.print m ≠ none)

end Blang.Driver
