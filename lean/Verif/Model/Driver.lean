import Verif.Model.Decl
/-
Model of `driver.go`, `options.go` and `main.go`.

The file system is a map from path strings to contents; two different path strings are two
different files (no links, no `./` aliases).  Every system call can fail: whether it does is
decided by the environment `Env`, which sees the whole history.  `clang` is an arbitrary
function of the history and its arguments: any new file system, success or failure.
Printing a module (`Module.String`, llir) is a parameter, too; it may panic (`none`).
Messages on the terminal are not modelled.
-/
namespace Blang.Driver

/-- `string` paths of driver.go -/
abbrev Path := List Char
/-- the bytes of a file, driver.go:40, 59 -/
abbrev Content := List (BitVec 8)
/-- the file system that driver.go:40, 54, 59, 143 and clang act on -/
abbrev FS := Path → Option Content

/-- What the driver does to the outside world.
(driver.go:54, 59, 137-151, 160-166, 231-245, 254-260, 319-321, 363-382) -/
inductive Event where
  /-- `os.Create(p)` succeeded: `p` exists and is empty -/
  | create (p : Path)
  /-- `WriteString` to `p`, successful or not -/
  | write (p : Path)
  /-- `os.Remove(p)` was called -/
  | remove (p : Path)
  /-- `clang` was run with these arguments -/
  | run (args : List (List Char))
deriving DecidableEq

/-- the surroundings of driver.go: files and what was done to them -/
structure World where
  fs : FS
  /-- what happened so far, in order -/
  events : List Event

/-- The environment decides the result of every call; it may depend on the history.
(operating system and clang, called at driver.go:40, 54, 59, 63, 141, 143, 164, 368) -/
structure Env where
  /-- does opening an existing file succeed? -/
  openOk : World → Path → Bool
  /-- `none`: the whole file is delivered; `some k`: a read error after `k` bytes -/
  readErr : World → Path → Option Nat
  createOk : World → Path → Bool
  /-- `none`: everything is written; `some k`: an error after `k` bytes -/
  writeErr : World → Path → Option Nat
  closeOk : World → Path → Bool
  removeOk : World → Path → Bool
  clang : World → List (List Char) → FS × Bool
  /-- `Module.String()`; `none` is a panic -/
  print : Module → Option Content

/-- Outcome of a driver function: `nil` error, an error, or a Go panic. -/
inductive Res (α : Type) where
  | ok (a : α)
  | error
  | panic

/-- Driver functions keep the world also when they return an error.
(Go functions of driver.go that return `error`) -/
def D (α : Type) : Type := World → Res α × World

instance : Monad D where
  pure a := fun w => (.ok a, w)
  bind x f := fun w =>
    match x w with
    | (.ok a, w') => f a w'
    | (.error, w') => (.error, w')
    | (.panic, w') => (.panic, w')

/-- `return err` (driver.go, everywhere) -/
def fail {α : Type} : D α := fun w => (.error, w)

/-- a Go panic: driver.go:290 with no input file, driver.go:59 in llir -/
def panic {α : Type} : D α := fun w => (.panic, w)

/-- model of a file system, no counterpart in /repo -/
def FS.set (fs : FS) (p : Path) (c : Option Content) : FS := fun q => if q = p then c else fs q

/-- `os.Open` and reading the file to its end (`Lexer.ReadChar` until it fails): the bytes
delivered and how they end. (driver.go:40-52, lexer.go:30-53) -/
def openRead (env : Env) (p : Path) : D (Content × Tail) := fun w =>
  match w.fs p with
  | none => (.error, w)
  | some c =>
    if env.openOk w p then
      match env.readErr w p with
      | none => (.ok (c, .eof), w)
      | some k => (.ok (c.take k, .io), w)
    else (.error, w)

/-- `os.Create` (driver.go:54-58) -/
def create (env : Env) (p : Path) : D Unit := fun w =>
  if env.createOk w p then (.ok (), ⟨w.fs.set p (some []), w.events ++ [.create p]⟩)
  else (.error, w)

/-- `outFile.WriteString` (driver.go:59-62) -/
def writeString (env : Env) (p : Path) (c : Content) : D Unit := fun w =>
  match env.writeErr w p with
  | none => (.ok (), ⟨w.fs.set p (some c), w.events ++ [.write p]⟩)
  | some k => (.error, ⟨w.fs.set p (some (c.take k)), w.events ++ [.write p]⟩)

/-- `outFile.Close` (driver.go:63-65) -/
def close (env : Env) (p : Path) : D Unit := fun w =>
  if env.closeOk w p then (.ok (), w) else (.error, w)

/-- `os.Remove`, its error is ignored everywhere (driver.go:143, 150, 237, 244, 320, 371, 380) -/
def remove (env : Env) (p : Path) : D Unit := fun w =>
  (.ok (), ⟨if env.removeOk w p then w.fs.set p none else w.fs, w.events ++ [.remove p]⟩)

/-- `exec.Command("clang", args...).Run()`: was it successful?
(driver.go:137-141, 160-164, 231-235, 254-258, 363-368) -/
def runClang (env : Env) (args : List (List Char)) : D Bool := fun w =>
  let r := env.clang w args
  (.ok r.2, ⟨r.1, w.events ++ [.run args]⟩)

/-- options.go:10-17 -/
inductive OutputType where
  | executable
  | object
  | assembly
  | ir
deriving DecidableEq

/-- `CompileOptions` (options.go:20-33) without the fields that are constant. -/
structure Options where
  outputFile : Path
  inputFiles : List Path
  saveTemps : Bool
  outputType : OutputType
  optimize : Nat
  debugInfo : Bool
  libraryDirs : List (List Char)
  libraries : List (List Char)

/-- `filepath.Base` (Go standard library, Unix): strip trailing slashes, keep what follows the
last remaining slash. -/
def base (p : Path) : Path :=
  if p = [] then ['.']
  else
    let s := (p.reverse.dropWhile (· = '/')).takeWhile (· ≠ '/')
    if s = [] then ['/'] else s.reverse

/-- `filepath.Ext`, on the reversed path: scan for the last dot, stop at a slash.
(Go standard library; used at driver.go:90, 102, 184, 196, 278, 291, 299, main.go:138) -/
def extRev : List Char → Path → Path
  | [], _ => []
  | c :: r, acc => if c = '/' then [] else if c = '.' then '.' :: acc else extRev r (c :: acc)

/-- `filepath.Ext` (Go standard library, Unix). -/
def ext (p : Path) : Path := extRev p.reverse []

/-- `strings.HasSuffix` (Go standard library; used at driver.go:74, 123, 217) -/
def hasSuffix (s suffix : List Char) : Bool := suffix.reverse.isPrefixOf s.reverse

/-- `strings.TrimSuffix` (Go standard library; used at driver.go:90, 184, 278, 291, 308) -/
def trimSuffix (s suffix : List Char) : List Char :=
  if hasSuffix s suffix then s.take (s.length - suffix.length) else s

/-- `strings.TrimSuffix(base, filepath.Ext(base)) + e` for `base := filepath.Base(in)`
(driver.go:89-90, 183-184, 277-278, 290-291) -/
def defaultOut (inp e : Path) : Path := trimSuffix (base inp) (ext (base inp)) ++ e

/-- `compileSingleTo` (driver.go:36-70) -/
def compileSingleTo (env : Env) (inputFile outputPath : Path) : D Unit := do
  let (bytes, tail) ← openRead env inputFile
  match compileFile bytes tail with
  | .error _ => fail
  | .ok m => do
    create env outputPath
    match env.print m with
    | none => panic
    | some text => do
      writeString env outputPath text
      close env outputPath

/-- the loop of driver.go:88-95 and 182-189, 276-283: each input into its default output -/
def forEach (process : Path → Path → D Unit) (e : Path) : List Path → D Unit
  | [] => pure ()
  | i :: is => do
    process i (defaultOut i e)
    forEach process e is

/-- with `-o` exactly one input, otherwise one output per input
(driver.go:79-95, 173-189, 267-283) -/
def dispatch (args : Options) (process : Path → Path → D Unit) (e : Path) : D Unit :=
  if args.outputFile ≠ [] then
    match args.inputFiles with
    | [i] => process i args.outputFile
    | _ => fail
  else forEach process e args.inputFiles

/-- `compileToIR` (driver.go:34-96) -/
def compileToIR (env : Env) (args : Options) : D Unit :=
  if args.inputFiles.any (fun i => !hasSuffix i ['.', 'b']) then fail
  else dispatch args (compileSingleTo env) ['.', 'l', 'l']

/-- the options for the intermediate IR of one input (driver.go:127-130, 221-224, 312-315) -/
def irArgs (args : Options) (inp tmp : Path) : Options :=
  { args with inputFiles := [inp], outputType := .ir, outputFile := tmp }

/-- optimisation and debug flags (driver.go:110-116, 204-210, 338-344) -/
def optFlags (args : Options) : List (List Char) :=
  (if 0 < args.optimize then [['-', 'O'] ++ natDec args.optimize] else []) ++
  (if args.debugInfo then [['-', 'g']] else [])

/-- `buildClangArgs` (driver.go:109-119, 203-213); `flag` is `-S` or `-c` -/
def buildClangArgs (args : Options) (flag : List Char) (inp out : Path) : List (List Char) :=
  optFlags args ++ [flag, ['-', 'o'], out, inp]

/-- the suffix of temporary IR files (driver.go:125, 219, 306) -/
def tmpSuffix : Path := ".tmp.ll".toList

/-- `if !args.SaveTemps { os.Remove(...) }` for a list of files (driver.go:142-144, 149-151, 236-238,
243-245, 318-322, 369-373, 378-382) -/
def cleanup (env : Env) (args : Options) (temps : List Path) : D Unit :=
  if args.saveTemps then pure ()
  else
    let rec go : List Path → D Unit
      | [] => pure ()
      | t :: ts => do
        remove env t
        go ts
    go temps

/-- running clang on one file, without and with a temporary to be cleaned up
(driver.go:137-156, 160-170, 231-250, 254-264) -/
def clangOne (env : Env) (args : Options) (flag : List Char) (inp out : Path) (temps : List Path) :
    D Unit := do
  let ok ← runClang env (buildClangArgs args flag inp out)
  cleanup env args temps
  if ok then pure () else fail

/-- `processOne` of the assembly and object modes (driver.go:122-171, 216-265); they differ only
in the flag. -/
def processOne (env : Env) (args : Options) (flag : List Char) (inp out : Path) : D Unit :=
  if hasSuffix inp ['.', 'b'] then do
    let tempIR := out ++ tmpSuffix
    compileToIR env (irArgs args inp tempIR)
    clangOne env args flag tempIR out [tempIR]
  else clangOne env args flag inp out []

/-- `compileToAssembly` (driver.go:99-190) -/
def compileToAssembly (env : Env) (args : Options) : D Unit :=
  if args.inputFiles.any (fun i => ext i ≠ ".b".toList ∧ ext i ≠ ".ll".toList) then fail
  else dispatch args (processOne env args ['-', 'S']) ['.', 's']

/-- `compileToObject` (driver.go:193-284) -/
def compileToObject (env : Env) (args : Options) : D Unit :=
  if args.inputFiles.any (fun i => ext i ≠ ".b".toList ∧ ext i ≠ ".ll".toList ∧ ext i ≠ ".s".toList)
  then fail
  else dispatch args (processOne env args ['-', 'c']) ['.', 'o']

/-- the name of the temporary IR of input number `i` (driver.go:304-310) -/
def exeTemp (args : Options) (i : Nat) (inp : Path) : Path :=
  if args.inputFiles.length = 1 ∧ args.outputFile ≠ [] then args.outputFile ++ tmpSuffix
  else trimSuffix (base inp) (ext inp) ++ ".tmp.".toList ++ natDec i ++ ".ll".toList

/-- compile one `.b` input of the executable mode, removing the earlier temporaries if it fails
(driver.go:312-324) -/
def exeCompile (env : Env) (args : Options) (temps : List Path) (inp tmp : Path) : D Unit := fun w =>
  match compileToIR env (irArgs args inp tmp) w with
  | (.ok (), w') => (.ok (), w')
  | (.error, w') => (cleanup env args temps >>= fun _ => fail) w'
  | (.panic, w') => (.panic, w')

/-- the loop of driver.go:298-335 from input number `i` on: returns `temps` and `clangInputs` -/
def exeLoop (env : Env) (args : Options) : Nat → List Path → List Path → List Path →
    D (List Path × List Path)
  | _, temps, clangInputs, [] => pure (temps, clangInputs)
  | i, temps, clangInputs, inp :: rest =>
    if ext inp = ".b".toList then do
      let tmp := exeTemp args i inp
      exeCompile env args temps inp tmp
      exeLoop env args (i + 1) (temps ++ [tmp]) (clangInputs ++ [tmp]) rest
    else if ext inp = ".ll".toList ∨ ext inp = ".s".toList ∨ ext inp = ".o".toList ∨
        ext inp = ".a".toList then
      exeLoop env args (i + 1) temps (clangInputs ++ [inp]) rest
    else fail

/-- the link command (driver.go:337-361) on Linux -/
def linkArgs (args : Options) (clangInputs : List Path) : List (List Char) :=
  optFlags args ++ clangInputs ++ ["-static".toList, "-nostdlib".toList] ++
  args.libraryDirs.map (['-', 'L'] ++ ·) ++ ["-lb".toList] ++
  args.libraries.map (['-', 'l'] ++ ·) ++ [['-', 'o'], args.outputFile]

/-- `compileToExecutable` after the output name has been determined (driver.go:294-387) -/
def exeMain (env : Env) (args : Options) : D Unit := do
  let (temps, clangInputs) ← exeLoop env args 0 [] [] args.inputFiles
  let ok ← runClang env (linkArgs args clangInputs)
  cleanup env args temps
  if ok then pure () else fail

/-- `compileToExecutable` (driver.go:287-388). Without inputs and `-o` the index panics. -/
def compileToExecutable (env : Env) (args : Options) : D Unit :=
  if args.outputFile = [] then
    match args.inputFiles with
    | [] => panic
    | i :: _ => exeMain env { args with outputFile := defaultOut i [] }
  else exeMain env args

/-- `Compile` (driver.go:13-31) -/
def compile (env : Env) (args : Options) : D Unit :=
  match args.outputType with
  | .ir => compileToIR env args
  | .assembly => compileToAssembly env args
  | .object => compileToObject env args
  | .executable => compileToExecutable env args

/-- The command line after `pflag.Parse` (main.go:40-96); `nargs` is `len(os.Args)`. -/
structure Flags where
  nargs : Nat
  output : Path
  saveTemps : Bool
  showVersion : Bool
  showHelp : Bool
  compileOnly : Bool
  assemblyOnly : Bool
  emitLLVM : Bool
  optimize : List Char
  debugInfo : Bool
  libraryDirs : List (List Char)
  libraries : List (List Char)
  files : List Path

/-- What `main` asks the system: `stat` (`none`: error, `some isDir`) and the path
`filepath.Join(home, ".local/lib")`, if `HOME` is set. (main.go:143, 159, 166-167) -/
structure Sys where
  stat : Path → Option Bool
  homeLib : Option Path

/-- main.go:110-120 -/
def outputTypeOf (f : Flags) : OutputType :=
  if f.assemblyOnly then .assembly
  else if f.compileOnly then .object
  else if f.emitLLVM then .ir
  else .executable

/-- main.go:122-133; `none` is the error exit -/
def optLevelOf (o : List Char) : Option Nat :=
  if o ≠ ['0'] then
    if o = ['1'] ∨ o = ['2'] ∨ o = ['3'] then some ((o.headD '0').toNat - '0'.toNat) else none
  else some 0

/-- main.go:136: allowed extensions -/
def allowedExt (e : Path) : Bool :=
  e = ".b".toList || e = ".ll".toList || e = ".s".toList || e = ".o".toList || e = ".a".toList

/-- `addIfDir` (main.go:158-162) -/
def addIfDir (sys : Sys) (p : Path) : List Path := if sys.stat p = some true then [p] else []

/-- main.go:165-172 -/
def defaultDirs (sys : Sys) : List Path :=
  (match sys.homeLib with | some p => addIfDir sys p | none => []) ++
  addIfDir sys "/opt/homebrew/lib".toList ++ addIfDir sys "/opt/local/lib".toList ++
  addIfDir sys "/usr/local/lib".toList ++ addIfDir sys "/usr/lib".toList

/-- the options given to `Compile` (main.go:149-181) -/
def optionsOf (sys : Sys) (f : Flags) (level : Nat) : Options :=
  { outputFile := f.output, inputFiles := f.files, saveTemps := f.saveTemps,
    outputType := outputTypeOf f, optimize := level, debugInfo := f.debugInfo,
    libraryDirs := defaultDirs sys ++ f.libraryDirs, libraries := f.libraries }

/-- `main` (main.go:39-188) after `pflag.Parse`: the exit status (2 is Go's status after a panic)
and the final world. -/
def main (env : Env) (sys : Sys) (f : Flags) (w : World) : Nat × World :=
  if f.showHelp then (0, w)
  else if f.showVersion then (0, w)
  else if f.nargs = 1 then (1, w)
  else if f.files = [] then (1, w)
  else
    match optLevelOf f.optimize with
    | none => (1, w)
    | some level =>
      if f.files.any (fun p => !allowedExt (ext p) || (sys.stat p).isNone) then (1, w)
      else
        match compile env (optionsOf sys f level) w with
        | (.ok (), w') => (0, w')
        | (.error, w') => (1, w')
        | (.panic, w') => (2, w')

end Blang.Driver
