import Verif.Model.IR
/-
Model of `irbuilder.go`: the struct `Compiler` and its methods.
-/
namespace Blang

/-- character of a decimal digit
(`fmt` library; used at irbuilder.go:487, parser_stmt.go:361-363, 441-443, 495, 546, 605) -/
def digitChar (d : Nat) : Char := Char.ofNat (d % 10 + '0'.toNat)

/-- `fmt` library, see `natDec` -/
def natDecAux : Nat → Nat → List Char
  | 0, _ => []
  | f + 1, n => if n < 10 then [digitChar n] else natDecAux f (n / 10) ++ [digitChar n]

/-- Go's `%d` of a non-negative integer.
(`fmt` library; used at irbuilder.go:487, expressions.go:58-60, parser_stmt.go:361-363, 441-443, 495, driver.go:112, 309) -/
def natDec (n : Nat) : List Char := natDecAux (n + 1) n

/-- Go's `%d` of an `int64`. (`fmt` library; used at parser_stmt.go:546, 605) -/
def intDec (w : W) : List Char :=
  if w.toInt < 0 then '-' :: natDec w.toInt.natAbs else natDec w.toInt.natAbs

/-- `string(runes)` as bytes: UTF-8 encoding of a rune ≤ U+07FF, each byte given as a
rune again.  (Runes ≥ U+0800 cannot occur: every rune comes from a byte.)
(Go language; used by lexer.go:260 and irbuilder.go:474) -/
def utf8Char (c : Char) : List Char :=
  if c.toNat < 128 then [c]
  else [Char.ofNat (192 + c.toNat / 64 % 32), Char.ofNat (128 + c.toNat % 64)]

/-- Go language; used by lexer.go:260, irbuilder.go:474, parser_stmt.go:126-128 -/
def utf8 (s : List Char) : List Char := s.flatMap utf8Char

/-- `Compiler` (irbuilder.go:14-32).  `globals`/`funcs` are `module.Globals`/`module.Funcs`.
`curSym`/`blocks` stand for `currentFn`: its block list is kept here while the body is
being built and stored in the module by `endFunction` (in Go `currentFn` points into the
module; the blocks of the function under construction are not looked at through the
module in between).  `cur` is `builder`, as an index into `blocks`.  Maps are association
lists with the newest entry first.  `strings` and `functionTypes` are write-only or unused
in the Go code and left out. -/
structure CState where
  globals : List GlobalDef
  funcs : List Func
  curSym : Name
  blocks : List Block
  cur : Nat
  locals : List (Name × Val)
  ctx : List (Name × Val)
  functions : List (Name × Val)
  functionParams : List (Name × List Name)
  stringID : Nat
  labelID : Nat
  nextReg : Nat
  labels : List (Name × Nat)
  usedAsFunction : List Name

/-- Methods of `Compiler`. (irbuilder.go:14-537) -/
abbrev B := M CState

/-- `CompileOptions.GlobalPrefix` (options.go:44). -/
def globalPrefix : Name := "b.".toList

/-- `globalName` (irbuilder.go:37-42). -/
def globalName (name : Name) : Name :=
  if name = "main".toList then name else globalPrefix ++ name

/-- `NewCompiler` (irbuilder.go:45-58). -/
def newCompiler : CState :=
  { globals := [], funcs := [], curSym := [], blocks := [], cur := 0, locals := [], ctx := [],
    functions := [], functionParams := [], stringID := 0, labelID := 0, nextReg := 0, labels := [],
    usedAsFunction := [] }

/-- map lookup (Go maps: irbuilder.go:19-21, 25, 31) -/
def lookup {α : Type} (k : Name) (m : List (Name × α)) : Option α :=
  (m.find? (fun p => p.1 = k)).map (·.2)

/-- map update (Go maps: irbuilder.go:19-21, 25, 31) -/
def insert {α : Type} (k : Name) (v : α) (m : List (Name × α)) : List (Name × α) := (k, v) :: m

/-- `findFuncByName` (irbuilder.go:61-69). -/
def findFuncByName (c : CState) (name : Name) : Option Func :=
  c.funcs.find? (fun f => f.sym = globalName name)

/-- `removeFuncByName` (irbuilder.go:72-81): removes the first function of that name. -/
def removeFuncByName (c : CState) (name : Name) : CState :=
  { c with funcs := c.funcs.eraseP (fun f => f.sym = globalName name) }

/-- `findGlobalByName` (irbuilder.go:84-92). -/
def findGlobalByName (c : CState) (name : Name) : Option GlobalDef :=
  c.globals.find? (fun g => g.sym = globalName name)

/-- `removeGlobalByName` (irbuilder.go:95-104): removes the first global of that name. -/
def removeGlobalByName (c : CState) (name : Name) : CState :=
  { c with globals := c.globals.eraseP (fun g => g.sym = globalName name) }

/-- `module.NewGlobalDef`: appends a definition.
(llir; used at irbuilder.go:126, 128, 145, 174, 183, 206, 487, parser_stmt.go:314) -/
def newGlobalDef (c : CState) (g : GlobalDef) : CState := { c with globals := c.globals ++ [g] }

/-- `module.NewFunc`: appends a function without blocks. (llir; used at irbuilder.go:234, 238, 270, 536) -/
def newFunc (c : CState) (f : Func) : CState := { c with funcs := c.funcs ++ [f] }

/-- `DeclareGlobal` (irbuilder.go:122-132). -/
def declareGlobal (name : Name) (init : Option Const) : B Unit := M.modify fun c =>
  let g : GlobalDef := ⟨globalName name, .word (init.getD (.int 0)), false⟩
  { newGlobalDef c g with ctx := insert name g.val c.ctx }

/-- `DeclareGlobalWithMultipleValues` (irbuilder.go:137-148). -/
def declareGlobalWithMultipleValues (name : Name) (values : List Const) : B Unit := M.modify fun c =>
  let g : GlobalDef := ⟨globalName name, .arr values.length values, false⟩
  { newGlobalDef c g with ctx := insert name g.val c.ctx }

/-- the suffix ".data" (irbuilder.go:174) -/
def dataSuffix : Name := ".data".toList

/-- `DeclareGlobalArray` (irbuilder.go:162-220).  `size` is an `int64`, compared signed;
`uint64(size)` is its unsigned reading; `size + 1` wraps.  The loop of lines 198-204 runs
`max 0 size` times. -/
def declareGlobalArray (name : Name) (size : W) (init : List Const) : B Unit := M.modify fun c =>
  let size := if size = 0 ∧ init = [] then 1 else size
  if init = [] ∧ (1 : Int) < size.toInt then
    let dataSym := globalName name ++ dataSuffix
    let c := newGlobalDef c ⟨dataSym, .zero size.toNat, false⟩
    let g : GlobalDef := ⟨globalName name, .arr 1 [.addr dataSym (.arr size.toNat) 0], false⟩
    { newGlobalDef c g with ctx := insert name g.val c.ctx }
  else
    let arraySize := (size + 1).toNat
    let words := (List.range size.toInt.toNat).map fun i => init.getD i (.int 0)
    let g : GlobalDef :=
      ⟨globalName name, .arr arraySize (.addr (globalName name) (.arr arraySize) 1 :: words), false⟩
    { newGlobalDef c g with ctx := insert name g.val c.ctx }

/-- `DeclareFunction` (irbuilder.go:223-244). Returns the function. -/
def declareFunction (name : Name) (paramNames : List Name) : B Func := fun c =>
  let c := removeFuncByName c name
  let c := { c with functionParams := insert name paramNames c.functionParams }
  let fn : Func := match paramNames with
    | [] => ⟨globalName name, [], false, []⟩
    | p :: _ => ⟨globalName name, [p], true, []⟩
  let c := newFunc c fn
  .ok fn { c with functions := insert name fn.val c.functions }

/-- `GetOrDeclareFunction` (irbuilder.go:256-276); `none` is `nil`. -/
def getOrDeclareFunction (name : Name) : B (Option Val) := fun c =>
  match lookup name c.functions with
  | some fn => .ok (some fn) c
  | none =>
    match lookup name c.ctx with
    | some _ => .ok none c
    | none =>
      let c := removeFuncByName c name
      let fn : Func := ⟨globalName name, [], true, []⟩
      let c := newFunc c fn
      .ok (some fn.val)
        { c with functions := insert name fn.val c.functions,
                 usedAsFunction := name :: c.usedAsFunction }

/-- `ClearTopLevelContext` (irbuilder.go:305-311). -/
def clearTopLevelContext : B Unit := M.modify fun c =>
  { c with ctx := [], functions := [], functionParams := [] }

/-- Appends an instruction to the current block (`c.builder.NewXxx(...)`) and returns its result.
(llir; used throughout expressions.go and irbuilder.go:341-440) -/
def emit (i : Inst) : B Val := fun c =>
  .ok (.reg c.nextReg)
    { c with
      blocks := c.blocks.modify c.cur fun b => { b with insts := b.insts ++ [(c.nextReg, i)] }
      nextReg := c.nextReg + 1 }

/-- Sets the terminator of the current block (`NewRet`, `NewBr`, `NewCondBr`, `NewSwitch`):
llir assigns `block.Term`, overwriting an earlier terminator.
(llir; used at irbuilder.go:393, expressions.go:65, 74, 91, parser_stmt.go:116, 171, 173, 368, 376,
425, 446, 465, 473, 491, 524, 535, 542, 551, 609) -/
def setTerm (t : Term) : B Unit := M.modify fun c =>
  { c with blocks := c.blocks.modify c.cur fun b => { b with term := some t } }

/-- `c.builder.Term`. (llir; used at irbuilder.go:392, parser_stmt.go:115, 375, 424, 472, 534, 608) -/
def curTerm (c : CState) : Option Term := (c.blocks[c.cur]?).bind (·.term)

/-- `NewBlock` (irbuilder.go:498-505) for a non-empty name (all callers): returns the index. -/
def newBlock (name : Name) : B Nat := fun c =>
  .ok c.blocks.length { c with blocks := c.blocks ++ [⟨name, [], none⟩] }

/-- `SetInsertPoint` (irbuilder.go:508-510). -/
def setInsertPoint (b : Nat) : B Unit := M.modify fun c => { c with cur := b }

/-- `GetInsertBlock` (irbuilder.go:513-515). -/
def getInsertBlock : B Nat := fun c => .ok c.cur c

/-- `GetOrCreateLabel` (irbuilder.go:518-525). -/
def getOrCreateLabel (name : Name) : B Nat := fun c =>
  match lookup name c.labels with
  | some b => .ok b c
  | none => .ok c.blocks.length
      { c with blocks := c.blocks ++ [⟨name, [], none⟩],
               labels := insert name c.blocks.length c.labels }

/-- `id := c.labelID; c.labelID++` (expressions.go:56-57, parser_stmt.go:359-360, 439-440, 495-496, 509-510) -/
def freshLabelID : B Nat := fun c => .ok c.labelID { c with labelID := c.labelID + 1 }

/-- `getOrCreateFunc` (irbuilder.go:528-537): the intrinsics are looked up without prefix. -/
def getOrCreateFunc (funcName : Name) : B Val := fun c =>
  match c.funcs.find? (fun f => f.sym = funcName) with
  | some f => .ok f.val c
  | none =>
    let f : Func := ⟨funcName, [[]], false, []⟩
    .ok f.val (newFunc c f)

/-- the loop of irbuilder.go:369-381 over the remaining parameters -/
def vaParams (vaListPtr : Val) : List Name → B Unit
  | [] => pure ()
  | p :: ps => do
    let paramAlloca ← emit (.alloca .i64)
    let r ← emit (.vaarg vaListPtr)
    let _ ← emit (.store r paramAlloca)
    M.modify fun c => { c with locals := insert p paramAlloca c.locals }
    vaParams vaListPtr ps

/-- storing the fixed first parameter (irbuilder.go:341-344, 349-352) -/
def firstParam (p : Name) : B Unit := do
  let alloca ← emit (.alloca .i64)
  let _ ← emit (.store .param alloca)
  M.modify fun c => { c with locals := insert p alloca c.locals }

/-- the name lookup of irbuilder.go:321-333: the first entry of the function table whose value
is `fn`, in the order in which the (randomised) iteration presents the table; then the
parameter names recorded for that name.  A missing name behaves as the empty name. -/
def startParams (table : List (Name × Val)) (params : List (Name × List Name)) (fn : Val) : List Name :=
  let funcName := ((table.find? (fun p => p.2 = fn)).map (·.1)).getD []
  (lookup funcName params).getD []

/-- `StartFunction` (irbuilder.go:314-387). -/
def startFunction (fn : Func) : B Unit := do
  M.modify fun c =>
    { c with curSym := fn.sym, locals := [], labels := [],
             blocks := [⟨"entry".toList, [], none⟩], cur := 0 }
  let c ← M.get
  match startParams c.functions c.functionParams fn.val with
  | [] => pure ()
  | [p] => firstParam p
  | p :: ps => do
    firstParam p
    let vaArray ← emit (.alloca (.bytes 48))
    let vaListPtr ← emit (.gepField (.bytes 48) vaArray 0)
    let vaStart ← getOrCreateFunc "llvm.va_start".toList
    let _ ← emit (.call vaStart [vaListPtr])
    vaParams vaListPtr ps
    let vaEnd ← getOrCreateFunc "llvm.va_end".toList
    let _ ← emit (.call vaEnd [vaListPtr])

/-- `if c.builder.Term == nil { c.builder.NewRet(0) }` (irbuilder.go:391-394) -/
def closeLast : B Unit := do
  let c ← M.get
  if curTerm c = none then setTerm (.ret (.const 0)) else pure ()

/-- `EndFunction` (irbuilder.go:390-399). The finished blocks go into the module's entry of the
current function. -/
def endFunction : B Unit := do
  closeLast
  M.modify fun c =>
    { c with funcs := c.funcs.map fun f => if f.sym = c.curSym then { f with blocks := c.blocks } else f
             curSym := [], blocks := [], cur := 0, locals := [], labels := [] }

/-- `DeclareLocal` (irbuilder.go:402-408). -/
def declareLocal (name : Name) : B Unit := do
  let alloca ← emit (.alloca .i64)
  let _ ← emit (.store (.const 0) alloca)
  M.modify fun c => { c with locals := insert name alloca c.locals }

/-- `DeclareLocalArray` (irbuilder.go:416-441). -/
def declareLocalArray (name : Name) (size : W) : B Unit := do
  let size := if size = 0 then 1 else size
  let arrayType : Ty := .arr (size + 1).toNat
  let alloca ← emit (.alloca arrayType)
  let firstElemPtr ← emit (.gepField arrayType alloca 1)
  let ptrAsInt ← emit (.ptrtoint firstElemPtr)
  let firstSlotPtr ← emit (.gepField arrayType alloca 0)
  let _ ← emit (.store ptrAsInt firstSlotPtr)
  M.modify fun c => { c with locals := insert name firstSlotPtr c.locals }

/-- `GetAddress` (irbuilder.go:445-468). -/
def getAddress (name : Name) : B (Option Val) := do
  let c ← M.get
  match lookup name c.locals with
  | some v => pure (some v)
  | none =>
    match lookup name c.ctx with
    | some (.glob sym (.arr n)) => do
      let e ← emit (.gepField (.arr n) (.glob sym (.arr n)) 0)
      pure (some e)
    | some (.glob sym (.bytes n)) => do
      let e ← emit (.gepField (.bytes n) (.glob sym (.bytes n)) 0)
      pure (some e)
    | some v => pure (some v)
    | none => pure none

/-- bytes of a Go string given by its runes, with the 0 appended (irbuilder.go:474-483) -/
def stringBytes (s : List Char) : List (BitVec 8) :=
  (utf8 s).map (fun c => BitVec.ofNat 8 c.toNat) ++ [0]

/-- name of the n-th string constant (irbuilder.go:487) -/
def strSym (n : Nat) : Name := ".str.".toList ++ natDec n

/-- `CreateStringConstant` (irbuilder.go:471-495). -/
def createStringConstant (s : List Char) : B GlobalDef := fun c =>
  let g : GlobalDef := ⟨strSym c.stringID, .bytes (stringBytes s), true⟩
  .ok g { newGlobalDef c g with stringID := c.stringID + 1 }

end Blang
