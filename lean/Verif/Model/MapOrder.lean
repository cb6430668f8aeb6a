import Verif.Model.Decl
/-
The front end with the iteration order of the Go map `c.functions` made explicit.

Go randomises the order in which `range c.functions` (irbuilder.go:321-326) presents the entries.
`ord c` is the order taken in the state `c`; it is any permutation of the table.  The only other
uses of maps in the front end are lookups and updates.
-/
namespace Blang

/-- an iteration order: every time a permutation of the table
(irbuilder.go:321-326: `for name, f := range c.functions`) -/
def IterOrder (ord : CState → List (Name × Val)) : Prop := ∀ c, (ord c).Perm c.functions

/-- `StartFunction` (irbuilder.go:314-387) with the order `ord`. -/
def startFunctionOrd (ord : CState → List (Name × Val)) (fn : Func) : B Unit := do
  M.modify fun c =>
    { c with curSym := fn.sym, locals := [], labels := [],
             blocks := [⟨"entry".toList, [], none⟩], cur := 0 }
  let c ← M.get
  match startParams (ord c) c.functionParams fn.val with
  | [] => pure ()
  | [p] => firstParam p
  | p :: ps => do
    firstParam p
    let vaArray ← emit (.alloca (.bytes 48))
    let vaListPtr ← emit (.gepField (.bytes 48) vaArray 0)
    let vaStart ← getOrCreateFunc "llvm.va_start".toList
    let _ ← emit (.call vaStart [vaListPtr])
    vaParams vaListPtr ps
    let vaEnd ← getOrCreateFunc "llvm.va_end".toList
    let _ ← emit (.call vaEnd [vaListPtr])

/-- `parseFunction` (parser_decls.go:247-271). -/
def parseFunctionOrd (ord : CState → List (Name × Val)) (n : Nat) (name : Name) : P Unit := do
  let ch ← lx readOrErr
  let params ← lx (paramList n ch)
  let fn ← bd (declareFunction name params)
  bd (startFunctionOrd ord fn)
  let _ ← parseStmt n none []
  bd endFunction

/-- dispatch on the character after the name (parser_decls.go:33-46) -/
def parseDeclOrd (ord : CState → List (Name × Val)) (n : Nat) (name : Name) (ch : Char) : P Unit :=
  if ch = '(' then parseFunctionOrd ord n name
  else if ch = '[' then parseVector n name
  else do
    lx (unreadChar ch)
    parseGlobal n name

/-- One iteration of the loop of `ParseDeclarations` (parser_decls.go:14-63). -/
def declBodyOrd (ord : CState → List (Name × Val)) (n : Nat) (_ : Unit) : P (Iter Unit Unit) := do
  let name ← lx identifier
  if name = [] then do
    match ← lx readChar with
    | .eof => pure (.done ())
    | .io => M.throw .io
    | .ch _ => fail "expect identifier at top level"
  else do
    match ← lx readChar with
    | .eof => fail "unexpected end of file after declaration"
    | .io => M.throw .io
    | .ch ch =>
      parseDeclOrd ord n name ch
      bd clearTopLevelContext
      pure (.next ())

/-- The front end on a text, with the iteration order `ord`. (driver.go:47-52) -/
def compileTextOrd (ord : CState → List (Name × Val)) (chars : List Char) (tail : Tail) : Except Err Module :=
  match loop (fuelFor chars.length) (declBodyOrd ord (fuelFor chars.length)) () ⟨⟨chars, tail⟩, newCompiler⟩ with
  | .ok _ s => .ok ⟨s.c.globals, s.c.funcs⟩
  | .err e => .error e

end Blang
