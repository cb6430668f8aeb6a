import Verif.Model.Stmt
/-
Model of `parser_decls.go`.
-/
namespace Blang

/-- `parseIvalConst` (parser_decls.go:198-244). -/
def parseIvalConst : P Const := do
  let ch ← lx readOrErr
  if isLetter ch then do
    lx (unreadChar ch)
    let _ ← lx (identOr "unexpected end of file, expect ival")
    fail "initialization with global references is not supported yet"
  else if ch = '\'' then do
    let val ← lx (orMsg character "unexpected end of file, expect ival")
    pure (.int val)
  else if ch = '"' then do
    let str ← lx stringLit
    let g ← bd (createStringConstant str)
    pure (.addr g.sym g.init.ty 0)
  else if ch = '-' then do
    let val ← lx (orMsg number "unexpected end of file, expect ival")
    pure (.int (-val))
  else do
    lx (unreadChar ch)
    let val ← lx (orMsg number "unexpected end of file, expect ival")
    pure (.int val)

/-- One iteration of the initialiser loops (parser_decls.go:80-103, 163-186). -/
def ivalBody (vals : List Const) : P (Iter (List Const) (List Const)) := do
  lx whitespace
  let val ← parseIvalConst
  lx whitespace
  let ch ← lx readOrErr
  if ch = ';' then pure (.done (vals ++ [val]))
  else if ch ≠ ',' then fail "expect ';' at end of declaration"
  else pure (.next (vals ++ [val]))

/-- `parseGlobal` (parser_decls.go:67-117). -/
def parseGlobal (n : Nat) (name : Name) : P Unit := do
  bd (M.modify fun c => removeGlobalByName c name)
  let ch ← lx readOrErr
  if ch ≠ ';' then do
    lx (unreadChar ch)
    let vals ← loop n ivalBody []
    match vals with
    | [v] => bd (declareGlobal name (some v))
    | vals => bd (declareGlobalWithMultipleValues name vals)
  else bd (declareGlobal name none)

/-- the optional size of a vector, after `[` (parser_decls.go:126-149) -/
def vectorSize : L W := do
  whitespace
  let ch ← readOrErr
  if ch ≠ ']' then do
    unreadChar ch
    let nwords ← orMsg number "unexpected end of file, expect vector size after '['"
    whitespace
    expectChar ']' "expect ']' after vector size"
    pure nwords
  else pure 0

/-- the optional initialisers, `ch` being the first character (parser_decls.go:156-187) -/
def vectorInit (n : Nat) (ch : Char) : P (List Const) :=
  if ch ≠ ';' then do
    lx (unreadChar ch)
    loop n ivalBody []
  else pure []

/-- `parseVector` (parser_decls.go:120-195). -/
def parseVector (n : Nat) (name : Name) : P Unit := do
  bd (M.modify fun c => removeGlobalByName c name)
  let nwords ← lx vectorSize
  lx whitespace
  let ch ← lx readOrErr
  let vals ← vectorInit n ch
  let nwords := if nwords = 0 then BitVec.ofNat 64 vals.length else nwords
  bd (declareGlobalArray name nwords vals)

/-- One iteration of the loop of `parseArguments` (parser_decls.go:277-306). -/
def paramBody (params : List Name) : L (Iter (List Name) (List Name)) := do
  whitespace
  let name ← identOr "expect ')' or identifier after function arguments"
  let params := params ++ [name]
  whitespace
  let ch ← readOrErr
  if ch = ')' then pure (.done params)
  else if ch = ',' then pure (.next params)
  else M.throw (.msg ("unexpected character '" ++ String.singleton ch ++ "', expect ')' or ','"))

/-- `parseArguments` (parser_decls.go:274-307). -/
def parseArguments (n : Nat) : L (List Name) := loop n paramBody []

/-- the parameter list after `(`, `ch` being the next character (parser_decls.go:248-259) -/
def paramList (n : Nat) (ch : Char) : L (List Name) :=
  if ch ≠ ')' then do
    unreadChar ch
    parseArguments n
  else pure []

/-- `parseFunction` (parser_decls.go:247-271). -/
def parseFunction (n : Nat) (name : Name) : P Unit := do
  let ch ← lx readOrErr
  let params ← lx (paramList n ch)
  let fn ← bd (declareFunction name params)
  bd (startFunction fn)
  let _ ← parseStmt n none []
  bd endFunction

/-- dispatch on the character after the name (parser_decls.go:33-46) -/
def parseDecl (n : Nat) (name : Name) (ch : Char) : P Unit :=
  if ch = '(' then parseFunction n name
  else if ch = '[' then parseVector n name
  else do
    lx (unreadChar ch)
    parseGlobal n name

/-- One iteration of the loop of `ParseDeclarations` (parser_decls.go:14-52), including the final
check (lines 54-63) when the loop is left. -/
def declBody (n : Nat) (_ : Unit) : P (Iter Unit Unit) := do
  let name ← lx identifier
  if name = [] then do
    match ← lx readChar with
    | .eof => pure (.done ())
    | .io => M.throw .io
    | .ch _ => fail "expect identifier at top level"
  else do
    match ← lx readChar with
    | .eof => fail "unexpected end of file after declaration"
    | .io => M.throw .io
    | .ch ch =>
      parseDecl n name ch
      bd clearTopLevelContext
      pure (.next ())

/-- `ParseDeclarations` (parser_decls.go:13-64). -/
def parseDeclarations (n : Nat) : P Unit := loop n (declBody n) ()

/-- Fuel that always suffices (property C08). (no counterpart in /repo: Go has no fuel) -/
def fuelFor (len : Nat) : Nat := 8 * len + 32

/-- The front end on a file: `NewCompiler`, `NewLexer`, `ParseDeclarations`, `GetModule`
(driver.go:47-52, 59).  `bytes` are the bytes the file delivers before it ends as `tail` says. -/
def compileFile (bytes : List (BitVec 8)) (tail : Tail) : Except Err Module :=
  let chars := bytes.map fun b => Char.ofNat b.toNat
  match parseDeclarations (fuelFor chars.length) ⟨⟨chars, tail⟩, newCompiler⟩ with
  | .ok _ s => .ok ⟨s.c.globals, s.c.funcs⟩
  | .err e => .error e

/-- The front end on a text (each character a byte ≤ 0xFF). (driver.go:47-52) -/
def compileText (chars : List Char) (tail : Tail) : Except Err Module :=
  match parseDeclarations (fuelFor chars.length) ⟨⟨chars, tail⟩, newCompiler⟩ with
  | .ok _ s => .ok ⟨s.c.globals, s.c.funcs⟩
  | .err e => .error e

end Blang
