import Verif.Model.Expr
/-
Model of `parser_stmt.go`.

`switchID int64, cases *[]int64`: all callers pass either `(-1, nil)` or an id ≥ 0
with a non-nil slice, so the pair is an `Option Nat` plus the case list collected so
far, which is returned.
-/
namespace Blang

/-- `*[]int64`, parser_stmt.go:19, 532 -/
abbrev Cases := List W

/-- a list of characters pushed back one after the other, last one first
(parser_stmt.go:126-128, 419-421) -/
def unreadAll : List Char → L Unit
  | [] => pure ()
  | c :: cs => do
    unreadAll cs
    unreadChar c

/-- `parseReturn` (parser_stmt.go:145-177). -/
def parseReturn (n : Nat) : P Unit := do
  let ch ← lx readOrErr
  if ch ≠ ';' then
    if ch ≠ '(' then fail "expect '(' or ';' after 'return'"
    else do
      let val ← parseExpression n
      lx whitespace
      lx (expectChar ')' "expect ')' after 'return' statement")
      lx whitespace
      lx (expectChar ';' "expect ';' after 'return' statement")
      bd (setTerm (.ret val))
  else bd (setTerm (.ret (.const 0)))

/-- Replaces every error of a lexer function by one message (`if err != nil || ... { return
fmt.Errorf(...) }`). (parser_stmt.go:194-197, 302-305, 482-485) -/
def orMsg {α : Type} (f : L α) (msg : String) : L α := fun l =>
  match f l with
  | .ok a l' => .ok a l'
  | .err _ => .err (.msg msg)

/-- `l.Identifier()` where an error or an empty name gives the message `msg`.
(parser_stmt.go:193-197, 301-305, 482-485) -/
def identOr (msg : String) : L Name := do
  let name ← orMsg identifier msg
  if name = [] then M.throw (.msg msg) else pure name

/-- the size constant starting with `ch2` (parser_stmt.go:226-240) -/
def sizeConst (ch2 : Char) : L W :=
  if ch2 = '\'' then character else do
    unreadChar ch2
    number

/-- size part of an array declaration after `[` (parser_stmt.go:219-251) -/
def autoSize : L W := do
  whitespace
  let ch2 ← readOrErr
  if ch2 ≠ ']' then do
    let size ← sizeConst ch2
    whitespace
    expectChar ']' "expect ']' after array size"
    pure size
  else pure 0

/-- One iteration of the declaration loop of `parseAuto` (parser_stmt.go:192-280).  A
declaration is a name and a size; -1 means scalar.  `seen` is the list of names in `decls`. -/
def autoBody (decls : List (Name × W)) : P (Iter (List (Name × W)) (List (Name × W))) := do
  let name ← lx (identOr "expect identifier after 'auto'")
  let s ← M.get
  if decls.any (fun d => d.1 = name) then
    fail ("identifier '" ++ String.ofList name ++ "' already defined in this scope")
  else if (lookup name s.c.locals).isSome then
    fail ("identifier '" ++ String.ofList name ++ "' already defined in this scope")
  else do
    lx whitespace
    let ch ← lx readOrErr
    if ch = '[' then do
      let size ← lx autoSize
      let decls := decls ++ [(name, size)]
      lx whitespace
      let ch ← lx readOrErr
      if ch = ';' then pure (.done decls)
      else if ch ≠ ',' then
        fail ("unexpected character '" ++ String.singleton ch ++ "', expect ';' or ','")
      else pure (.next decls)
    else if ch ≠ ';' ∧ ch ≠ ',' then
      fail ("unexpected character '" ++ String.singleton ch ++ "', expect ';' or ',' after auto variable")
    else do
      let decls := decls ++ [(name, -1)]
      if ch = ';' then pure (.done decls) else pure (.next decls)

/-- one declaration (parser_stmt.go:285-292) -/
def declareOne (name : Name) (size : W) : B Unit :=
  if size = -1 then declareLocal name else declareLocalArray name size

/-- parser_stmt.go:284-293 -/
def declareAll : List (Name × W) → B Unit
  | [] => pure ()
  | (name, size) :: ds => do
    declareOne name size
    declareAll ds

/-- `parseAuto` (parser_stmt.go:182-296). -/
def parseAuto (n : Nat) : P Unit := do
  let decls ← loop n autoBody []
  bd (declareAll decls)

/-- resolving one `extrn` name (parser_stmt.go:310-320) -/
def declareExtrn (name : Name) : B Unit := fun c =>
  match findGlobalByName c name with
  | some g => .ok () { c with ctx := insert name g.val c.ctx }
  | none =>
    if findFuncByName c name = none ∧ name ∉ c.usedAsFunction then
      let g : GlobalDef := ⟨globalName name, .word (.int 0), false⟩
      .ok () { newGlobalDef c g with ctx := insert name g.val c.ctx }
    else .err (.msg "function redeclared as variable")

/-- One iteration of the loop of `parseExtrn` (parser_stmt.go:300-337). -/
def extrnBody (_ : Unit) : P (Iter Unit Unit) := do
  let name ← lx (identOr "expect identifier after 'extrn'")
  bd (declareExtrn name)
  lx whitespace
  let ch ← lx readOrErr
  if ch = ';' then pure (.done ())
  else if ch ≠ ',' then
    fail ("unexpected character '" ++ String.singleton ch ++ "', expect ';' or ','")
  else pure (.next ())

/-- `parseExtrn` (parser_stmt.go:299-338). -/
def parseExtrn (n : Nat) : P Unit := loop n extrnBody ()

/-- `parseGoto` (parser_stmt.go:481-505). -/
def parseGoto : P Unit := do
  let label ← lx (identOr "expect label name after 'goto'")
  let target ← bd (getOrCreateLabel label)
  bd (setTerm (.br target))
  let c ← M.get
  let dead ← bd (newBlock ("unreachable.".toList ++ natDec c.c.labelID))
  let _ ← bd freshLabelID
  bd (setInsertPoint dead)
  lx whitespace
  lx (expectChar ';' "expect ';' after 'goto' statement")

/-- Trying to read the remaining characters `exp` of "else" (parser_stmt.go:386-400): returns
whether all matched, and the characters read. -/
def readElse : List Char → List Char → L (Bool × List Char)
  | [], readChars => pure (true, readChars)
  | e :: es, readChars => do
    match ← readChar with
    | .ch ch =>
      if ch ≠ e then pure (false, readChars ++ [ch])
      else readElse es (readChars ++ [ch])
    | _ => pure (false, readChars)

/-- The character after "else" (parser_stmt.go:403-412): a letter or digit means a longer word.
The character is read and not pushed back. -/
def afterElse (r : Bool × List Char) : L (Bool × List Char) :=
  if r.1 then do
    match ← readChar with
    | .ch ch => pure (!(isLetter ch || isDigit ch), r.2 ++ [ch])
    | _ => pure (true, r.2)
  else pure (false, r.2)

/-- The whole test for "else" (parser_stmt.go:385-422): `true` if the else branch follows (the
characters read so far stay consumed), `false` after pushing everything back. -/
def tryElse : L Bool := do
  let r ← readElse ['e', 'l', 's', 'e'] []
  let r ← afterElse r
  if r.1 then pure true
  else do
    unreadAll r.2
    pure false

/-- `if c.builder.Term == nil { c.builder.NewBr(b) }`
(parser_stmt.go:114-117, 375-377, 424-426, 472-474, 534-536, 608-610) -/
def brIfOpen (b : Nat) : B Unit := do
  let c ← M.get
  if curTerm c = none then setTerm (.br b) else pure ()

/-- `parseIf` (parser_stmt.go:341-430); `stmt` is `parseStatement`. -/
def parseIf (stmt : P Unit) (n : Nat) : P Unit := do
  lx (expectChar '(' "expect '(' after 'if'")
  let cond ← parseExpression n
  lx whitespace
  lx (expectChar ')' "expect ')' after condition")
  let ifID ← bd freshLabelID
  let thenBlock ← bd (newBlock ("if.".toList ++ natDec ifID ++ ".then".toList))
  let elseBlock ← bd (newBlock ("if.".toList ++ natDec ifID ++ ".else".toList))
  let endBlock ← bd (newBlock ("if.".toList ++ natDec ifID ++ ".end".toList))
  let cmp ← bd (emit (.icmp .ne cond (.const 0)))
  bd (setTerm (.condbr cmp thenBlock elseBlock))
  bd (setInsertPoint thenBlock)
  stmt
  bd (brIfOpen endBlock)
  bd (setInsertPoint elseBlock)
  lx whitespace
  let isElse ← lx tryElse
  (if isElse then stmt else pure ())
  bd (brIfOpen endBlock)
  bd (setInsertPoint endBlock)

/-- `parseWhile` (parser_stmt.go:433-478). -/
def parseWhile (stmt : P Unit) (n : Nat) : P Unit := do
  lx (expectChar '(' "expect '(' after 'while'")
  let whileID ← bd freshLabelID
  let condBlock ← bd (newBlock ("while.".toList ++ natDec whileID ++ ".cond".toList))
  let bodyBlock ← bd (newBlock ("while.".toList ++ natDec whileID ++ ".body".toList))
  let endBlock ← bd (newBlock ("while.".toList ++ natDec whileID ++ ".end".toList))
  bd (setTerm (.br condBlock))
  bd (setInsertPoint condBlock)
  let cond ← parseExpression n
  lx whitespace
  lx (expectChar ')' "expect ')' after condition")
  let cmp ← bd (emit (.icmp .ne cond (.const 0)))
  bd (setTerm (.condbr cmp bodyBlock endBlock))
  bd (setInsertPoint bodyBlock)
  stmt
  bd (brIfOpen condBlock)
  bd (setInsertPoint endBlock)

/-- name of a case label (parser_stmt.go:546, 605) -/
def caseName (switchID : Nat) (v : W) : Name :=
  "case.".toList ++ natDec switchID ++ ".".toList ++ intDec v

/-- the case list of the switch instruction (parser_stmt.go:545-548) -/
def switchCases (switchID : Nat) : Cases → B (List (W × Nat))
  | [] => pure []
  | v :: vs => do
    let b ← getOrCreateLabel (caseName switchID v)
    let rest ← switchCases switchID vs
    pure ((v, b) :: rest)

/-- the terminator of the comparison block (parser_stmt.go:540-552) -/
def switchTerm (switchID : Nat) (v : Val) (endBlock : Nat) (caseList : Cases) : B Unit :=
  if caseList ≠ [] then do
    let cases ← switchCases switchID caseList
    setTerm (.switch v endBlock cases)
  else setTerm (.br endBlock)

/-- `parseSwitch` (parser_stmt.go:508-557); `stmt id cs` is
`parseStatementWithSwitch(l, c, id, &cs)`.  (`NewSwitch` sets the terminator first and the cases
are appended to it afterwards; creating the labels does not touch the current block, so setting
the complete terminator at the end is the same.) -/
def parseSwitch (stmt : Option Nat → Cases → P Cases) (n : Nat) : P Unit := do
  let switchID ← bd freshLabelID
  let switchVal ← parseExpression n
  let stmtsBlock ← bd (newBlock ("switch.".toList ++ natDec switchID ++ ".stmts".toList))
  let cmpBlock ← bd (newBlock ("switch.".toList ++ natDec switchID ++ ".cmp".toList))
  let endBlock ← bd (newBlock ("switch.".toList ++ natDec switchID ++ ".end".toList))
  bd (setTerm (.br cmpBlock))
  bd (setInsertPoint stmtsBlock)
  let caseList ← stmt (some switchID) []
  bd (brIfOpen endBlock)
  bd (setInsertPoint cmpBlock)
  bd (switchTerm switchID switchVal endBlock caseList)
  bd (setInsertPoint endBlock)

/-- the constant after `case` (parser_stmt.go:570-592) -/
def caseConst : L W := do
  let ch ← readOrErr
  if ch = '\'' then character
  else if isDigit ch then do
    unreadChar ch
    number
  else M.throw (.msg ("unexpected character '" ++ String.singleton ch ++ "', expect constant after 'case'"))

/-- `parseCase` (parser_stmt.go:560-617). -/
def parseCase (stmt : Option Nat → Cases → P Cases) (sw : Option Nat) (cases : Cases) : P Cases :=
  match sw with
  | none => fail "unexpected 'case' outside of 'switch' statements"
  | some switchID => do
    let value ← lx caseConst
    lx whitespace
    lx (expectChar ':' "expect ':' after 'case'")
    let caseBlock ← bd (getOrCreateLabel (caseName switchID value))
    bd (brIfOpen caseBlock)
    bd (setInsertPoint caseBlock)
    stmt sw (cases ++ [value])

/-- an expression statement, up to and including the `;` (parser_stmt.go:59-68, 129-138) -/
def exprStmt (n : Nat) : P Unit := do
  let _ ← parseExpression n
  lx whitespace
  lx (expectChar ';' "expect ';' after expression statement")

/-- `parseKeywordOrExpressionWithSwitch` (parser_stmt.go:75-142). -/
def parseKeyword (stmt : Option Nat → Cases → P Cases) (n : Nat) (sw : Option Nat) (cases : Cases) :
    P Cases := do
  let name ← lx identifier
  lx whitespace
  let sub : P Unit := do
    let _ ← stmt none []
  if name = "return".toList then do parseReturn n; pure cases
  else if name = "auto".toList then do parseAuto n; pure cases
  else if name = "extrn".toList then do parseExtrn n; pure cases
  else if name = "if".toList then do parseIf sub n; pure cases
  else if name = "while".toList then do parseWhile sub n; pure cases
  else if name = "switch".toList then do parseSwitch stmt n; pure cases
  else if name = "case".toList then parseCase stmt sw cases
  else if name = "goto".toList then do parseGoto; pure cases
  else do
    let ch ← lx readOrErr
    if ch = ':' then do
      let block ← bd (getOrCreateLabel name)
      bd (brIfOpen block)
      bd (setInsertPoint block)
      stmt sw cases
    else do
      lx (unreadChar ch)
      lx (unreadAll (utf8 name))
      exprStmt n
      pure cases

/-- One iteration of the block loop (parser_stmt.go:32-47). -/
def blockBody (stmt : Option Nat → Cases → P Cases) (sw : Option Nat) (cases : Cases) :
    P (Iter Cases Cases) := do
  lx whitespace
  let ch ← lx readOrErr
  if ch = '}' then pure (.done cases)
  else do
    lx (unreadChar ch)
    let cases ← stmt sw cases
    pure (.next cases)

/-- `parseStatementWithSwitch` (parser_stmt.go:19-73), with fuel. `parseStatement`
(parser_stmt.go:15-17) is `parseStmt n none []`. -/
def parseStmt : Nat → Option Nat → Cases → P Cases
  | 0, _, _ => M.throw .fuel
  | n + 1, sw, cases => do
    lx whitespace
    let ch ← lx readOrErr
    if ch = '{' then loop n (blockBody (parseStmt n) sw) cases
    else if ch = ';' then pure cases
    else if isLetter ch then do
      lx (unreadChar ch)
      parseKeyword (parseStmt n) n sw cases
    else do
      lx (unreadChar ch)
      exprStmt n
      pure cases

end Blang
