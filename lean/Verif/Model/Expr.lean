import Verif.Model.Builder
/-
Model of `expressions.go`.

The Go functions parse and generate code in one pass.  `P` is the monad of
functions taking `(l *Lexer, c *Compiler)`.  Mutual recursion is organised as open
recursion: `rec` stands for `parseExpressionWithLevel`, and the knot is tied in
`parseExpr` at the end.
-/
namespace Blang

/-- `(l *Lexer, c *Compiler)` (the arguments of the functions of expressions.go:17-946 and parser_stmt.go) -/
structure PS where
  lex : Lex
  c : CState

/-- Go functions of expressions.go and parser_stmt.go with arguments `l`, `c` that return `error` -/
abbrev P := M PS

/-- a lexer method called from the parser (calls `l.Xxx(...)` in expressions.go, parser_stmt.go, parser_decls.go) -/
def lx {α : Type} (f : L α) : P α := fun s =>
  match f s.lex with
  | .ok a l => .ok a { s with lex := l }
  | .err e => .err e

/-- a compiler method called from the parser
(calls `c.Xxx(...)` in expressions.go, parser_stmt.go, parser_decls.go) -/
def bd {α : Type} (f : B α) : P α := fun s =>
  match f s.c with
  | .ok a c => .ok a { s with c := c }
  | .err e => .err e

/-- `return ..., fmt.Errorf(...)` in expressions.go, parser_stmt.go, parser_decls.go -/
def fail {α : Type} (s : String) : P α := M.throw (.msg s)

/-- a value with its `isLvalue` flag
(the results of parseUnary, parsePostfix, parsePrimary: expressions.go:512, 628, 817) -/
abbrev LV := Val × Bool

/-- `if isLvalue { v = c.builder.NewLoad(i64, v) }`
(expressions.go:38-40, 51-53, 116-118, 131-133, 307-309, 322-324, 341-343, 357-359, 454-456, 477-479, 505-507, 651-653, 679-683) -/
def rval (v : LV) : B Val := if v.2 then emit (.load v.1) else pure v.1

/-- `cmp := NewICmp(p, x, y); NewZExt(cmp, i64)`
(expressions.go:124-125, 139-140, 349-350, 383-384, 396-397, 419-420, 432-433) -/
def cmpOp (p : Pred) (x y : Val) : B Val := do
  let cmp ← emit (.icmp p x y)
  emit (.zext cmp)

/-- Operators of compound assignments: arithmetic or comparison. (expressions.go:188-291) -/
inductive Op where
  | bin (o : BinOp)
  | cmp (p : Pred)
deriving DecidableEq, Repr

/-- code for a binary operator (expressions.go:315, 330, 349-350, 373-433, 466-470, 485-492) -/
def genOp (o : Op) (x y : Val) : B Val :=
  match o with
  | .bin o => emit (.bin o x y)
  | .cmp p => cmpOp p x y

/-- A left-associative binary operator: load the left operand if needed, parse the right
operand at level `rl`, combine, go round the loop again
(expressions.go:306-318, 321-333, 341-352, 366-436, 454-472, 476-494). -/
def binary (rec : Nat → P Val) (left : LV) (rl : Nat) (o : Op) : P (Iter LV Val) := do
  let x ← bd (rval left)
  let y ← rec rl
  let v ← bd (genOp o x y)
  pure (.next (v, false))

/-- leaving the loop: expressions.go:504-508 (and 38-41 at end of file) -/
def stop (left : LV) : P (Iter LV Val) := do
  let v ← bd (rval left)
  pure (.done v)

/-- "No operator found at this level": push back and leave (expressions.go:497-501). -/
def noOp (ch : Char) (left : LV) : P (Iter LV Val) := do
  lx (unreadChar ch)
  stop left

/-- The ternary operator (expressions.go:50-97). -/
def ternary (rec : Nat → P Val) (left : LV) : P (Iter LV Val) := do
  let cond ← bd (rval left)
  let condID ← bd freshLabelID
  let thenBlock ← bd (newBlock ("cond.then.".toList ++ natDec condID))
  let elseBlock ← bd (newBlock ("cond.else.".toList ++ natDec condID))
  let endBlock ← bd (newBlock ("cond.end.".toList ++ natDec condID))
  let cmp ← bd (emit (.icmp .ne cond (.const 0)))
  bd (setTerm (.condbr cmp thenBlock elseBlock))
  bd (setInsertPoint thenBlock)
  let thenVal ← rec 12
  let thenEnd ← bd getInsertBlock
  bd (setTerm (.br endBlock))
  lx whitespace
  lx (expectChar ':' "expect ':' in ternary operator")
  bd (setInsertPoint elseBlock)
  let elseVal ← rec 13
  let elseEnd ← bd getInsertBlock
  bd (setTerm (.br endBlock))
  bd (setInsertPoint endBlock)
  let v ← bd (emit (.phi thenVal thenEnd elseVal elseEnd))
  pure (.done v)

/-- Selecting the compound operator from the character after `=` (expressions.go:188-239).
`none` is `compoundOp == 0`. -/
def compoundOp (c2 : RC) : P (Option Op) :=
  match c2 with
  | .ch c2 =>
    if c2 = '+' then pure (some (.bin .add))
    else if c2 = '-' then pure (some (.bin .sub))
    else if c2 = '*' then pure (some (.bin .mul))
    else if c2 = '/' then pure (some (.bin .sdiv))
    else if c2 = '%' then pure (some (.bin .srem))
    else if c2 = '&' then pure (some (.bin .and))
    else if c2 = '|' then pure (some (.bin .or))
    else if c2 = '<' then do
      match ← lx readChar with
      | .ch c3 =>
        if c3 = '<' then pure (some (.bin .shl))
        else if c3 = '=' then pure (some (.cmp .sle))
        else do
          lx (unreadChar c3)
          pure (some (.cmp .slt))
      | _ => pure (some (.cmp .slt))
    else if c2 = '>' then do
      match ← lx readChar with
      | .ch c3 =>
        if c3 = '>' then pure (some (.bin .ashr))
        else if c3 = '=' then pure (some (.cmp .sge))
        else do
          lx (unreadChar c3)
          pure (some (.cmp .sgt))
      | _ => pure (some (.cmp .sgt))
    else if c2 = '!' then do
      match ← lx readChar with
      | .ch c3 =>
        if c3 = '=' then pure (some (.cmp .ne))
        else do
          lx (unreadChar c3)
          lx (unreadChar c2)
          pure none
      | _ => do
        lx (unreadChar c2)
        pure none
    else do
      lx (unreadChar c2)
      pure none
  | _ => pure none

/-- Code of a (compound) assignment once both sides are known
(expressions.go:169-174, 248-300). -/
def genAssign (o : Option Op) (left : Val) (right : Val) : B Val := do
  match o with
  | some o => do
    let currentVal ← emit (.load left)
    let newVal ← genOp o currentVal right
    let _ ← emit (.store newVal left)
    pure newVal
  | none => do
    let _ ← emit (.store right left)
    pure right

/-- lvalue check, operator, right-hand side and store (expressions.go:183-300). -/
def assignRest (rec : Nat → P Val) (left : LV) (c2 : RC) : P (Iter LV Val) := do
  if !left.2 then fail "left operand of assignment must be an lvalue"
  else do
    let o ← compoundOp c2
    let right ← rec 14
    let v ← bd (genAssign o left.1 right)
    pure (.done v)

/-- Assignment operators (expressions.go:153-301), entered after `=` at level ≥ 14. -/
def assignment (rec : Nat → P Val) (left : LV) : P (Iter LV Val) := do
  let c2 ← lx readChar
  if c2 = .ch '=' then
    let c3 ← lx readChar
    if c3 = .ch '=' then
      if !left.2 then fail "left operand of assignment must be an lvalue"
      else do
        let right ← rec 14
        let v ← bd (genAssign (some (.cmp .eq)) left.1 right)
        pure (.done v)
    else do
      lx (unreadRC c3)
      lx (unreadChar '=')
      assignRest rec left c2
  else assignRest rec left c2

/-- what happens to `=` after the equality test: assignment at level ≥ 14, else no operator
(expressions.go:142-153, 497-501) -/
def afterEq (rec : Nat → P Val) (level : Nat) (left : LV) : P (Iter LV Val) :=
  if 14 ≤ level then assignment rec left else noOp '=' left

/-- A `=` has been read: `==` at level ≥ 7 (expressions.go:103-150), else `afterEq`. -/
def handleEq (rec : Nat → P Val) (level : Nat) (left : LV) : P (Iter LV Val) := do
  if 7 ≤ level then
    match ← lx readChar with
    | .ch c2 =>
      if c2 = '=' then
        match ← lx readChar with
        | .ch c3 =>
          if c3 = '=' then do
            lx (unreadChar c3)
            lx (unreadChar c2)
            afterEq rec level left
          else do
            lx (unreadChar c3)
            binary rec left 6 (.cmp .eq)
        | _ => binary rec left 6 (.cmp .eq)
      else do
        lx (unreadChar c2)
        afterEq rec level left
    | _ => afterEq rec level left
  else afterEq rec level left

/-- `<`, `<=`, `<<` (expressions.go:356-400).  The load of the left operand precedes the read
of the second character. -/
def handleLt (rec : Nat → P Val) (left : LV) : P (Iter LV Val) := do
  let x ← bd (rval left)
  match ← lx readChar with
  | .ch c2 =>
    if c2 = '<' then binary rec (x, false) 4 (.bin .shl)
    else if c2 = '=' then binary rec (x, false) 5 (.cmp .sle)
    else do
      lx (unreadChar c2)
      binary rec (x, false) 5 (.cmp .slt)
  | _ => binary rec (x, false) 5 (.cmp .slt)

/-- `>`, `>=`, `>>` (expressions.go:356-361, 401-437). -/
def handleGt (rec : Nat → P Val) (left : LV) : P (Iter LV Val) := do
  let x ← bd (rval left)
  match ← lx readChar with
  | .ch c2 =>
    if c2 = '>' then binary rec (x, false) 4 (.bin .ashr)
    else if c2 = '=' then binary rec (x, false) 5 (.cmp .sge)
    else do
      lx (unreadChar c2)
      binary rec (x, false) 5 (.cmp .sgt)
  | _ => binary rec (x, false) 5 (.cmp .sgt)

/-- `if c2 != 0 { l.UnreadChar(c2) }` (expressions.go:450-452) -/
def unreadNZ (c2 : Char) : L Unit := if c2 ≠ '\x00' then unreadChar c2 else pure ()

/-- `+` and `-` (expressions.go:441-473).  `ch2, _ := l.ReadChar()` yields 0 on an error; a 0
character is not pushed back. -/
def handleAdd (rec : Nat → P Val) (ch : Char) (left : LV) : P (Iter LV Val) := do
  let c2 ← lx readChar
  match c2 with
  | .ch c2 =>
    if c2 = ch then do
      lx (unreadChar c2)
      lx (unreadChar ch)
      stop left
    else do
      lx (unreadNZ c2)
      binary rec left 3 (if ch = '+' then .bin .add else .bin .sub)
  | _ => binary rec left 3 (if ch = '+' then .bin .add else .bin .sub)

/-- One iteration of the operator loop of `parseExpressionWithLevel` (expressions.go:30-502). -/
def exprBody (rec : Nat → P Val) (level : Nat) (left : LV) : P (Iter LV Val) := do
  lx whitespace
  match ← lx readChar with
  | .eof => stop left
  | .io => M.throw .io
  | .ch ch =>
    if 13 ≤ level ∧ ch = '?' then ternary rec left
    else if ch = '=' then handleEq rec level left
    else if 10 ≤ level ∧ ch = '|' then binary rec left 9 (.bin .or)
    else if 8 ≤ level ∧ ch = '&' then binary rec left 7 (.bin .and)
    else if 7 ≤ level ∧ ch = '!' then do
      match ← lx readChar with
      | .ch c2 =>
        if c2 ≠ '=' then fail ("unknown operator '!" ++ String.singleton c2 ++ "'")
        else binary rec left 6 (.cmp .ne)
      | _ => fail "unknown operator '!'"
    else if 6 ≤ level ∧ ch = '<' then handleLt rec left
    else if 6 ≤ level ∧ ch = '>' then handleGt rec left
    else if 4 ≤ level ∧ (ch = '+' ∨ ch = '-') then handleAdd rec ch left
    else if 3 ≤ level ∧ ch = '*' then binary rec left 2 (.bin .mul)
    else if 3 ≤ level ∧ ch = '/' then binary rec left 2 (.bin .sdiv)
    else if 3 ≤ level ∧ ch = '%' then binary rec left 2 (.bin .srem)
    else noOp ch left

/-- Resolution of an identifier that is not followed by `(`, after `GetAddress` failed
(expressions.go:918-941). -/
def funcValue (name : Name) : P LV := do
  lx whitespace
  let nextCh ← lx readChar
  lx (unreadRC nextCh)
  if nextCh = .ch '=' then fail ("undefined identifier '" ++ String.ofList name ++ "'")
  else do
    let s ← M.get
    match findFuncByName s.c name with
    | some fn => do
      let v ← bd (emit (.ptrtoint fn.val))
      pure (v, false)
    | none => do
      match ← bd (getOrDeclareFunction name) with
      | some fn => do
        let v ← bd (emit (.ptrtoint fn))
        pure (v, false)
      | none => fail ("undefined identifier '" ++ String.ofList name ++ "'")

/-- An identifier that is followed by `(` (expressions.go:892-909). -/
def callee (name : Name) : P LV := do
  let s ← M.get
  match findFuncByName s.c name with
  | some fn => pure (fn.val, false)
  | none =>
    match lookup name s.c.ctx with
    | some g => pure (g, true)
    | none => do
      match ← bd (getOrDeclareFunction name) with
      | none => fail ("cannot declare function '" ++ String.ofList name ++ "'")
      | some fn => pure (fn, false)

/-- The identifier case of `parsePrimary` (expressions.go:873-941). -/
def identExpr : P LV := do
  let name ← lx identifier
  lx whitespace
  let nextCh ← lx readChar
  lx (unreadRC nextCh)
  if nextCh = .ch '(' then callee name
  else do
    match ← bd (getAddress name) with
    | some addr => pure (addr, true)
    | none => funcValue name

/-- A string literal as a value (expressions.go:841-851). -/
def genStr (str : List Char) : B Val := do
  let g ← createStringConstant str
  let gep ← emit (.gepField g.init.ty g.val 0)
  emit (.ptrtoint gep)

/-- `parsePrimary` (expressions.go:817-946). -/
def parsePrimary (rec : Nat → P Val) : P LV := do
  lx whitespace
  match ← lx readChar with
  | .eof => fail "unexpected end of file, expect expression"
  | .io => M.throw .io
  | .ch ch =>
    if ch = '\'' then do
      let val ← lx character
      pure (.const val, false)
    else if ch = '"' then do
      let str ← lx stringLit
      let v ← bd (genStr str)
      pure (v, false)
    else if ch = '(' then do
      let val ← rec 15
      lx (expectChar ')' "expect ')' after expression")
      pure (val, false)
    else if isDigit ch then do
      lx (unreadChar ch)
      let val ← lx number
      pure (.const val, false)
    else if isLetter ch then do
      lx (unreadChar ch)
      identExpr
    else fail ("unexpected character '" ++ String.singleton ch ++ "', expect expression")

/-- One iteration of the argument loop (expressions.go:691-720). -/
def argsBody (rec : Nat → P Val) (args : List Val) : P (Iter (List Val) (List Val)) := do
  let ch ← lx readOrErr
  if ch = ')' then pure (.done args)
  else do
    lx (unreadChar ch)
    let arg ← rec 15
    lx whitespace
    let ch ← lx readOrErr
    if ch = ')' then pure (.done (args ++ [arg]))
    else if ch ≠ ',' then fail ("unexpected character '" ++ String.singleton ch ++ "', expect ')'")
    else pure (.next (args ++ [arg]))

/-- Performing the call (expressions.go:722-765). `fn` is the callee after loading. -/
def genCall (fn : Val) (args : List Val) : B Val :=
  match fn with
  | .func _ variadic nparams =>
    if variadic ∧ nparams = 0 ∧ 1 ≤ args.length then do
      let casted ← emit (.bitcast fn)
      emit (.call casted args)
    else emit (.call fn args)
  | fn => do
    let fnPtr ← emit (.inttofn fn (if 1 ≤ args.length then 1 else 0))
    emit (.call fnPtr args)

/-- postfix `++`/`--`: `o` is add or sub (expressions.go:779-787, 799-807) -/
def genPostfix (o : BinOp) (v : Val) : B Val := do
  let current ← emit (.load v)
  let result ← emit (.bin o current (.const 1))
  let _ ← emit (.store result v)
  pure current

/-- postfix `++` / `--`, `ch` being the first of the two characters
(expressions.go:769-807) -/
def postfixOp (ch : Char) (o : BinOp) (v : LV) : P (Iter LV LV) := do
  match ← lx readChar with
  | .ch c2 =>
    if c2 ≠ ch then do
      lx (unreadChar c2)
      lx (unreadChar ch)
      pure (.done v)
    else if !v.2 then
      fail ("expected lvalue for postfix '" ++ String.ofList [ch, ch] ++ "'")
    else do
      let r ← bd (genPostfix o v.1)
      pure (.next (r, false))
  | _ => do
    lx (unreadChar ch)
    pure (.done v)

/-- One iteration of the loop of `parsePostfix` (expressions.go:634-813). -/
def postfixBody (rec : Nat → P Val) (n : Nat) (v : LV) : P (Iter LV LV) := do
  lx whitespace
  match ← lx readChar with
  | .eof => pure (.done v)
  | .io => M.throw .io
  | .ch ch =>
    if ch = '[' then do
      let base ← bd (rval v)
      let ptr ← bd (emit (.inttoptr base))
      let index ← rec 15
      lx (expectChar ']' "expect ']' after array index")
      let elem ← bd (emit (.gepWord ptr index))
      pure (.next (elem, true))
    else if ch = '(' then do
      let fn ← bd (rval v)
      let args ← loop n (argsBody rec) []
      let r ← bd (genCall fn args)
      pure (.next (r, false))
    else if ch = '+' then postfixOp '+' .add v
    else if ch = '-' then postfixOp '-' .sub v
    else do
      lx (unreadChar ch)
      pure (.done v)

/-- `parsePostfix` (expressions.go:628-814). -/
def parsePostfix (rec : Nat → P Val) (n : Nat) : P LV := do
  let v ← parsePrimary rec
  loop n (postfixBody rec n) v

/-- prefix `++`/`--` on an lvalue (expressions.go:553-557, 588-592) -/
def genPrefix (o : BinOp) (v : Val) : B Unit := do
  let current ← emit (.load v)
  let result ← emit (.bin o current (.const 1))
  let _ ← emit (.store result v)

/-- `!e` (expressions.go:532-538) -/
def genNot (v : LV) : B Val := do
  let x ← rval v
  cmpOp .eq x (.const 0)

/-- `-e` (expressions.go:568-572) -/
def genNeg (v : LV) : B Val := do
  let x ← rval v
  emit (.bin .sub (.const 0) x)

/-- `*e` (expressions.go:600-605) -/
def genDeref (v : LV) : B Val := do
  let x ← rval v
  emit (.inttoptr x)

/-- `parseUnary` (expressions.go:512-625). -/
def parseUnary (rec : Nat → P Val) : Nat → P LV
  | 0 => M.throw .fuel
  | n + 1 => do
    lx whitespace
    match ← lx readChar with
    | .eof => fail "unexpected end of file, expect expression"
    | .io => M.throw .io
    | .ch ch =>
      if ch = '!' then do
        let v ← parseUnary rec n
        let r ← bd (genNot v)
        pure (r, false)
      else if ch = '-' then do
        let c2 ← lx readChar
        if c2 = .ch '-' then do
          let v ← parseUnary rec n
          if !v.2 then fail "expected lvalue after '--'"
          else do
            bd (genPrefix .sub v.1)
            pure (v.1, true)
        else do
          lx (unreadRC c2)
          let v ← parseUnary rec n
          let r ← bd (genNeg v)
          pure (r, false)
      else if ch = '+' then do
        match ← lx readChar with
        | .ch c2 =>
          if c2 ≠ '+' then fail ("unexpected character '" ++ String.singleton c2 ++ "', expect '+'")
          else do
            let v ← parseUnary rec n
            if !v.2 then fail "expected lvalue after '++'"
            else do
              bd (genPrefix .add v.1)
              pure (v.1, true)
        | _ => fail "unexpected character, expect '+'"
      else if ch = '*' then do
        let v ← parseUnary rec n
        let r ← bd (genDeref v)
        pure (r, true)
      else if ch = '&' then do
        let v ← parseUnary rec n
        if !v.2 then fail "expected lvalue after '&'"
        else do
          let r ← bd (emit (.ptrtoint v.1))
          pure (r, false)
      else do
        lx (unreadChar ch)
        parsePostfix rec n

/-- `parseExpressionWithLevel` (expressions.go:22-509), with fuel. -/
def parseExpr : Nat → Nat → P Val
  | 0, _ => M.throw .fuel
  | n + 1, level => do
    let left ← parseUnary (parseExpr n) n
    loop n (exprBody (parseExpr n) level) left

/-- `parseExpression` (expressions.go:17-19). -/
def parseExpression (n : Nat) : P Val := parseExpr n 15

end Blang
