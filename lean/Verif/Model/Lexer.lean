import Verif.Model.Monad
/-
Model of `lexer.go`.

Characters.  `runeReaderAdapter.ReadRune` (lexer.go:30-40) delivers one *byte* of
the file as one rune, so runes are the numbers 0..255; we represent them by `Char`
(code points U+0000..U+00FF, the Latin-1 reading of the byte).

Reader state.  `Lexer` (lexer.go:10-14) has a reader and a pushback buffer.  The
only operations are `ReadChar` and `UnreadChar`; together they behave as one
list of pending characters (pushback in front of the unread file).  This file uses
that single list; `Verif/Model/LexerBuf.lean` models the two-part state literally
and `Verif/Props/Lexer.lean` proves that it is equivalent (property C07).
-/
namespace Blang

/-- How the underlying file ends: with end-of-file or with a (persistent) read error. (lexer.go:30-53) -/
inductive Tail where
  | eof
  | io
deriving DecidableEq, Repr

/-- Lexer state (lexer.go:10-14): pending characters and what follows them. -/
structure Lex where
  chars : List Char
  tail : Tail
deriving Repr

/-- Result of `ReadChar`: a character, `io.EOF`, or another error. (lexer.go:43-53) -/
inductive RC where
  | ch (c : Char)
  | eof
  | io
deriving DecidableEq, Repr

/-- methods of `Lexer`, lexer.go:43-289 -/
abbrev L := M Lex

/-- `ReadChar` (lexer.go:43-53). The pair (rune, error) becomes an `RC`. -/
def readChar : L RC := fun l =>
  match l.chars with
  | c :: r => .ok (.ch c) { l with chars := r }
  | [] => match l.tail with
    | .eof => .ok .eof l
    | .io => .ok .io l

/-- `UnreadChar` (lexer.go:56-58). -/
def unreadChar (c : Char) : L Unit := fun l => .ok () { l with chars := c :: l.chars }

/-- `if err == nil { l.UnreadChar(c) }` for the result of an earlier `ReadChar`.
(lexer.go:56-58 as called in expressions.go:364-436, 444-461) -/
def unreadRC (r : RC) : L Unit :=
  match r with
  | .ch c => unreadChar c
  | _ => pure ()

/-- The common pattern `c, err := l.ReadChar(); if err != nil { return err }`.
(lexer.go:88-96, expressions.go:33-48, parser_stmt.go:24-27 and others) -/
def readOrErr : L Char := do
  match ← readChar with
  | .ch c => pure c
  | .eof => M.throw .eof
  | .io => M.throw .io

/-- `unicode.IsSpace` on runes ≤ 0xFF. (used at lexer.go:97) -/
def isSpace (c : Char) : Bool :=
  c == '\t' || c == '\n' || c == '\x0b' || c == '\x0c' || c == '\r' || c == ' ' ||
  c == '\u0085' || c == '\u00a0'

/-- `unicode.IsDigit` on runes ≤ 0xFF. (used at lexer.go:145, 171, expressions.go:864, parser_stmt.go:407, 583) -/
def isDigit (c : Char) : Bool := '0' ≤ c && c ≤ '9'

/-- `unicode.IsLetter` on runes ≤ 0xFF.
(used at lexer.go:145, expressions.go:873, parser_decls.go:204, parser_stmt.go:53, 407) -/
def isLetter (c : Char) : Bool :=
  ('a' ≤ c && c ≤ 'z') || ('A' ≤ c && c ≤ 'Z') || c == '\u00aa' || c == '\u00b5' || c == '\u00ba' ||
  ('\u00c0' ≤ c && c ≤ '\u00d6') || ('\u00d8' ≤ c && c ≤ '\u00f6') || ('\u00f8' ≤ c && c ≤ '\u00ff')

/-- the character test of `Identifier` (lexer.go:145) -/
def isIdent (c : Char) : Bool := isLetter c || isDigit c || c == '_'

/-- Runs a loop inside the lexer with a fuel derived from the pending input: each
iteration of every lexer loop consumes at least one character (or leaves the loop).
(the `for` loops of lexer.go:62, 88, 136, 171, 250) -/
def lexLoop {β ρ : Type} (body : β → L (Iter β ρ)) (b : β) : L ρ :=
  fun l => loop (l.chars.length + 1) body b l

/-- One iteration of the loop of `Comment` (lexer.go:62-83). -/
def commentBody (_ : Unit) : L (Iter Unit Unit) := do
  match ← readChar with
  | .eof => M.throw (.msg "unclosed comment, expect '*/' to close the comment")
  | .io => M.throw .io
  | .ch c =>
    if c = '*' then
      match ← readChar with
      | .io => M.throw .io
      | .eof => pure (.next ())
      | .ch c2 =>
        if c2 = '/' then pure (.done ())
        else do
          unreadChar c2
          pure (.next ())
    else pure (.next ())

/-- `Comment` (lexer.go:61-84). -/
def comment : L Unit := lexLoop commentBody ()

/-- One iteration of the loop of `Whitespace` (lexer.go:88-125). -/
def whitespaceBody (_ : Unit) : L (Iter Unit Unit) := do
  match ← readChar with
  | .eof => pure (.done ())
  | .io => M.throw .io
  | .ch c =>
    if isSpace c then pure (.next ())
    else if c = '/' then
      match ← readChar with
      | .eof => do
        unreadChar c
        pure (.done ())
      | .io => M.throw .io
      | .ch c2 =>
        if c2 = '*' then do
          comment
          pure (.next ())
        else do
          unreadChar c2
          unreadChar c
          pure (.done ())
    else do
      unreadChar c
      pure (.done ())

/-- `Whitespace` (lexer.go:87-126). -/
def whitespace : L Unit := lexLoop whitespaceBody ()

/-- Names.  A Go identifier string is `string(result)` for a slice of runes; the
conversion is injective, we keep the rune list. -/
abbrev Name := List Char

/-- One iteration of the loop of `Identifier` (lexer.go:136-151). -/
def identifierBody (result : Name) : L (Iter Name Name) := do
  match ← readChar with
  | .eof => pure (.done result)
  | .io => M.throw .io
  | .ch c =>
    if !isLetter c && !isDigit c && c ≠ '_' then do
      unreadChar c
      pure (.done result)
    else pure (.next (result ++ [c]))

/-- `Identifier` (lexer.go:129-152). -/
def identifier : L Name := do
  whitespace
  lexLoop identifierBody []

/-- A B word: Go `int64`, LLVM `i64`. -/
abbrev W := BitVec 64

/-- `int64(c - '0')` (lexer.go:172); only used for digits. -/
def digitVal (c : Char) : W := BitVec.ofNat 64 (c.toNat - '0'.toNat)

/-- One iteration of the loop of `Number` (lexer.go:171-180): loop variables are
`num` and the current character `c`.  When the loop condition fails, the code
after the loop (lexer.go:182-183) pushes `c` back. -/
def numberBody (base : W) (st : W × Char) : L (Iter (W × Char) W) := do
  let (num, c) := st
  if isDigit c then
    let num := num * base + digitVal c
    match ← readChar with
    | .eof => pure (.done num)
    | .io => M.throw .io
    | .ch c' => pure (.next (num, c'))
  else do
    unreadChar c
    pure (.done num)

/-- The loop of `Number` from its first character `c` (lexer.go:165-183): base 8 if the
first character is `0`, else base 10. -/
def numberLoop (c : Char) : L W :=
  fun l => loop (l.chars.length + 2) (numberBody (if c = '0' then 8 else 10)) (0, c) l

/-- `Number` (lexer.go:155-184). -/
def number : L W := do
  whitespace
  let c ← readOrErr
  numberLoop c

/-- `Escape` (lexer.go:187-211). -/
def escape : L Char := do
  let c ← readOrErr
  if c = '0' || c = 'e' then pure '\x00'
  else if c = '*' || c = '\'' || c = '"' then pure c
  else if c = '(' then pure '{'
  else if c = ')' then pure '}'
  else if c = 't' then pure '\t'
  else if c = 'n' then pure '\n'
  else if c = 'r' then pure '\r'
  else M.throw (.msg ("undefined escape character '*" ++ String.singleton c ++ "'"))

/-- A character of a character constant or string (lexer.go:226-232, 261-268): `*` starts an
escape. -/
def readItem (c : Char) : L Char := if c = '*' then escape else pure c

/-- `CompileOptions.WordSize` (options.go:41): always 8. -/
def wordSize : Nat := 8

/-- The loop of `Character` (lexer.go:217-236) with `k` iterations left; after the
loop, lexer.go:238-243. -/
def characterLoop : Nat → W → L W
  | 0, value => do
    match ← readChar with
    | .ch c =>
      if c ≠ '\'' then M.throw (.msg "unclosed char literal") else pure value
    | _ => M.throw (.msg "unclosed char literal")
  | k + 1, value => do
    let c ← readOrErr
    if c = '\'' then pure value
    else do
      let c ← readItem c
      characterLoop k ((value <<< 8) ||| BitVec.ofNat 64 (c.toNat % 256))

/-- `Character` (lexer.go:214-244); the opening quote has been read. -/
def character : L W := characterLoop wordSize 0

/-- One iteration of the loop of `String` (lexer.go:250-271). -/
def stringBody (result : List Char) : L (Iter (List Char) (List Char)) := do
  match ← readChar with
  | .eof => M.throw (.msg "unterminated string literal")
  | .io => M.throw .io
  | .ch c =>
    if c = '"' then pure (.done result)
    else do
      let c ← readItem c
      pure (.next (result ++ [c]))

/-- `String` (lexer.go:247-272); the opening quote has been read. The result is the
slice of runes; `string(result)` is taken where the string is used. -/
def stringLit : L (List Char) := lexLoop stringBody []

/-- `ExpectChar` (lexer.go:275-289). -/
def expectChar (expected : Char) (msg : String) : L Unit := do
  match ← readChar with
  | .eof => M.throw (.msg msg)
  | .io => M.throw .io
  | .ch c =>
    if c ≠ expected then M.throw (.msg (msg ++ ", got '" ++ String.singleton c ++ "'"))
    else pure ()

end Blang
