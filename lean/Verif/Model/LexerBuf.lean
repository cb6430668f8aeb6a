import Verif.Model.Lexer
/-
Literal model of the two-part lexer state of lexer.go:10-58: a reader and a
pushback buffer (a Go slice used as a stack, top at the end).
-/
namespace Blang

/-- `Lexer` (lexer.go:10-14): `file` is what the reader has not delivered yet. -/
structure LexBuf where
  file : List Char
  tail : Tail
  buffer : List Char

/-- `NewLexer` (lexer.go:17-23): the buffer is empty. -/
def newLexer (file : List Char) (tail : Tail) : LexBuf := ⟨file, tail, []⟩

/-- `runeReaderAdapter.ReadRune` (lexer.go:30-40): one byte at a time.  A reader
that returns `n == 0` without error counts as end of file (lexer.go:36-38). -/
def readRune (l : LexBuf) : RC × LexBuf :=
  match l.file with
  | c :: r => (.ch c, { l with file := r })
  | [] => match l.tail with
    | .eof => (.eof, l)
    | .io => (.io, l)

/-- `ReadChar` (lexer.go:43-53): `buffer[len-1]`, then `buffer[:len-1]`. -/
def readCharBuf (l : LexBuf) : RC × LexBuf :=
  match l.buffer.getLast? with
  | some c => (.ch c, { l with buffer := l.buffer.dropLast })
  | none => readRune l

/-- `UnreadChar` (lexer.go:56-58): `append(buffer, c)`. -/
def unreadCharBuf (l : LexBuf) (c : Char) : LexBuf := { l with buffer := l.buffer ++ [c] }

end Blang
