import Verif.Spec.Tokens
/-
Where comments begin and end in a text, as a finite automaton that looks at one character at a time.
-/
namespace Blang.Spec

/-- What the text read so far ends in. -/
inductive Mode where
  /-- program text; the last characters are the symbol `s` (or none) -/
  | code (s : List Char)
  /-- a comment; `star`: the last character is a `*` -/
  | comment (star : Bool)
  /-- a string or character constant with delimiter `q`; `esc`: a `*` escapes the next character -/
  | quoted (q : Char) (esc : Bool)
deriving DecidableEq

/-- the first character of a token -/
def Mode.start (c : Char) : Mode :=
  if c = '"' ∨ c = '\'' then .quoted c false else if [c] ∈ symbols then .code [c] else .code []

def Mode.next : Mode → Char → Mode
  | .code s, c =>
    if s ++ [c] = ['/', '*'] then .comment false
    else if s ++ [c] ∈ symbols ∧ s ≠ [] then .code (s ++ [c])
    else .start c
  | .comment star, c => if star ∧ c = '/' then .code [] else .comment (c = '*')
  | .quoted q true, _ => .quoted q false
  | .quoted q false, c => if c = q then .code [] else .quoted q (c = '*')

def Mode.run (m : Mode) (text : List Char) : Mode := text.foldl Mode.next m

/-- The text ends inside a comment. -/
def EndsInComment (text : List Char) : Prop := ∃ star, Mode.run (.code []) text = .comment star

end Blang.Spec
