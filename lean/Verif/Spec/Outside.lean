import Verif.Spec.Comments
/-
Places outside comments, strings and character constants.
-/
namespace Blang.Spec

/-- Behind the text one is in the program, not inside a comment, a string or a character constant. -/
def Outside (text : List Char) : Prop := ∃ s, Mode.run (.code []) text = .code s

/-- The characters that must not stand directly behind `else`: the compiler loses them, and they begin a literal, a comment or a symbol of several
characters. -/
def elseEaten : List Char := ['"', '\'', '/', '+', '-', '<', '>', '=', '!']

/-- In the text no `else` is directly followed by one of these characters. -/
def KeepsElse (text : List Char) : Prop := ∀ c ∈ elseEaten, ¬ ['e', 'l', 's', 'e', c] <:+: text

end Blang.Spec
