import Verif.Spec.Comments
/-
The character that is lost behind `else`.
-/
namespace Blang.Spec

/-- The second text is the first one with some of the characters that stand directly behind an `else` replaced by a blank, none of them a letter
or digit. -/
inductive BlankElse : List Char → List Char → Prop where
  | nil : BlankElse [] []
  | keep {c : Char} {a b : List Char} : BlankElse a b → BlankElse (c :: a) (c :: b)
  | blank {c : Char} {a b : List Char} : ¬ Letter c → ¬ Digit c → BlankElse a b →
      BlankElse ('e' :: 'l' :: 's' :: 'e' :: c :: a) ('e' :: 'l' :: 's' :: 'e' :: ' ' :: b)

end Blang.Spec
