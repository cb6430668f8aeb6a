import Verif.Spec.Lexical
import Verif.Spec.Syntax
/-
Tokens of B, and how a text is divided into tokens.

A text is read as a sequence of tokens separated by layout; each symbol is the longest one in the
table that fits, each word and number the longest run of characters.

`quirks = true` adds three readings that the documented language does not have but the compiler does
(see `Lexes.headQuirk`, `Lexes.elsQuirk`, `Lexes.symNul`); `quirks = false` is the documented lexical structure.
-/
namespace Blang.Spec

inductive Tok where
  /-- digits of an integer literal -/
  | num (ds : List Char)
  /-- character constant: the values of its characters -/
  | chr (vs : List Nat)
  /-- string literal: the values of its characters -/
  | str (vs : List Nat)
  /-- identifier or keyword -/
  | word (w : List Char)
  /-- the name that a declaration of the program defines -/
  | defn (w : List Char)
  /-- the word at the beginning of an expression statement -/
  | head (w : List Char)
  /-- the keyword `else` -/
  | els
  /-- operators and punctuation -/
  | sym (s : List Char)

/-- All symbols. -/
def symbols : List (List Char) :=
  [['('], [')'], ['['], [']'], ['{'], ['}'], [','], [';'], [':'], ['?'],
   ['+', '+'], ['-', '-'], ['!'], ['!', '='],
   ['*'], ['/'], ['%'], ['+'], ['-'], ['&'], ['|'],
   ['<'], ['<', '<'], ['<', '='], ['>'], ['>', '>'], ['>', '='], ['=', '='],
   ['='], ['=', '='], ['=', '=', '='], ['=', '+'], ['=', '-'], ['=', '*'], ['=', '/'], ['=', '%'],
   ['=', '&'], ['=', '|'], ['=', '<'], ['=', '<', '<'], ['=', '<', '='], ['=', '>'], ['=', '>', '>'],
   ['=', '>', '='], ['=', '!', '=']]

/-- What can follow `s` so that a longer symbol, or the beginning of a comment, results. -/
def extensions (s : List Char) : List (List Char) :=
  (['/', '*'] :: symbols).filterMap fun t => if s.isPrefixOf t && t != s then some (t.drop s.length) else none

/-- `s` is the longest symbol at the beginning of `s ++ rest`. -/
def MaxMunch (s rest : List Char) : Prop := ∀ x ∈ extensions s, ¬ x <+: rest

/-- The words with a meaning at the beginning of a statement. -/
def keywords : List (List Char) :=
  ["return".toList, "auto".toList, "extrn".toList, "if".toList, "while".toList, "switch".toList,
   "case".toList, "goto".toList]

/-- the first character is a letter -/
def StartsLetter : List Char → Prop
  | [] => False
  | c :: _ => Letter c

/-- bytes of the UTF-8 encoding of a character below U+0800, as characters -/
def utf8Bytes (c : Char) : List Char :=
  if c.toNat < 128 then [c] else [Char.ofNat (192 + c.toNat / 64 % 32), Char.ofNat (128 + c.toNat % 64)]

/-- `Lexes quirks inp t rest`: `inp` begins with token `t` and `rest` is what follows. -/
inductive Lexes (quirks : Bool) : List Char → Tok → List Char → Prop where
  | num {ds rest : List Char} : ds ≠ [] → (∀ c ∈ ds, Digit c) → NotStarting Digit rest →
      Lexes quirks (ds ++ rest) (.num ds) rest
  | chr {t rest : List Char} {vs : List Nat} : Items '\'' t vs → vs.length ≤ 8 →
      Lexes quirks ('\'' :: t ++ '\'' :: rest) (.chr vs) rest
  | str {t rest : List Char} {vs : List Nat} : Items '"' t vs →
      Lexes quirks ('"' :: t ++ '"' :: rest) (.str vs) rest
  | word {w rest : List Char} : w ≠ [] → (∀ c ∈ w, IdentChar c) → NotStarting IdentChar rest →
      Lexes quirks (w ++ rest) (.word w) rest
  | defn {w rest : List Char} : w ≠ [] → (∀ c ∈ w, IdentChar c) → NotStarting IdentChar rest →
      Lexes quirks (w ++ rest) (.defn w) rest
  /-- an expression statement begins with a word that is no keyword -/
  | head {w rest : List Char} : StartsLetter w → (∀ c ∈ w, IdentChar c) →
      NotStarting IdentChar rest → w ∉ keywords → Lexes quirks (w ++ rest) (.head w) rest
  /-- Deviation: in this position the layout after the word is lost (so `a b` reads as `ab`), and
  the characters of the word are replaced by the bytes of their UTF-8 encoding. -/
  | headQuirk {w lay r w' rest : List Char} : quirks = true → StartsLetter w → (∀ c ∈ w, IdentChar c) →
      NotStarting IdentChar (lay ++ r) → w ∉ keywords → Layout lay →
      w.flatMap utf8Bytes ++ r = w' ++ rest →
      w' ≠ [] → (∀ c ∈ w', IdentChar c) → NotStarting IdentChar rest →
      Lexes quirks (w ++ (lay ++ r)) (.head w') rest
  /-- `else` is followed by a blank or the end of the text -/
  | els {c : Char} {rest : List Char} : Blank c → Lexes quirks ('e' :: 'l' :: 's' :: 'e' :: c :: rest) .els rest
  | elsEnd : Lexes quirks ['e', 'l', 's', 'e'] .els []
  /-- Deviation: any character after `else` other than a letter or digit is swallowed (so the brace
  of `else{` is lost). -/
  | elsQuirk {c : Char} {rest : List Char} : quirks = true → ¬ Letter c → ¬ Digit c →
      Lexes quirks ('e' :: 'l' :: 's' :: 'e' :: c :: rest) .els rest
  | sym {s rest : List Char} : s ∈ symbols → MaxMunch s rest → Lexes quirks (s ++ rest) (.sym s) rest
  /-- Deviation: a NUL character directly after `+` or `-` is swallowed. -/
  | symNul {s rest : List Char} : quirks = true → s = ['+'] ∨ s = ['-'] →
      Lexes quirks (s ++ '\x00' :: rest) (.sym s) rest

/-- `TokSeq quirks inp ts rest`: `inp` is the tokens `ts`, with layout before, between and possibly
after them, followed by `rest`. -/
inductive TokSeq (quirks : Bool) : List Char → List Tok → List Char → Prop where
  | nil {lay rest : List Char} : Layout lay → TokSeq quirks (lay ++ rest) [] rest
  | cons {lay inp mid rest : List Char} {t : Tok} {ts : List Tok} : Layout lay →
      Lexes quirks inp t mid → TokSeq quirks mid ts rest → TokSeq quirks (lay ++ inp) (t :: ts) rest

end Blang.Spec
