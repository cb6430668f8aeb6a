/-
Lexical structure of B source text, stated without reference to the lexer.
-/
namespace Blang.Spec

/-- Blank characters of Latin-1: TAB, LF, VT, FF, CR, space, NEL, no-break space. -/
def Blank (c : Char) : Prop := c.toNat ∈ [9, 10, 11, 12, 13, 32, 0x85, 0xA0]

instance (c : Char) : Decidable (Blank c) := inferInstanceAs (Decidable (_ ∈ _))

/-- `s` contains no `*/`. -/
def NoClose (s : List Char) : Prop := ¬ ['*', '/'] <:+: s

/-- Layout: any sequence of blanks and complete comments. -/
inductive Layout : List Char → Prop where
  | nil : Layout []
  | blank {c : Char} {s : List Char} : Blank c → Layout s → Layout (c :: s)
  | comment {body s : List Char} : NoClose body → Layout s →
      Layout ('/' :: '*' :: body ++ '*' :: '/' :: s)

/-- `s` does not begin with layout: its first character is not blank, and it does not begin with `/*`. -/
def StartsSolid : List Char → Prop
  | [] => True
  | ['/'] => True
  | '/' :: c :: _ => c ≠ '*'
  | c :: _ => ¬ Blank c

/-- Decimal digits. -/
def Digit (c : Char) : Prop := 48 ≤ c.toNat ∧ c.toNat ≤ 57

instance (c : Char) : Decidable (Digit c) := inferInstanceAs (Decidable (_ ∧ _))

/-- Letters of Latin-1 (Unicode general category L): A-Z, a-z, ª, µ, º, À-Ö, Ø-ö, ø-ÿ. -/
def Letter (c : Char) : Prop :=
  (65 ≤ c.toNat ∧ c.toNat ≤ 90) ∨ (97 ≤ c.toNat ∧ c.toNat ≤ 122) ∨
  c.toNat = 0xAA ∨ c.toNat = 0xB5 ∨ c.toNat = 0xBA ∨
  (0xC0 ≤ c.toNat ∧ c.toNat ≤ 0xFF ∧ c.toNat ≠ 0xD7 ∧ c.toNat ≠ 0xF7)

instance (c : Char) : Decidable (Letter c) := inferInstanceAs (Decidable (_ ∨ _))

/-- Characters of identifiers. -/
def IdentChar (c : Char) : Prop := Letter c ∨ Digit c ∨ c = '_'

instance (c : Char) : Decidable (IdentChar c) := inferInstanceAs (Decidable (_ ∨ _))

/-- `s` does not begin with a character satisfying `p`. -/
def NotStarting (p : Char → Prop) : List Char → Prop
  | [] => True
  | c :: _ => ¬ p c

/-- Value of a digit string in base `b`: `dₙ + b·dₙ₋₁ + ...`. -/
def digitsValue (b : Nat) : List Char → Nat
  | [] => 0
  | d :: ds => (d.toNat - 48) * b ^ ds.length + digitsValue b ds

/-- Value of an integer literal: octal if it begins with `0`. -/
def literalValue (ds : List Char) : Nat :=
  if ds.head? = some '0' then digitsValue 8 ds else digitsValue 10 ds

/-- The escape sequences `*x` of B and the character each stands for. -/
def escapes : List (Char × Nat) :=
  [('0', 0), ('e', 0), ('*', 42), ('\'', 39), ('"', 34), ('(', 123), (')', 125),
   ('t', 9), ('n', 10), ('r', 13)]

/-- One character of a character constant or string with delimiter `q`: text and value. -/
inductive Item (q : Char) : List Char → Nat → Prop where
  | plain {c : Char} : c ≠ q → c ≠ '*' → Item q [c] c.toNat
  | esc {x : Char} {v : Nat} : (x, v) ∈ escapes → Item q ['*', x] v

/-- A sequence of such characters: text and values. -/
inductive Items (q : Char) : List Char → List Nat → Prop where
  | nil : Items q [] []
  | cons {t ts : List Char} {v : Nat} {vs : List Nat} :
      Item q t v → Items q ts vs → Items q (t ++ ts) (v :: vs)

/-- Big-endian packing of characters, 8 bits each. -/
def pack : List Nat → Nat
  | [] => 0
  | c :: cs => c * 256 ^ cs.length + pack cs

end Blang.Spec
