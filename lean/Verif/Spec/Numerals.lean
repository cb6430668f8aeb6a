import Verif.Spec.Lexical
/-
Numerals and packed characters as the manual describes them, independent of the runtime library.
-/
namespace Blang.Spec

/-- `ds` is the numeral of `n` in base `b` (2 ≤ b ≤ 10) without superfluous leading zeros. -/
def Numeral (b n : Nat) (ds : List Char) : Prop :=
  (∀ c ∈ ds, 48 ≤ c.toNat ∧ c.toNat < 48 + b) ∧ digitsValue b ds = n ∧ ds ≠ [] ∧
    (ds.head? = some '0' → ds = ['0'])

/-- `ds` is the base-`b` numeral of the integer `n`: a minus sign exactly for negative numbers. -/
def IntNumeral (b : Nat) (n : Int) (ds : List Char) : Prop :=
  ∃ m, Numeral b n.natAbs m ∧ ds = if n < 0 then '-' :: m else m

/-- ASCII codes -/
def codes (s : List Char) : List (BitVec 8) := s.map fun c => BitVec.ofNat 8 c.toNat

/-- Big-endian value of bytes. -/
def beValue : List (BitVec 8) → Nat
  | [] => 0
  | b :: bs => b.toNat * 256 ^ bs.length + beValue bs

/-- `bs` are the characters packed in `w`: its big-endian bytes without leading NULs (a single NUL
for 0). -/
def PackedChars (w : BitVec 64) (bs : List (BitVec 8)) : Prop :=
  beValue bs = w.toNat ∧ bs ≠ [] ∧ (bs.head? = some 0 → bs = [0])

/-- a NUL-terminated string in memory -/
def StrAt (mem : BitVec 64 → BitVec 8) (a : BitVec 64) (bs : List (BitVec 8)) : Prop :=
  (∀ i (h : i < bs.length), mem (a + BitVec.ofNat 64 i) = bs[i] ∧ bs[i] ≠ 0) ∧
  mem (a + BitVec.ofNat 64 bs.length) = 0

/-- What `printf` prints for a format and its arguments.  `str x bs`: the string at address `x` is
`bs`. -/
inductive Expand (str : BitVec 64 → List (BitVec 8) → Prop) :
    List (BitVec 8) → List (BitVec 64) → List (BitVec 8) → Prop where
  | done {as} : Expand str [] as []
  | plain {c f as o} : c ≠ 37#8 → Expand str f as o → Expand str (c :: f) as (c :: o)
  | decimal {x ds f as o} : IntNumeral 10 (BitVec.toInt x) ds → Expand str f as o →
      Expand str (37#8 :: 100#8 :: f) (x :: as) (codes ds ++ o)
  | octal {x ds f as o} : IntNumeral 8 (BitVec.toInt x) ds → Expand str f as o →
      Expand str (37#8 :: 111#8 :: f) (x :: as) (codes ds ++ o)
  | char {x bs f as o} : PackedChars x bs → Expand str f as o →
      Expand str (37#8 :: 99#8 :: f) (x :: as) (bs ++ o)
  | string {x bs f as o} : str x bs → Expand str f as o →
      Expand str (37#8 :: 115#8 :: f) (x :: as) (bs ++ o)
  | percent {f as o} : Expand str f as o → Expand str (37#8 :: 37#8 :: f) as (37#8 :: o)
  | unknown {f as o} : (∀ c ∈ f.head?, c ∉ [100#8, 111#8, 99#8, 115#8, 37#8]) → Expand str f as o →
      Expand str (37#8 :: f) as (37#8 :: o)

/-- How a character of a string or format is printed: as it is, except that where plain `char` is signed (`sc`)
the bytes from 128 on are negative numbers, of which all eight bytes are printed. -/
def charOut (sc : Bool) (c : BitVec 8) : List (BitVec 8) :=
  if sc = true ∧ 128 ≤ c.toNat then List.replicate 7 255#8 ++ [c] else [c]

/-- What `printf` really prints, in all cases: as `Expand`, except for characters from 128 on and for `%d` of the
smallest number. -/
inductive Printed (sc : Bool) (str : BitVec 64 → List (BitVec 8) → Prop) :
    List (BitVec 8) → List (BitVec 64) → List (BitVec 8) → Prop where
  | done {as} : Printed sc str [] as []
  | plain {c f as o} : c ≠ 37#8 → Printed sc str f as o → Printed sc str (c :: f) as (charOut sc c ++ o)
  | decimal {x ds f as o} : x ≠ BitVec.intMin 64 → IntNumeral 10 (BitVec.toInt x) ds → Printed sc str f as o →
      Printed sc str (37#8 :: 100#8 :: f) (x :: as) (codes ds ++ o)
  | smallest {f as o} : Printed sc str f as o →
      Printed sc str (37#8 :: 100#8 :: f) (BitVec.intMin 64 :: as) (codes ("--9223372036854775808".toList) ++ o)
  | octal {x ds f as o} : IntNumeral 8 (BitVec.toInt x) ds → Printed sc str f as o →
      Printed sc str (37#8 :: 111#8 :: f) (x :: as) (codes ds ++ o)
  | char {x bs f as o} : PackedChars x bs → Printed sc str f as o →
      Printed sc str (37#8 :: 99#8 :: f) (x :: as) (bs ++ o)
  | string {x bs f as o} : str x bs → Printed sc str f as o →
      Printed sc str (37#8 :: 115#8 :: f) (x :: as) (bs.flatMap (charOut sc) ++ o)
  | percent {f as o} : Printed sc str f as o → Printed sc str (37#8 :: 37#8 :: f) as (37#8 :: o)
  | unknown {f as o} : (∀ c ∈ f.head?, c ∉ [100#8, 111#8, 99#8, 115#8, 37#8]) → Printed sc str f as o →
      Printed sc str (37#8 :: f) as (37#8 :: o)

end Blang.Spec
