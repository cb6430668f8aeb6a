import Verif.Spec.BSem
import Verif.Spec.Numerals
/-
What the example programs of the repository are to print (C74).
-/
namespace Blang.Spec

/-- the Fibonacci numbers 0, 1, 1, 2, 3, 5, ... -/
def fibo : Nat → Nat
  | 0 => 0
  | 1 => 1
  | n + 2 => fibo n + fibo (n + 1)

/-- what FizzBuzz prints for the number `i` -/
def FizzBuzz (i : Nat) (line : List Char) : Prop :=
  if i % 15 = 0 then line = "FizzBuzz".toList
  else if i % 3 = 0 then line = "Fizz".toList
  else if i % 5 = 0 then line = "Buzz".toList
  else Numeral 10 i line

end Blang.Spec
