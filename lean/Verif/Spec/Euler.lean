import Mathlib.Analysis.SpecialFunctions.Exp
/-
C75: what `examples/e-2.b` says it prints.
-/
namespace Blang.Spec

/-- The decimals of a positive number: `decimal x j` is the digit at the place 10^-(j+1). -/
noncomputable def decimal (x : ℝ) (j : ℕ) : ℕ := ⌊10 ^ (j + 1) * x⌋₊ % 10

/-- The first `n` decimals of `x` in groups of five, fifty to the line, and two newlines at the end. -/
noncomputable def decimalLines (x : ℝ) (n : ℕ) : List Char :=
  ((List.range n).flatMap fun j => Nat.digitChar (decimal x j) ::
    if (j + 1) % 50 = 0 then ['\n'] else if (j + 1) % 5 = 0 then [' '] else []) ++ ['\n', '\n']

end Blang.Spec
