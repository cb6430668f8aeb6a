import Verif.Spec.Euler
import Verif.Proofs.Spigot
import Mathlib.Analysis.SpecialFunctions.Exponential
import Mathlib.Algebra.Order.Floor.Semifield
/-
C75: the decimals of e - 2.
-/
namespace Blang
open Spec Spigot
open scoped Nat
open Finset (range)

theorem weight_fact (n : ℕ) : ∀ i, i ≤ n + 1 → weight n i * (n + 1 - i)! = (n + 1)!
  | 0, _ => by simp [weight]
  | i + 1, h => by
    have ih := weight_fact n i (by omega)
    rw [weight, Nat.mul_assoc]
    have e : n + 1 - i = (n + 1 - (i + 1)) + 1 := by omega
    rw [e] at ih
    rw [Nat.factorial_succ] at ih
    rw [e]; exact ih

theorem weight_all (n : ℕ) : weight n n = (n + 1)! := by
  have := weight_fact n n (by omega)
  simpa using this

theorem value_sum (n : ℕ) : ∀ i, i ≤ n → (value n (fun _ => 1) i : ℝ) = (n + 1)! * ∑ k ∈ range i, (1 : ℝ) / ((n + 1 - k)! : ℝ)
  | 0, _ => by simp [value]
  | i + 1, h => by
    have ih := value_sum n i (by omega)
    have hw := weight_fact n i (by omega)
    rw [value, Finset.sum_range_succ, mul_add, ← ih]
    push_cast
    have hne : ((n + 1 - i)! : ℝ) ≠ 0 := by positivity
    have : (weight n i : ℝ) * ((n + 1 - i)! : ℝ) = ((n + 1)! : ℝ) := by exact_mod_cast hw
    rw [← this]
    field_simp

theorem value_all (n : ℕ) : (value n (fun _ => 1) n : ℝ) = (n + 1)! * (∑ k ∈ range (n + 2), (1 : ℝ) / (k ! : ℝ) - 2) := by
  rw [value_sum n n (Nat.le_refl _)]
  congr 1
  rw [Finset.sum_range_succ', Finset.sum_range_succ']
  have : ∑ k ∈ range n, (1 : ℝ) / ((n + 1 - k)! : ℝ) = ∑ k ∈ range n, (1 : ℝ) / ((k + 1 + 1)! : ℝ) := by
    rw [← Finset.sum_range_reflect]
    refine Finset.sum_congr rfl fun k hk => ?_
    rw [Finset.mem_range] at hk
    congr 3
    omega
  rw [this]
  norm_num
  ring

theorem exp_between (n : ℕ) : (value n (fun _ => 1) n : ℝ) ≤ (n + 1)! * (Real.exp 1 - 2) ∧
    ((n + 1)! : ℝ) * (Real.exp 1 - 2) ≤ value n (fun _ => 1) n + 1 := by
  rw [value_all]
  have h1 := Real.sum_le_exp_of_nonneg (x := 1) (by norm_num) (n + 2)
  have h2 := Real.exp_bound' (x := 1) (by norm_num) (by norm_num) (n := n + 2) (by omega)
  simp only [one_pow, one_mul] at h1 h2
  have hf : (0 : ℝ) < (n + 1)! := by positivity
  constructor
  · exact mul_le_mul_of_nonneg_left (by linarith) hf.le
  · have h3 : ((n + 1)! : ℝ) * (((n + 2 : ℕ) + 1) / ((n + 2)! * (n + 2 : ℕ))) ≤ 1 := by
      rw [show (n + 2)! = (n + 2) * (n + 1)! from Nat.factorial_succ _]
      push_cast
      rw [mul_div_assoc', div_le_one (by positivity)]
      have : (n : ℝ) + 2 + 1 ≤ (n + 2) * (n + 2) := by nlinarith [(Nat.cast_nonneg n : (0 : ℝ) ≤ n)]
      nlinarith
    have h4 : ((n + 1)! : ℝ) * Real.exp 1 ≤ (n + 1)! * (∑ m ∈ range (n + 2), (1 : ℝ) / (m ! : ℝ)) + 1 := by
      refine (mul_le_mul_of_nonneg_left h2 hf.le).trans ?_
      rw [mul_add]
      linarith
    linarith

/-- Where the digits of the partial sum are those of e - 2. -/
theorem floor_eq (n d : ℕ) (h : 10 ^ d * value n (fun _ => 1) n % weight n n + 10 ^ d < weight n n) :
    ⌊10 ^ d * (Real.exp 1 - 2)⌋₊ = 10 ^ d * value n (fun _ => 1) n / weight n n := by
  obtain ⟨h1, h2⟩ := exp_between n
  rw [weight_all] at *
  have hf : (0 : ℝ) < (n + 1)! := by positivity
  have hdm := Nat.mod_add_div (10 ^ d * value n (fun _ => 1) n) (n + 1)!
  generalize value n (fun _ => 1) n = A at *
  generalize hq : 10 ^ d * A / (n + 1)! = q at *
  generalize 10 ^ d * A % (n + 1)! = r at *
  have hp : (0 : ℝ) < 10 ^ d := by positivity
  have e1 : (r : ℝ) + (n + 1)! * q = 10 ^ d * A := by exact_mod_cast hdm
  have e2 : (r : ℝ) + 10 ^ d < (n + 1)! := by exact_mod_cast h
  have hr : (0 : ℝ) ≤ r := Nat.cast_nonneg r
  have k1 := mul_le_mul_of_nonneg_left h1 hp.le
  have k2 := mul_le_mul_of_nonneg_left h2 hp.le
  have hnn : 0 ≤ 10 ^ d * (Real.exp 1 - 2) := by
    have : (0 : ℝ) ≤ (n + 1)! * (Real.exp 1 - 2) := le_trans (Nat.cast_nonneg A) h1
    have : 0 ≤ Real.exp 1 - 2 := nonneg_of_mul_nonneg_right this hf
    positivity
  rw [Nat.floor_eq_iff hnn]
  constructor
  · refine le_of_mul_le_mul_left ?_ hf
    nlinarith
  · refine lt_of_mul_lt_mul_left ?_ hf.le
    nlinarith

theorem floor_prefix (x : ℝ) (d e : ℕ) : ⌊10 ^ d * x⌋₊ = ⌊10 ^ (d + e) * x⌋₊ / 10 ^ e := by
  have := Nat.floor_div_natCast (10 ^ (d + e) * x) (10 ^ e)
  rw [← this]
  congr 1
  push_cast
  rw [pow_add]
  field_simp

/-- the value and the weight, together -/
def pairs (n : ℕ) : ℕ → ℕ × ℕ
  | 0 => (0, 1)
  | i + 1 => ((pairs n i).1 + (pairs n i).2, (pairs n i).2 * (n + 1 - i))

theorem pairs_eq (n : ℕ) : ∀ i, pairs n i = (value n (fun _ => 1) i, weight n i)
  | 0 => rfl
  | i + 1 => by rw [pairs, pairs_eq n i, value, weight, Nat.one_mul]

/-- the rest of the series does not change the first `d` digits -/
def enough (d : ℕ) (p : ℕ × ℕ) : Bool := decide (10 ^ d * p.1 % p.2 + 10 ^ d < p.2)

/-- The digits of the program are those of e - 2. -/
theorem digit_exp {n d j : ℕ} (h : enough d (pairs n n) = true) (hj : j < d) : carry n (digits n j) n = decimal (Real.exp 1 - 2) j := by
  rw [pairs_eq, enough, decide_eq_true_eq] at h
  have hf := floor_eq n d h
  obtain ⟨k, rfl⟩ : ∃ k, d = j + 1 + k := ⟨d - (j + 1), by omega⟩
  rw [digit_eq, decimal, floor_prefix _ (j + 1) k, hf, Nat.div_div_eq_div_mul, Nat.mul_comm (weight _ _), ← Nat.div_div_eq_div_mul]
  congr 2
  rw [pow_add 10 (j + 1) k, Nat.mul_assoc, Nat.mul_comm (10 ^ k), ← Nat.mul_assoc, Nat.mul_div_cancel _ (Nat.pow_pos (by omega))]

set_option exponentiation.threshold 5000 in
theorem enough_terms : enough 4000 (pairs 2000 2000) = true := by decide +kernel

end Blang
