/-
The arithmetic of `examples/e-2.b`: numbers whose digits have the bases 2, 3, ..., n + 1 after the point (the digit `v i` has the
base `n + 1 - i`), multiplied by 10; the carry out of the last place is the next decimal digit.
-/
namespace Blang.Spigot

/-- the weight of the i-th digit, counted from the last; `weight n n` is (n + 1)!, the weight of the integer part -/
def weight (n : Nat) : Nat → Nat
  | 0 => 1
  | i + 1 => weight n i * (n + 1 - i)

/-- the value of the last `i` digits -/
def value (n : Nat) (v : Nat → Nat) : Nat → Nat
  | 0 => 0
  | i + 1 => value n v i + v i * weight n i

/-- the carry into the i-th place -/
def carry (n : Nat) (v : Nat → Nat) : Nat → Nat
  | 0 => 0
  | i + 1 => (carry n v i + v i * 10) / (n + 1 - i)

/-- the new digits -/
def next (n : Nat) (v : Nat → Nat) (i : Nat) : Nat := (carry n v i + v i * 10) % (n + 1 - i)

/-- digits as they should be -/
def Proper (n : Nat) (v : Nat → Nat) : Prop := ∀ i, i < n → v i < n + 1 - i

theorem weight_pos (n : Nat) : ∀ i, i ≤ n → 0 < weight n i
  | 0, _ => by simp [weight]
  | i + 1, h => Nat.mul_pos (weight_pos n i (by omega)) (by omega)

theorem next_proper (n : Nat) (v : Nat → Nat) : Proper n (next n v) := fun _ _ => Nat.mod_lt _ (by omega)

theorem value_lt {n : Nat} {v : Nat → Nat} (h : Proper n v) : ∀ i, i ≤ n → value n v i < weight n i
  | 0, _ => by simp [value, weight]
  | i + 1, hi => by
    have ih := value_lt h i (by omega)
    have hv := h i (by omega)
    rw [value, weight]
    have : v i * weight n i ≤ (n + 1 - i - 1) * weight n i := Nat.mul_le_mul_right _ (by omega)
    rw [Nat.mul_comm (weight n i)]
    obtain ⟨k, hk⟩ : ∃ k, n + 1 - i = k + 1 := ⟨n - i, by omega⟩
    rw [hk] at this ⊢
    rw [Nat.add_sub_cancel] at this
    rw [Nat.add_mul]
    omega

theorem carry_le {n : Nat} {v : Nat → Nat} (h : Proper n v) : ∀ i, i ≤ n → carry n v i ≤ 9
  | 0, _ => by simp [carry]
  | i + 1, hi => by
    have ih := carry_le h i (by omega)
    have hv := h i (by omega)
    rw [carry]
    refine Nat.le_of_lt_succ ((Nat.div_lt_iff_lt_mul (by omega)).2 ?_)
    omega

theorem carry_eq (n : Nat) (v : Nat → Nat) : ∀ i, i ≤ n → 10 * value n v i = value n (next n v) i + carry n v i * weight n i
  | 0, _ => by simp [value, carry]
  | i + 1, hi => by
    have ih := carry_eq n v i (by omega)
    have hd : carry n v i + v i * 10 = next n v i + carry n v (i + 1) * (n + 1 - i) := by
      rw [next, carry, Nat.mul_comm _ (n + 1 - i)]
      exact (Nat.mod_add_div _ _).symm
    rw [value, value, weight, Nat.mul_add, ih]
    have e : carry n v (i + 1) * (weight n i * (n + 1 - i)) = (carry n v (i + 1) * (n + 1 - i)) * weight n i := by
      rw [Nat.mul_assoc, Nat.mul_comm (weight n i)]
    rw [e]
    have := congrArg (· * weight n i) hd
    simp only [Nat.add_mul] at this
    have e2 : 10 * (v i * weight n i) = v i * 10 * weight n i := by
      rw [← Nat.mul_assoc, Nat.mul_comm 10]
    rw [e2]
    omega

/-- the digits after `j` rounds -/
def digits (n : Nat) : Nat → Nat → Nat
  | 0 => fun _ => 1
  | j + 1 => next n (digits n j)

theorem digits_proper {n : Nat} : ∀ j, Proper n (digits n j)
  | 0 => fun i hi => by simp only [digits]; omega
  | j + 1 => next_proper n _

theorem digits_value (n : Nat) : ∀ j, value n (digits n j) n = 10 ^ j * value n (fun _ => 1) n % weight n n
  | 0 => by
    rw [Nat.pow_zero, Nat.one_mul]
    exact (Nat.mod_eq_of_lt (value_lt (digits_proper (n := n) 0) n (Nat.le_refl _))).symm
  | j + 1 => by
    have h1 := carry_eq n (digits n j) n (Nat.le_refl _)
    have h2 := value_lt (digits_proper (n := n) (j + 1)) n (Nat.le_refl _)
    rw [digits_value n j] at h1
    have e : 10 ^ (j + 1) * value n (fun _ => 1) n % weight n n = 10 * (10 ^ j * value n (fun _ => 1) n % weight n n) % weight n n := by
      rw [Nat.mul_mod_mod, Nat.pow_succ]
      congr 1
      rw [Nat.mul_comm (10 ^ j) 10, Nat.mul_assoc]
    rw [e, h1, Nat.add_mul_mod_self_right]
    exact (Nat.mod_eq_of_lt h2).symm

/-- The carry out of the last place is the next decimal digit of `value / weight`. -/
theorem digit_eq (n j : Nat) : carry n (digits n j) n = 10 ^ (j + 1) * value n (fun _ => 1) n / weight n n % 10 := by
  have h1 := carry_eq n (digits n j) n (Nat.le_refl _)
  have h2 := value_lt (next_proper n (digits n j)) n (Nat.le_refl _)
  have h3 := carry_le (digits_proper (n := n) j) n (Nat.le_refl _)
  have hw := weight_pos n n (Nat.le_refl _)
  rw [digits_value n j] at h1
  generalize value n (fun _ => 1) n = A at *
  generalize weight n n = W at *
  generalize carry n (digits n j) n = c at *
  generalize value n (next n (digits n j)) n = r at *
  have e : 10 ^ (j + 1) * A = r + (c + 10 * (10 ^ j * A / W)) * W := by
    have h4 := Nat.mod_add_div (10 ^ j * A) W
    generalize 10 ^ j * A % W = x at *
    generalize hq : 10 ^ j * A / W = q at *
    rw [Nat.pow_succ, Nat.mul_comm (10 ^ j) 10, Nat.mul_assoc, ← h4, Nat.mul_add, h1, Nat.add_mul, Nat.mul_comm W q, Nat.mul_assoc, Nat.add_assoc]
  rw [e, Nat.add_mul_div_right _ _ hw, Nat.div_eq_of_lt h2, Nat.zero_add, Nat.add_mul_mod_self_left]
  omega

end Blang.Spigot
