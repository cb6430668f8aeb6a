import Verif.Model.Stmt
import Verif.Spec.Names
import Verif.Proofs.Lexer
/-
Symbol and block names: decimal numerals and prefixes do not collide.
-/
namespace Blang
open Spec

theorem digitChar_toNat (d : Nat) : (digitChar d).toNat = d % 10 + 48 := by
  unfold digitChar
  have : '0'.toNat = 48 := rfl
  rw [this, charOfNat_toNat (by omega)]

theorem digitChar_digit (d : Nat) : Digit (digitChar d) := by
  unfold Digit; rw [digitChar_toNat]; omega

theorem natDecAux_digits : ∀ f n c, c ∈ natDecAux f n → Digit c
  | 0, _, _, h => by simp [natDecAux] at h
  | f + 1, n, c, h => by
    unfold natDecAux at h
    split at h
    · simp at h; rw [h]; exact digitChar_digit _
    · rw [List.mem_append] at h
      rcases h with h | h
      · exact natDecAux_digits f _ c h
      · simp at h; rw [h]; exact digitChar_digit _

theorem natDec_digits {n : Nat} {c : Char} (h : c ∈ natDec n) : Digit c := natDecAux_digits _ _ _ h

theorem digitsValue_snoc10 (b : Nat) (l : List Char) (d : Char) :
    digitsValue b (l ++ [d]) = b * digitsValue b l + (d.toNat - 48) := by
  induction l with
  | nil => simp [digitsValue]
  | cons x l ih =>
    simp only [List.cons_append, digitsValue, ih, List.length_append, List.length_singleton]
    rw [Nat.mul_add, Nat.pow_succ]
    have : (x.toNat - 48) * (b ^ l.length * b) = b * ((x.toNat - 48) * b ^ l.length) := by
      rw [← Nat.mul_assoc, Nat.mul_comm]
    omega

theorem natDecAux_value : ∀ f n, n < f → digitsValue 10 (natDecAux f n) = n
  | 0, _, h => absurd h (Nat.not_lt_zero _)
  | f + 1, n, h => by
    unfold natDecAux
    split
    · simp [digitsValue, digitChar_toNat]; omega
    · rw [digitsValue_snoc10, natDecAux_value f (n / 10) (by omega), digitChar_toNat]; omega

theorem natDec_value (n : Nat) : digitsValue 10 (natDec n) = n := natDecAux_value _ _ (Nat.lt_succ_self n)

theorem natDec_inj {m n : Nat} (h : natDec m = natDec n) : m = n := by
  rw [← natDec_value m, ← natDec_value n, h]

theorem natDec_ne_nil (n : Nat) : natDec n ≠ [] := by
  unfold natDec natDecAux
  split <;> simp

/-- splitting at the first character outside a class -/
theorem split_unique {p : Char → Prop} {a b x y : List Char} {c d : Char} (ha : ∀ z ∈ a, p z) (hb : ∀ z ∈ b, p z)
    (hc : ¬ p c) (hd : ¬ p d) (h : a ++ c :: x = b ++ d :: y) : a = b ∧ c = d ∧ x = y := by
  induction a generalizing b with
  | nil =>
    cases b with
    | nil => simp at h; exact ⟨rfl, h.1, h.2⟩
    | cons z b => simp at h; exact absurd (h.1 ▸ hb z (by simp)) hc
  | cons z a ih =>
    cases b with
    | nil => simp at h; exact absurd (h.1 ▸ ha z (by simp)) hd
    | cons w b =>
      simp at h
      obtain ⟨i1, i2, i3⟩ := ih (fun q m => ha q (by simp [m])) (fun q m => hb q (by simp [m])) h.2
      exact ⟨by rw [h.1, i1], i2, i3⟩

theorem digit_not_dot {c : Char} (h : Digit c) : c ≠ '.' := by rintro rfl; exact absurd h (by decide)
theorem digit_not_minus {c : Char} (h : Digit c) : c ≠ '-' := by rintro rfl; exact absurd h (by decide)

theorem intDec_inj {v w : W} (h : intDec v = intDec w) : v = w := by
  have key : ∀ {m n : Nat}, '-' :: natDec m ≠ natDec n := by
    intro m n he
    have := natDec_digits (n := n) (c := '-') (by rw [← he]; simp)
    exact digit_not_minus this rfl
  unfold intDec at h
  apply BitVec.eq_of_toInt_eq
  split at h <;> split at h
  · simp at h; have := natDec_inj h; omega
  · exact absurd h key
  · exact absurd h.symm key
  · have := natDec_inj h; omega

theorem caseName_inj {k k' : Nat} {v v' : W} (h : caseName k v = caseName k' v') : k = k' ∧ v = v' := by
  have h' : natDec k ++ '.' :: intDec v = natDec k' ++ '.' :: intDec v' := by
    have := h
    unfold caseName at this
    rw [List.append_assoc, List.append_assoc, List.append_assoc, List.append_assoc] at this
    exact List.append_cancel_left this
  obtain ⟨a, _, b⟩ := split_unique (p := fun c => c ≠ '.') (fun z m => digit_not_dot (natDec_digits m))
    (fun z m => digit_not_dot (natDec_digits m)) (by simp) (by simp) h'
  exact ⟨natDec_inj a, intDec_inj b⟩

theorem strSym_inj {m n : Nat} (h : strSym m = strSym n) : m = n :=
  natDec_inj (List.append_cancel_left h)

theorem identChar_not_dot {c : Char} (h : IdentChar c) : c ≠ '.' := by rintro rfl; exact absurd h (by decide)

theorem nameOk_no_dot {x : Ident} (h : NameOk x) : '.' ∉ x := fun m => identChar_not_dot (h.2 _ m) rfl

theorem globalName_cases (x : Name) : (x = "main".toList ∧ globalName x = "main".toList) ∨
    (x ≠ "main".toList ∧ globalName x = 'b' :: '.' :: x) := by
  unfold globalName
  split
  · rename_i h; exact .inl ⟨h, h⟩
  · rename_i h; exact .inr ⟨h, rfl⟩

theorem globalName_inj {x y : Name} (h : globalName x = globalName y) : x = y := by
  rcases globalName_cases x with ⟨a, b⟩ | ⟨a, b⟩ <;> rcases globalName_cases y with ⟨c, d⟩ | ⟨c, d⟩ <;> rw [b, d] at h
  · rw [a, c]
  · exact absurd h (by simp)
  · exact absurd h (by simp)
  · simpa using h

theorem globalName_ne_str (x : Name) (n : Nat) : globalName x ≠ strSym n := by
  rcases globalName_cases x with ⟨_, b⟩ | ⟨_, b⟩ <;> rw [b] <;> simp [strSym]

theorem globalName_ne_data {x : Name} (hx : NameOk x) (y : Name) : globalName x ≠ globalName y ++ dataSuffix := by
  intro h
  have hd := nameOk_no_dot hx
  rcases globalName_cases x with ⟨_, b⟩ | ⟨_, b⟩ <;> rcases globalName_cases y with ⟨_, d⟩ | ⟨_, d⟩ <;> rw [b, d] at h
  · exact absurd h (by decide)
  · exact absurd h (by simp [dataSuffix])
  · exact absurd h (by simp [dataSuffix])
  · simp only [List.cons_append, List.cons.injEq, true_and] at h
    apply hd; rw [h]; simp [dataSuffix]

theorem data_ne_str (y : Name) (n : Nat) : globalName y ++ dataSuffix ≠ strSym n := by
  rcases globalName_cases y with ⟨_, b⟩ | ⟨_, b⟩ <;> rw [b] <;> simp [strSym, dataSuffix]

theorem data_inj {x y : Name} (h : globalName x ++ dataSuffix = globalName y ++ dataSuffix) : x = y :=
  globalName_inj (List.append_cancel_right h)

theorem globalName_ne_va (x : Name) : globalName x ≠ "llvm.va_start".toList ∧ globalName x ≠ "llvm.va_end".toList := by
  rcases globalName_cases x with ⟨_, b⟩ | ⟨_, b⟩ <;> rw [b] <;> exact ⟨by simp, by simp⟩

theorem data_ne_va (x : Name) : globalName x ++ dataSuffix ≠ "llvm.va_start".toList ∧
    globalName x ++ dataSuffix ≠ "llvm.va_end".toList := by
  rcases globalName_cases x with ⟨_, b⟩ | ⟨_, b⟩ <;> rw [b] <;> exact ⟨by simp [dataSuffix], by simp [dataSuffix]⟩

theorem str_ne_va (n : Nat) : strSym n ≠ "llvm.va_start".toList ∧ strSym n ≠ "llvm.va_end".toList := by
  exact ⟨by simp [strSym], by simp [strSym]⟩

end Blang
