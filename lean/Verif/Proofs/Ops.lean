import Verif.Spec.BSem
import Verif.Spec.IRSem
import Verif.Proofs.Gen
/-
The operators of the emitted code compute the operators of B.
-/
namespace Blang
open Spec

theorem ofInt_toInt' (x : Word) : BitVec.ofInt 64 x.toInt = x := BitVec.ofInt_toInt

theorem word_zero (y : Word) : y.toInt = 0 ↔ y = 0 := by
  constructor
  · intro h; exact BitVec.eq_of_toInt_eq (by simpa using h)
  · rintro rfl; rfl

theorem word_min (x : Word) : x.toInt = -2 ^ 63 ↔ x = BitVec.intMin 64 := by
  constructor
  · intro h; exact BitVec.eq_of_toInt_eq (by rw [h]; rfl)
  · rintro rfl; rfl

theorem word_m1 (x : Word) : x.toInt = -1 ↔ x = -1 := by
  constructor
  · intro h; exact BitVec.eq_of_toInt_eq (by rw [h]; rfl)
  · rintro rfl; rfl

theorem add_int (x y : Word) : x + y = BitVec.ofInt 64 (x.toInt + y.toInt) := by
  rw [BitVec.ofInt_add, ofInt_toInt', ofInt_toInt']

theorem mul_int (x y : Word) : x * y = BitVec.ofInt 64 (x.toInt * y.toInt) := by
  rw [BitVec.ofInt_mul, ofInt_toInt', ofInt_toInt']

theorem neg_int (x : Word) : 0 - x = BitVec.ofInt 64 (-x.toInt) := by
  rw [BitVec.ofInt_neg, ofInt_toInt']; simp

theorem sub_int (x y : Word) : x - y = BitVec.ofInt 64 (x.toInt - y.toInt) := by
  rw [Int.sub_eq_add_neg, BitVec.ofInt_add, BitVec.ofInt_neg, ofInt_toInt', ofInt_toInt', BitVec.sub_eq_add_neg]

theorem sdiv_int (x y : Word) (h : ¬ (x = BitVec.intMin 64 ∧ y = -1)) : x.sdiv y = BitVec.ofInt 64 (x.toInt.tdiv y.toInt) := by
  have : x ≠ BitVec.intMin 64 ∨ y ≠ -1#64 := by
    by_cases hx : x = BitVec.intMin 64
    · exact .inr fun hy => h ⟨hx, hy⟩
    · exact .inl hx
  rw [← BitVec.toInt_sdiv_of_ne_or_ne x y this, ofInt_toInt']

theorem srem_int (x y : Word) : x.srem y = BitVec.ofInt 64 (x.toInt.tmod y.toInt) := by
  rw [← BitVec.toInt_srem, ofInt_toInt']

theorem shl_int (x : Word) (n : Nat) : x <<< n = BitVec.ofInt 64 (x.toInt * 2 ^ n) := by
  rw [BitVec.shiftLeft_eq_mul_twoPow, BitVec.ofInt_mul, ofInt_toInt']
  congr 1
  apply BitVec.eq_of_toNat_eq
  rw [BitVec.toNat_twoPow, BitVec.toNat_ofInt]
  have : ((2 : Int) ^ n) % ((2 ^ 64 : Nat) : Int) = ((2 ^ n % 2 ^ 64 : Nat) : Int) := by
    rw [Int.natCast_emod]; simp
  rw [this]; rfl

theorem ashr_int (x : Word) (n : Nat) : x.sshiftRight n = BitVec.ofInt 64 (x.toInt / 2 ^ n) := by
  have h := BitVec.toInt_sshiftRight (x := x) (n := n)
  rw [Int.shiftRight_eq_div_pow] at h
  have h2 : ((2 ^ n : Nat) : Int) = 2 ^ n := by simp
  rw [h2] at h
  rw [← h, ofInt_toInt']

/-- arithmetic operators -/
theorem binop_sem (o : Bop) (b : BinOp) (h : opOf o = .bin b) (x y : Word) : BinOp.sem x y b = o.sem x y := by
  cases o <;> simp [opOf] at h <;> subst h <;> simp only [BinOp.sem, Bop.sem]
  · rw [mul_int]
  · simp only [word_zero, word_min, word_m1]
    split
    · rfl
    · rename_i h
      rw [sdiv_int _ _ fun e => h (.inr e)]
  · simp only [word_zero, word_min, word_m1]
    split
    · rfl
    · rw [srem_int]
  · rw [add_int]
  · rw [sub_int]
  · rw [shl_int]
  · rw [ashr_int]

/-- comparisons -/
theorem cmpop_sem (o : Bop) (p : Pred) (h : opOf o = .cmp p) (x y : Word) :
    o.sem x y = some (if Pred.sem x y p then 1 else 0) := by
  cases o <;> simp [opOf] at h <;> subst h <;>
    simp only [Pred.sem, Bop.sem, truth, BitVec.slt_iff_toInt_lt, BitVec.sle_iff_toInt_le] <;> simp

theorem dir_sem (d : Dir) (x : Word) : BinOp.sem x 1 (dirOp d) = some (d.sem x) := by
  cases d
  · simp only [dirOp, BinOp.sem, Dir.sem, add_int]; rfl
  · simp only [dirOp, BinOp.sem, Dir.sem, sub_int]; rfl

end Blang
