import Verif.Spec.BSem
/-
Reading what was written.
-/
namespace Blang
open Spec

theorem storeW_byte (m : Mem) (a v : Word) (i : Nat) (hi : i < 8) :
    storeW m a v (a + BitVec.ofNat 64 i) = BitVec.ofNat 8 (v.toNat / 2 ^ (8 * i)) := by
  have h : (a + BitVec.ofNat 64 i - a).toNat = i := by
    simp only [BitVec.toNat_sub, BitVec.toNat_add, BitVec.toNat_ofNat]
    have := a.isLt
    omega
  unfold storeW
  rw [h, if_pos hi]

theorem loadW_storeW (m : Mem) (a v : Word) : loadW (storeW m a v) a = v := by
  have h0 := storeW_byte m a v 0 (by decide)
  have h1 := storeW_byte m a v 1 (by decide)
  have h2 := storeW_byte m a v 2 (by decide)
  have h3 := storeW_byte m a v 3 (by decide)
  have h4 := storeW_byte m a v 4 (by decide)
  have h5 := storeW_byte m a v 5 (by decide)
  have h6 := storeW_byte m a v 6 (by decide)
  have h7 := storeW_byte m a v 7 (by decide)
  have e0 : a + BitVec.ofNat 64 0 = a := by simp
  rw [e0] at h0
  unfold loadW
  rw [h0, show (1 : Word) = BitVec.ofNat 64 1 from rfl, h1, show (2 : Word) = BitVec.ofNat 64 2 from rfl, h2,
    show (3 : Word) = BitVec.ofNat 64 3 from rfl, h3, show (4 : Word) = BitVec.ofNat 64 4 from rfl, h4,
    show (5 : Word) = BitVec.ofNat 64 5 from rfl, h5, show (6 : Word) = BitVec.ofNat 64 6 from rfl, h6,
    show (7 : Word) = BitVec.ofNat 64 7 from rfl, h7]
  apply BitVec.eq_of_toNat_eq
  simp only [BitVec.toNat_ofNat]
  have := v.isLt
  simp only [Nat.reducePow, Nat.reduceMul, Nat.mul_zero] at this ⊢
  omega

theorem loadW_other {m : Mem} {a b v : Word} (h : Apart a b) : loadW (storeW m a v) b = loadW m b := by
  have key : ∀ i : Nat, i < 8 → storeW m a v (b + BitVec.ofNat 64 i) = m (b + BitVec.ofNat 64 i) := by
    intro i hi
    unfold storeW
    rw [if_neg]
    obtain ⟨h1, h2⟩ := h
    simp only [BitVec.toNat_sub, BitVec.toNat_add, BitVec.toNat_ofNat] at *
    have := a.isLt
    have := b.isLt
    omega
  have h0 := key 0 (by decide)
  have e0 : b + BitVec.ofNat 64 0 = b := by simp
  rw [e0] at h0
  unfold loadW
  rw [h0]
  rw [show (1 : Word) = BitVec.ofNat 64 1 from rfl, key 1 (by decide), show (2 : Word) = BitVec.ofNat 64 2 from rfl, key 2 (by decide),
    show (3 : Word) = BitVec.ofNat 64 3 from rfl, key 3 (by decide), show (4 : Word) = BitVec.ofNat 64 4 from rfl, key 4 (by decide),
    show (5 : Word) = BitVec.ofNat 64 5 from rfl, key 5 (by decide), show (6 : Word) = BitVec.ofNat 64 6 from rfl, key 6 (by decide),
    show (7 : Word) = BitVec.ofNat 64 7 from rfl, key 7 (by decide)]

end Blang
