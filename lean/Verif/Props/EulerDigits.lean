import Verif.Props.EulerAll
import Verif.Proofs.EulerReal
import Verif.Props.SamplesExamples
/-
C75: `examples/e-2.b` prints the decimals of e - 2.
-/
namespace Blang.Props
open Blang Blang.Spec

theorem digitChar_code {c : Nat} (h : c ≤ 9) : BitVec.ofNat 8 (Nat.digitChar c).toNat = BitVec.ofNat 8 (48 + c) := by
  revert c; decide

theorem group_eq {j : Nat} (hj : j < 4000) : group j = codes (Nat.digitChar (decimal (Real.exp 1 - 2) j) ::
    if (j + 1) % 50 = 0 then ['\n'] else if (j + 1) % 5 = 0 then [' '] else []) := by
  have h9 := Spigot.carry_le (Spigot.digits_proper (n := 2000) j) 2000 (Nat.le_refl _)
  rw [group, ← digit_exp enough_terms hj]
  show _ = BitVec.ofNat 8 (Nat.digitChar _).toNat :: codes _
  rw [digitChar_code h9]
  congr 1
  unfold sepChar
  by_cases h50 : (j + 1) % 50 = 0
  · rw [if_pos h50, if_pos (by omega), if_pos h50]; rfl
  · rw [if_neg h50, if_neg h50]
    by_cases h5 : (j + 1) % 5 = 0
    · rw [if_pos h5, if_pos h5]; rfl
    · rw [if_neg h5, if_neg h5]; rfl

theorem flatMap_codes {f : Nat → List Char} {g : Nat → List (BitVec 8)} {l : List Nat} (h : ∀ j ∈ l, g j = codes (f j)) : l.flatMap g = codes (l.flatMap f) := by
  induction l with
  | nil => rfl
  | cons a l ih =>
    rw [List.flatMap_cons, List.flatMap_cons, h a (by simp), ih fun j hj => h j (by simp [hj])]
    simp [codes]

theorem output_eq : (List.range' 0 4000).flatMap group ++ codes "\n\n".toList = codes (decimalLines (Real.exp 1 - 2) 4000) := by
  have e : ∀ a b : List Char, codes (a ++ b) = codes a ++ codes b := by intro a b; simp [codes]
  rw [decimalLines, e, ← List.range_eq_range', flatMap_codes fun j hj => group_eq (List.mem_range.1 hj)]
  rfl

/-- C75. `examples/e-2.b` is accepted, and on every machine with room for the variables the process, its data loaded without overlap, writes
the first 4000 decimals of e - 2, in groups of five, fifty to the line, then two newlines, and ends with status 0. -/
theorem C75_euler : ∃ m, compileText eulerText .eof = .ok m ∧ ∀ (C : Computer) (L : Library), Module.Links m C.addr →
    ∀ σ : Store C.machine.World, (C.see σ).fout = 0 → Module.DataIn m C.addr σ.mem → Module.Scattered m C.addr →
    C.Room 4 σ.world.1 (Module.Occupies m C.addr) →
    Module.Outputs m C (C.calls L.Runs) σ (codes (decimalLines (Real.exp 1 - 2) 4000)) := by
  rw [← output_eq]
  exact euler_run

end Blang.Props
