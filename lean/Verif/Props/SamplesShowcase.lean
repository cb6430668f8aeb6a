import Verif.Props.Showcase
import Verif.Props.SamplesExamples
/-
A machine on which the hypotheses of C99 hold.
-/
namespace Blang.Props
open Blang Blang.Spec

theorem boot_roomy {N k : Nat} (hN : N < 2 ^ 20) (hk : k < 2 ^ 10) {used : Word → Prop} (hu : ∀ b, used b → b.toNat < 2 ^ 32 ∨ 2 ^ 34 ≤ b.toNat) :
    boot.Roomy N k (0x100000000 : Word) used := by
  refine ⟨fun k w used => ∃ t : Nat, t + 8 * N * k ≤ 2 ^ 34 ∧ w = BitVec.ofNat 64 t ∧ 2 ^ 32 ≤ t ∧ ∀ x, used x → x.toNat < t ∨ 2 ^ 34 ≤ x.toNat, ?_, ?_, ?_⟩
  · refine ⟨2 ^ 32, ?_, rfl, Nat.le_refl _, hu⟩
    have : 8 * N * k ≤ 8 * 2 ^ 20 * 2 ^ 10 := Nat.mul_le_mul (by omega) (by omega)
    omega
  · rintro k w used ⟨t, h1, rfl, h3, h4⟩ n hn
    have e : 8 * N * (k + 1) = 8 * N * k + 8 * N := by rw [Nat.mul_succ]
    have ht : (BitVec.ofNat 64 t).toNat = t := by rw [BitVec.toNat_ofNat, Nat.mod_eq_of_lt (by omega)]
    have blk : ∀ b : Word, (b - BitVec.ofNat 64 t).toNat < 8 * n → t ≤ b.toNat ∧ b.toNat < t + 8 * n := by
      intro b hb
      have e2 : b.toNat = ((b - BitVec.ofNat 64 t).toNat + t) % 2 ^ 64 := by
        have : b = b - BitVec.ofNat 64 t + BitVec.ofNat 64 t := by rw [BitVec.sub_add_cancel]
        rw [congrArg BitVec.toNat this, BitVec.toNat_add, ht]
      rw [Nat.mod_eq_of_lt (by omega)] at e2
      omega
    refine ⟨by omega, fun b hb hx => ?_, t + 8 * n, by omega, ?_, by omega, fun x hx => ?_⟩
    · have := blk b hb
      rcases h4 b hx with h | h <;> omega
    · show BitVec.ofNat 64 t + BitVec.ofNat 64 (8 * n) = _
      rw [BitVec.ofNat_add]
    · rcases hx with hx | hx
      · rcases h4 x hx with h | h <;> omega
      · have := blk x hx
        omega
  · rintro k w used h w'
    exact h

/-- no two globals overlap -/
def scatteredCheck (m : Module) : Bool := m.globals.all fun g => m.globals.all fun h => decide (g.sym = h.sym ∨
  (bootAddr g.sym).toNat + globalSize g.init ≤ (bootAddr h.sym).toNat ∧ (bootAddr h.sym).toNat + globalSize h.init ≤ 2 ^ 64 ∨
  (bootAddr h.sym).toNat + globalSize h.init ≤ (bootAddr g.sym).toNat ∧ (bootAddr g.sym).toNat + globalSize g.init ≤ 2 ^ 64)

theorem scatteredCheck_sound {m : Module} (h : scatteredCheck m = true) : Module.Scattered m boot.addr := by
  simp only [scatteredCheck, List.all_eq_true, decide_eq_true_eq] at h
  intro g hg k hk hne b h1 h2
  have := (h g hg k hk).resolve_left hne
  rw [show boot.addr = bootAddr from rfl] at h1 h2
  generalize bootAddr g.sym = x at *
  generalize bootAddr k.sym = y at *
  generalize globalSize g.init = i at *
  generalize globalSize k.init = j at *
  bv_omega

def showCheck (text : List Char) : Bool := readyCheck text && match compileText text .eof with
  | .ok m => scatteredCheck m
  | _ => false

set_option maxRecDepth 50000 in
unseal showText in
theorem show_ready : showCheck showText = true := by decide_text showText

/-- C74, C99: on this machine the program runs. -/
example (L : Library) : ∃ m, compileText showText .eof = .ok m ∧ Module.Outputs m boot (boot.calls L.Runs) (loaded m) (codes showOut) := by
  obtain ⟨m, hm, h⟩ := C74_showcase
  have hs := show_ready
  rw [showCheck, hm, Bool.and_eq_true] at hs
  have hc := readyCheck_sound hm hs.1
  exact ⟨m, hm, h boot L hc.1 (scatteredCheck_sound hs.2) (loaded m) rfl hc.2.1
    (boot_roomy (by decide) (by decide) fun b => low_of hc.2.2)⟩

end Blang.Props
