import Verif.Props.TestProgramsAll
import Verif.Props.SamplesShowcase
/-
The hypotheses of C100 hold for tests on a concrete machine.
-/
namespace Blang.Props
open Blang Blang.Spec

theorem writes_on_boot {text out : List Char} (h : WritesOnAll text out 40 40) (hs : showCheck text = true) (L : Library) :
    ∃ m, compileText text .eof = .ok m ∧ Module.Outputs m boot (boot.calls L.Runs) (loaded m) (codes out) := by
  obtain ⟨m, hm, h⟩ := h
  rw [showCheck, hm, Bool.and_eq_true] at hs
  have hc := readyCheck_sound hm hs.1
  exact ⟨m, hm, h boot L hc.1 (scatteredCheck_sound hs.2) (loaded m) rfl hc.2.1 (boot_roomy (by decide) (by decide) fun b => low_of hc.2.2)⟩

set_option maxRecDepth 50000 in
unseal indirectCallMultipleText in
theorem indirectCallMultiple_ready : showCheck indirectCallMultipleText = true := by decide_text indirectCallMultipleText

/-- C100 -/
example (L : Library) : ∃ m, compileText indirectCallMultipleText .eof = .ok m ∧ Module.Outputs m boot (boot.calls L.Runs) (loaded m) (codes indirectCallMultipleOut) :=
  writes_on_boot indirectCallMultiple_writes indirectCallMultiple_ready L

set_option maxRecDepth 50000 in
unseal globalArrayText in
theorem globalArray_ready : showCheck globalArrayText = true := by decide_text globalArrayText

/-- C100 -/
example (L : Library) : ∃ m, compileText globalArrayText .eof = .ok m ∧ Module.Outputs m boot (boot.calls L.Runs) (loaded m) (codes globalArrayOut) :=
  writes_on_boot globalArray_writes globalArray_ready L

set_option maxRecDepth 50000 in
unseal runtimeCharText in
theorem runtimeChar_ready : showCheck runtimeCharText = true := by decide_text runtimeCharText

/-- C100 -/
example (L : Library) : ∃ m, compileText runtimeCharText .eof = .ok m ∧ Module.Outputs m boot (boot.calls L.Runs) (loaded m) (codes runtimeCharOut) :=
  writes_on_boot runtimeChar_writes runtimeChar_ready L

set_option maxRecDepth 50000 in
unseal nestedTernaryText in
theorem nestedTernary_ready : showCheck nestedTernaryText = true := by decide_text nestedTernaryText

/-- C100 -/
example (L : Library) : ∃ m, compileText nestedTernaryText .eof = .ok m ∧ Module.Outputs m boot (boot.calls L.Runs) (loaded m) (codes nestedTernaryOut) :=
  writes_on_boot nestedTernary_writes nestedTernary_ready L

end Blang.Props
