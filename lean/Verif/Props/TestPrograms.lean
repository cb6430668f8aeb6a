import Verif.Props.Interp
/-
Property C100: the end-to-end tests of the repository, on every machine: what a test program writes is what its test expects.
The programs are in TestPrograms….lean.
-/
namespace Blang.Props
open Blang Blang.Spec

/-- the text `text` is accepted, and on every machine on which the module is linked and which has room for `room` blocks of `N` words, the
process of the program writes `out` to its standard output and ends with status 0 -/
def WritesOnAll (text out : List Char) (N room : Nat) : Prop := ∃ m, compileText text .eof = .ok m ∧
  ∀ (C : Computer) (L : Library), Module.Links m C.addr → Module.Scattered m C.addr →
    ∀ σ : Store C.machine.World, (C.see σ).fout = 0 → Module.DataIn m C.addr σ.mem → C.Roomy N room σ.world.1 (Module.Occupies m C.addr) →
      Module.Outputs m C (C.calls L.Runs) σ (codes out)

theorem writes_of_run {text : List Char} {p : Program} {gs : List (List Char × GInit)} {out : List Char} {N fuel room depth : Nat}
    (h : Program.isSame p (refParse prec text) = true) (ht : p.Tame) (hc : p.Clear) (hs : Program.Scoped Env.empty p ∧ ∀ d ∈ p, d.CasesOk)
    (hg : globalsAre p gs = true) (hr : Interp.run p gs N fuel room depth = some (codes out)) : WritesOnAll text out N room := by
  obtain ⟨m, hm, hp⟩ : ∃ m, compileText text .eof = .ok m ∧ TreeOf text p m := careful_module (refParse_sound (Program.eq_of_same h)) hc hs
  refine ⟨m, hm, fun C L hk hk' σ h0 hd hroom => ?_⟩
  exact C99_interpreted hp ht (by rw [globalsAre_sound hp hg]; exact hr) L hk σ h0 hd hk' hroom

/-- each of the programs writes what is expected -/
def AllWrite (ts : List (List Char × List Char)) : Prop := ∀ t ∈ ts, WritesOnAll t.1 t.2 40 40

theorem AllWrite.nil : AllWrite [] := List.forall_mem_nil _
theorem AllWrite.cons {a b : List Char} {ts : List (List Char × List Char)} (h : WritesOnAll a b 40 40) (hs : AllWrite ts) : AllWrite ((a, b) :: ts) :=
  List.forall_mem_cons.2 ⟨h, hs⟩
theorem AllWrite.append {ss ts : List (List Char × List Char)} (h : AllWrite ss) (hs : AllWrite ts) : AllWrite (ss ++ ts) :=
  List.forall_mem_append.2 ⟨h, hs⟩

end Blang.Props
