import Verif.Props.Exact
import Verif.Props.SamplesEndless
/-
Concrete programs that meet the hypotheses of the theorems in `Props/Exact`: calls that return, calls that do not come to an end, and
a call that goes wrong.
-/
namespace Blang.Props
open Blang Blang.Spec

/-- C65, C66: the loop and the recursion of `SamplesEndless` do not go wrong. -/
theorem endless_right {m : Module} (h : TreeOf endlessText endlessProg m) (hl : Loaded m simM simX) :
    ¬ endlessProg.Wrong simM.toB simX "loop".toList [] simS ∧ ¬ endlessProg.Wrong simM.toB simX "deep".toList [0] simS :=
  have hp := placed_of_loaded h endless_tame hl
  ⟨(C65_forever_right hp loop_endless).2, (C65_forever_right hp deep_endless).2⟩

/-- So the calls that the compiled loop makes are exactly those of the program, and it makes one. -/
example : ∃ m, compileText endlessText .eof = .ok m ∧
    (∀ a vs σ', Module.Makes m simM simX (simM.addr (symbolOf "loop".toList)) [] simS a vs σ' ↔
      endlessProg.Makes simM.toB simX "loop".toList [] simS a vs σ') ∧
    endlessProg.Makes simM.toB simX "loop".toList [] simS (simM.toB.global "ext".toList) [2] simS := by
  obtain ⟨m, h1, h2, h3⟩ := endless_module
  exact ⟨m, h1, fun a vs σ' => C66_exact_calls h2 endless_tame h3 (ps := []) (body := loopBody) (by simp [endlessProg]) (endless_right h2 h3).1 a vs σ', loop_calls⟩

def ratioText : List Char := List.flatten [
  "ratio(a, b) { return (half(a) / ext(b)); }\n".toList,
  "half(n) { return (n / 2); }\n".toList,
  "bad() { return (1 / 0); }\n".toList,
  "worse() { return (half(7) + bad()); }\n".toList]

def ratioBody : St := .seq (.ret (some (.bin .div (.callName "half".toList [.var "a".toList]) (.callName "ext".toList [.var "b".toList])))) .skip
def halfBody : St := .seq (.ret (some (.bin .div (.var "n".toList) (.num 2)))) .skip
def badBody : St := .seq (.ret (some (.bin .div (.num 1) (.num 0)))) .skip
def worseBody : St := .seq (.ret (some (.bin .add (.callName "half".toList [.num 7]) (.callName "bad".toList [])))) .skip

def ratioProg : Program := [.func "ratio".toList ["a".toList, "b".toList] ratioBody, .func "half".toList ["n".toList] halfBody,
  .func "bad".toList [] badBody, .func "worse".toList [] worseBody]

/-- what the interpreter finds -/
def ratioRun (f : String) (args : List Word) : Option Word :=
  (callI ratioProg simM.toB simExt 40 3 (simM.toB.global f.toList) args simS).map (·.1)

set_option maxRecDepth 20000 in
theorem ratio_checks : Program.isSame ratioProg (refParse prec ratioText) = true ∧ ratioProg.Tame ∧ ratioProg.Clear ∧
    (Program.Scoped Env.empty ratioProg ∧ ∀ d ∈ ratioProg, d.CasesOk) ∧
    (match compileText ratioText .eof with | .ok m => loadedCheck m | .error _ => false) = true ∧
    ratioRun "ratio" [84, 7] = some 6 ∧ ratioRun "half" [7] = some 3 := by
  decide +kernel

attribute [irreducible] ratioText

theorem ratio_tame : ratioProg.Tame := ratio_checks.2.1

theorem ratio_module : ∃ m, compileText ratioText .eof = .ok m ∧ TreeOf ratioText ratioProg m ∧ Loaded m simM simX :=
  endless_of (refParse_sound (Program.eq_of_same ratio_checks.1)) ratio_checks.2.2.1 ratio_checks.2.2.2.1 ratio_checks.2.2.2.2.1

theorem ratioRun_returns {f : String} {args : List Word} {v : Word} (h : ratioRun f args = some v) :
    ∃ σ', ratioProg.Returns simM.toB simX (simM.toB.global f.toList) args simS v σ' := by
  unfold ratioRun at h
  simp only [Option.map_eq_some_iff, Prod.exists, exists_and_right, exists_eq_right] at h
  obtain ⟨σ', h⟩ := h
  exact ⟨σ', 3, callI_sound simExt_sound 3 _ _ _ _ _ h⟩

/-- C65: `ratio(84, 7)` returns 6 and so does not go wrong; the compiled function returns this and nothing else. -/
example : ∃ m, compileText ratioText .eof = .ok m ∧ ¬ ratioProg.Wrong simM.toB simX "ratio".toList [84, 7] simS ∧
    (∃ σ', Module.Returns m simM simX (simM.addr (symbolOf "ratio".toList)) [84, 7] simS 6 σ') ∧
    ∀ v σ', Module.Returns m simM simX (simM.addr (symbolOf "ratio".toList)) [84, 7] simS v σ' → v = 6 := by
  obtain ⟨m, h1, h2, h3⟩ := ratio_module
  have hp := placed_of_loaded h2 ratio_tame h3
  obtain ⟨σ1, hr⟩ := ratioRun_returns ratio_checks.2.2.2.2.2.1
  have hw := C65_returns_right hp hr
  have ex := C65_exact_results h2 ratio_tame h3 (f := "ratio".toList) (ps := ["a".toList, "b".toList]) (body := ratioBody)
    (by simp [ratioProg]) hw
  exact ⟨m, h1, hw, ⟨σ1, (ex _ _).2 hr⟩, fun v σ' h => (C65_unique hp _ _ _ _ _ _ _ ((ex v σ').1 h) hr).1⟩

theorem quot_stuck {M : BMachine} {R : Calls M.World} {P0 P : Place} {body : St} {k : Cont} {ρ : Frame} {σ : Store M.World} :
    BState.Stuck M R P0 body (.run P (.ret (some (.bin .div (.num 1) (.num 0)))) k ρ σ) := by
  refine ⟨fun _ _ h => (by cases h), fun y h => ?_, fun a vs s h => ?_⟩
  · obtain ⟨v, σ1, ⟨d, h, _⟩, _⟩ := step_ret h
    simp only [Ex.Eval] at h
    obtain ⟨d1, s1, d2, v, ⟨rfl, rfl⟩, ⟨rfl, rfl⟩, h, _⟩ := h
    revert h
    simp only [Res.value]
    have e : Bop.sem 1 0 .div = none := by decide
    rw [e]
    exact fun h => (by cases h)
  · obtain ⟨_, _, _, _, _, _, e, hs, h⟩ := h
    cases e
    cases hs
    simp only [Ex.Enters, false_or, and_false, exists_false] at h

theorem bad_defined : ∃ P, ratioProg.Defines "bad".toList [] badBody P := by
  refine ⟨_, [.func "ratio".toList ["a".toList, "b".toList] ratioBody, .func "half".toList ["n".toList] halfBody],
    [.func "worse".toList [] worseBody], rfl, ?_, rfl⟩
  intro qs b h
  simp at h

/-- A division by 0 goes wrong, ... -/
theorem bad_wrong (σ : Store simM.World) : ratioProg.Wrong simM.toB simX "bad".toList [] σ := by
  obtain ⟨P, hd⟩ := bad_defined
  exact .stuck hd (Nat.le_refl _) (.head .seq .refl) quot_stuck

/-- ... and so does a function that calls one that goes wrong, ... -/
example : ratioProg.Wrong simM.toB simX "worse".toList [] simS := by
  obtain ⟨σ1, hr⟩ := ratioRun_returns ratio_checks.2.2.2.2.2.2
  have hd : ∃ P, ratioProg.Defines "worse".toList [] worseBody P ∧ P.env.locals = [] ∧ P.env.exts = [] := by
    refine ⟨_, ⟨[.func "ratio".toList ["a".toList, "b".toList] ratioBody, .func "half".toList ["n".toList] halfBody,
      .func "bad".toList [] badBody], [], rfl, ?_, rfl⟩, rfl, rfl⟩
    intro qs b h
    cases h
  obtain ⟨P, hd, h1, h2⟩ := hd
  refine .inner (g := "bad".toList) (ws := []) (σ1 := σ1) ⟨[], worseBody, P, hd, Nat.le_refl _, .head .seq .refl⟩
    ⟨_, _, _, _, _, _, rfl, rfl, .inr ⟨.val 3, σ1, ?_, ?_⟩⟩ (bad_wrong σ1)
  · refine ⟨.val (simM.toB.global "half".toList), [7], _, 3, ?_, ⟨.val 7, _, [], ⟨rfl, rfl⟩, ⟨rfl, rfl⟩, rfl⟩, hr, rfl⟩
    simp only [nameRes, h1, h2, List.not_mem_nil, if_false]
  · refine ⟨.val (simM.toB.global "bad".toList), ?_, .inr ⟨rfl, rfl, rfl⟩⟩
    simp only [nameRes, h1, h2, List.not_mem_nil, if_false]

/-- ... and one that is called with too few arguments. -/
example : ratioProg.Wrong simM.toB simX "half".toList [] simS := by
  have hd : ∃ P, ratioProg.Defines "half".toList ["n".toList] halfBody P := by
    refine ⟨_, [.func "ratio".toList ["a".toList, "b".toList] ratioBody], [.func "bad".toList [] badBody, .func "worse".toList [] worseBody], rfl, ?_, rfl⟩
    intro qs b h
    simp at h
  obtain ⟨P, hd⟩ := hd
  exact .few hd (by decide)

end Blang.Props
