import Verif.Props.Effective
import Verif.Props.SamplesExact
/-
An example for the theorems about the code behind a `return`.
-/
namespace Blang.Props
open Blang Blang.Spec

def behindText : List Char := "f(x){return(x);if(x){return(5);return;}return(x+7);}main(){return(1);return(f(0));}".toList

def behindProg : Program :=
  [.func "f".toList ["x".toList] (.seq (.ret (some (.var "x".toList))) (.seq (.ifThen (.var "x".toList)
      (.seq (.ret (some (.num 5))) (.seq (.ret none) .skip))) (.seq (.ret (some (.bin .add (.var "x".toList) (.num 7)))) .skip))),
    .func "main".toList [] (.seq (.ret (some (.num 1))) (.seq (.ret (some (.callName "f".toList [.num 0]))) .skip))]

/-- `f(x){(x);if(x){(5);return;}return(x+7);}main(){(1);return(f(0));}` -/
theorem behind_effective : behindProg.effective =
    [.func "f".toList ["x".toList] (.seq (.expr (.paren (.var "x".toList))) (.seq (.ifThen (.var "x".toList)
      (.seq (.expr (.paren (.num 5))) (.seq (.ret none) .skip))) (.seq (.ret (some (.bin .add (.var "x".toList) (.num 7)))) .skip))),
    .func "main".toList [] (.seq (.expr (.paren (.num 1))) (.seq (.ret (some (.callName "f".toList [.num 0]))) .skip))] := rfl

def behindShort : List Char := "f(x){(x);if(x){(5);return;}return(x+7);}main(){(1);return(f(0));}".toList

/-- what the interpreter finds -/
def behindRun (f : String) (args : List Word) : Option Word :=
  (callI behindProg.effective simM.toB simExt 40 3 (simM.toB.global f.toList) args simS).map (·.1)

set_option maxRecDepth 20000 in
theorem behind_checks : Program.isSame behindProg (refParse prec behindText) = true ∧ behindProg.Clear ∧
    (Program.Scoped Env.empty behindProg ∧ ∀ d ∈ behindProg, d.CasesOk) ∧
    (match compileText behindText .eof with | .ok m => loadedCheck m | .error _ => false) = true ∧
    ¬ behindProg.Tame ∧ behindProg.effective.Tame ∧ behindRun "main" [] = some 7 ∧ behindRun "f" [3] = some 0 := by
  decide +kernel

set_option maxRecDepth 20000 in
theorem behind_short : Program.isSame behindProg.effective (refParse prec behindShort) = true ∧ behindProg.effective.Clear ∧
    (Program.Scoped Env.empty behindProg.effective ∧ ∀ d ∈ behindProg.effective, d.CasesOk) := by
  decide +kernel

attribute [irreducible] behindText behindShort

theorem behind_module : ∃ m, compileText behindText .eof = .ok m ∧ TreeOf behindText behindProg m ∧ Loaded m simM simX :=
  endless_of (refParse_sound (Program.eq_of_same behind_checks.1)) behind_checks.2.1 behind_checks.2.2.1 behind_checks.2.2.2.1

theorem behindRun_returns {f : String} {args : List Word} {v : Word} (h : behindRun f args = some v) :
    ∃ σ', behindProg.effective.Returns simM.toB simX (simM.toB.global f.toList) args simS v σ' := by
  unfold behindRun at h
  simp only [Option.map_eq_some_iff, Prod.exists, exists_and_right, exists_eq_right] at h
  obtain ⟨σ', h⟩ := h
  exact ⟨σ', 3, callI_sound simExt_sound 3 _ _ _ _ _ h⟩

/-- C16_effective_module: the compiler makes the same module of both texts -/
example : ∃ m, compileText behindText .eof = .ok m ∧ compileText behindShort .eof = .ok m := by
  obtain ⟨m, h1, h2, _⟩ := behind_module
  obtain ⟨m', h3, h4⟩ := careful_module (refParse_sound (Program.eq_of_same behind_short.1)) behind_short.2.1 behind_short.2.2
  rw [C16_effective_module h2 h4] at h3
  exact ⟨m, h1, h3⟩

/-- C16_effective_results: `main` returns 7 and not 1, `f(3)` returns 0 and neither 3 nor 5. -/
example : ∃ m, compileText behindText .eof = .ok m ∧ ¬ behindProg.Tame ∧
    (∀ v σ', Module.Returns m simM simX (simM.addr (symbolOf "main".toList)) [] simS v σ' → v = 7) ∧
    (∃ σ', Module.Returns m simM simX (simM.addr (symbolOf "main".toList)) [] simS 7 σ') ∧
    ∃ σ', Module.Returns m simM simX (simM.addr (symbolOf "f".toList)) [3] simS 0 σ' := by
  obtain ⟨m, h1, h2, h3⟩ := behind_module
  have ht := behind_checks.2.2.2.2.2.1
  have hp : behindProg.effective.Placed simM.toB simX := by
    obtain ⟨c, hb, e⟩ := effective_between h2
    subst e
    exact placed_between hb (effective_names (reads_names h2.1)) h3
  obtain ⟨σ1, r1⟩ := behindRun_returns behind_checks.2.2.2.2.2.2.1
  obtain ⟨σ2, r2⟩ := behindRun_returns behind_checks.2.2.2.2.2.2.2
  have ex1 := C16_effective_results h2 ht h3 (f := "main".toList) (ps := []) (body := .seq (.ret (some (.num 1))) (.seq (.ret (some
    (.callName "f".toList [.num 0]))) .skip)) (by simp [behindProg]) (C65_returns_right hp r1)
  have ex2 := C16_effective_results h2 ht h3 (f := "f".toList) (ps := ["x".toList]) (body := _) (List.mem_cons_self) (C65_returns_right hp r2)
  exact ⟨m, h1, behind_checks.2.2.2.2.1, fun v σ' h => (C65_unique hp _ _ _ _ _ _ _ ((ex1 v σ').1 h) r1).1, ⟨σ1, (ex1 _ _).2 r1⟩,
    ⟨σ2, (ex2 _ _).2 r2⟩⟩

theorem behind_calls : behindProg.effective.Makes simM.toB simX "main".toList [] simS (simM.toB.global "f".toList) [0] simS := by
  rw [behind_effective]
  refine .own ⟨[], .seq (.expr (.paren (.num 1))) (.seq (.ret (some (.callName "f".toList [.num 0]))) .skip), _,
    ⟨[_], [], rfl, (fun _ _ h => by cases h), rfl⟩, Nat.le_refl _,
    .head .seq (.head (.expr (v := 1) ⟨.val 1, ⟨.val 1, ⟨rfl, rfl⟩, rfl⟩, rfl⟩) (.head .endSeq (.head .seq .refl)))⟩
    ⟨_, _, _, _, _, _, rfl, rfl, ?_⟩
  exact ⟨.val (simM.toB.global "f".toList), rfl, .inr ⟨rfl, ⟨.val 0, _, [], ⟨rfl, rfl⟩, ⟨rfl, rfl⟩, rfl⟩⟩⟩

/-- C16_effective_calls: `main` calls `f` with the argument 0, behind its first `return` -/
example : ∃ m, compileText behindText .eof = .ok m ∧
    Module.Makes m simM simX (simM.addr (symbolOf "main".toList)) [] simS (simM.addr (symbolOf "f".toList)) [0] simS := by
  obtain ⟨m, h1, h2, h3⟩ := behind_module
  have hp : behindProg.effective.Placed simM.toB simX := by
    obtain ⟨c, hb, e⟩ := effective_between h2
    subst e
    exact placed_between hb (effective_names (reads_names h2.1)) h3
  obtain ⟨σ1, r1⟩ := behindRun_returns behind_checks.2.2.2.2.2.2.1
  exact ⟨m, h1, (C16_effective_calls h2 behind_checks.2.2.2.2.2.1 h3 (ps := []) (List.mem_cons_of_mem _ List.mem_cons_self)
    (C65_returns_right hp r1) _ _ _).2 behind_calls⟩

/-- the end of `main` as the interpreter finds it, with calls at most 2 deep -/
def behindEnd : Option (BState simM.toB.World) := reachI behindProg.effective simM.toB simExt 40 2 "main".toList [] simS 5

theorem behind_end : ∃ σ', behindEnd = some (.done 7 σ') := by
  have h : (match behindEnd with | some (.done v _) => v == 7 | _ => false) = true := by decide +kernel
  cases e : behindEnd with
  | none => rw [e] at h; cases h
  | some x =>
    cases x with
    | run => rw [e] at h; cases h
    | done v σ' =>
      rw [e] at h
      simp only [beq_iff_eq] at h
      exact ⟨σ', by rw [h]⟩

/-- C16_effective_flow -/
example : ∃ m σ', compileText behindText .eof = .ok m ∧ Module.Does m simM simX "main".toList [] simS 7 σ' := by
  obtain ⟨m, h1, h2, h3⟩ := behind_module
  obtain ⟨σ', h⟩ := behind_end
  exact ⟨m, _, h1, C16_effective_flow h2 behind_checks.2.2.2.2.2.1 (reachI_sound simExt_sound h)⟩

end Blang.Props
