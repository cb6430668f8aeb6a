import Verif.Proofs.SameTree
import Verif.Props.Samples
/-
Concrete programs that meet the hypotheses of the theorems in `Props/Endless`: a loop that does not end and
a recursion that does not end.
-/
namespace Blang.Props
open Blang Blang.Spec

def endlessText : List Char := List.flatten [
  "loop() { while (1) ext(2); }\n".toList,
  "deep(n) { deep(n + 1); ext(n); }\n".toList]

def loopBody : St := .seq (.while (.num 1) (.expr (.callName "ext".toList [.num 2]))) .skip

def deepBody : St := .seq (.expr (.callName "deep".toList [.bin .add (.var "n".toList) (.num 1)]))
  (.seq (.expr (.callName "ext".toList [.var "n".toList])) .skip)

def endlessProg : Program := [.func "loop".toList [] loopBody, .func "deep".toList ["n".toList] deepBody]

/-- the functions of the module have different addresses, none of which is that of `ext` -/
def loadedCheck (m : Module) : Bool :=
  m.funcs.all fun f => f.blocks.isEmpty || (simM.addr f.sym != simM.addr (symbolOf "ext".toList) &&
    m.funcs.all fun g => g.blocks.isEmpty || simM.addr f.sym != simM.addr g.sym || f.sym == g.sym)

set_option maxRecDepth 20000 in
theorem endless_checks : Program.isSame endlessProg (refParse prec endlessText) = true ∧ endlessProg.Tame ∧ endlessProg.Clear ∧
    (Program.Scoped Env.empty endlessProg ∧ ∀ d ∈ endlessProg, d.CasesOk) ∧
    (match compileText endlessText .eof with | .ok m => loadedCheck m | .error _ => false) = true := by
  decide +kernel

attribute [irreducible] endlessText

theorem endless_careful : Careful prec endlessText endlessProg := refParse_sound (Program.eq_of_same endless_checks.1)

theorem endless_tame : endlessProg.Tame := endless_checks.2.1

theorem loadedCheck_sound {m : Module} (h : loadedCheck m = true) : Loaded m simM simX := by
  simp only [loadedCheck, List.all_eq_true, Bool.or_eq_true, Bool.and_eq_true, List.isEmpty_iff, bne_iff_ne, beq_iff_eq] at h
  refine ⟨fun a args σ v1 σ1 v2 σ2 h1 h2 => ?_, fun f hf hb args σ v σ' hx => ?_, fun f hf g hg hb hb' e => ?_⟩
  · have e : some (v1, σ1) = some (v2, σ2) := h1.symm.trans h2
    cases e; exact ⟨rfl, rfl⟩
  · have h1 := ((h f hf).resolve_left hb).1
    simp only [simX, simExt, if_neg h1, reduceCtorEq] at hx
  · rcases ((h f hf).resolve_left hb).2 g hg with (h2 | h2) | h2
    · exact absurd h2 hb'
    · exact absurd e h2
    · exact h2

theorem endless_of {text : List Char} {p : Program} (hp : Careful prec text p) (hc : p.Clear)
    (hs : Program.Scoped Env.empty p ∧ ∀ d ∈ p, d.CasesOk)
    (h : (match compileText text .eof with | .ok m => loadedCheck m | .error _ => false) = true) :
    ∃ m, compileText text .eof = .ok m ∧ TreeOf text p m ∧ Loaded m simM simX := by
  obtain ⟨m, h1, h2⟩ := careful_module hp hc hs
  rw [h1] at h
  exact ⟨m, h1, h2, loadedCheck_sound h⟩

/-- C61, C62: the program is accepted, its module is loaded properly on the machine -/
theorem endless_module : ∃ m, compileText endlessText .eof = .ok m ∧ TreeOf endlessText endlessProg m ∧ Loaded m simM simX :=
  endless_of endless_careful endless_checks.2.2.1 endless_checks.2.2.2.1 endless_checks.2.2.2.2

/-- what the name `ext` stands for is called, and returns its first argument -/
theorem ext_returns {p : Program} {v : Word} {vs : List Word} {σ : Store simM.World} :
    p.Returns simM.toB simX (simM.toB.global "ext".toList) (v :: vs) σ v σ := by
  refine ⟨0, ?_⟩
  show simExt _ _ _ = _
  unfold simExt
  rw [if_pos rfl]
  rfl

section
variable {p : Program} {P : Place} {ρ : Frame} {σ : Store simM.World}

/-- the statement `ext(2);` -/
theorem ext_value (hP : P.env.locals = [] ∧ P.env.exts = []) :
    Ex.Value simM.toB (p.Returns simM.toB simX) (.callName "ext".toList [.num 2]) P ρ σ 2 σ := by
  refine ⟨.val 2, ⟨.val (simM.toB.global "ext".toList), [2], σ, 2, ?_, ⟨.val 2, σ, [], ⟨rfl, rfl⟩, ⟨rfl, rfl⟩, rfl⟩, ext_returns, rfl⟩, rfl⟩
  simp [nameRes, hP.1, hP.2]


/-- `n + 1` -/
theorem next_arg {a : Word} (hP : "n".toList ∈ P.env.locals) (hρ : ρ "n".toList = some a) :
    ∃ w, Ex.EvalArgs simM.toB (p.Returns simM.toB simX) P.env ρ [.bin .add (.var "n".toList) (.num 1)] P.lits σ [w] σ := by
  refine ⟨_, .val _, σ, [], ⟨.cell a, σ, .val 1, _, ⟨?_, rfl⟩, ⟨rfl, rfl⟩, rfl, rfl⟩, ⟨rfl, rfl⟩, rfl⟩
  simp only [nameRes, if_pos hP, hρ, Option.map_some]
end

theorem loop_defined : ∃ P, endlessProg.Defines "loop".toList [] loopBody P ∧ P.env.locals = [] ∧ P.env.exts = [] := by
  refine ⟨_, ⟨[], [.func "deep".toList ["n".toList] deepBody], rfl, ?_, rfl⟩, rfl, rfl⟩
  intro qs b h
  simp at h

theorem deep_defined : ∃ P, endlessProg.Defines "deep".toList ["n".toList] deepBody P ∧ "n".toList ∈ P.env.locals ∧ "deep".toList ∉ P.env.locals ∧
    P.env.exts = [] := by
  refine ⟨_, ⟨[.func "loop".toList [] loopBody], [], rfl, ?_, rfl⟩, ?_, ?_, rfl⟩
  · intro qs b h
    cases h
  · decide
  · decide

/-- C62: `loop` does not come to an end, because it makes infinitely many steps, ... -/
theorem loop_endless : endlessProg.RunsForever simM.toB simX "loop".toList [] simS := by
  obtain ⟨P, hd, hP⟩ := loop_defined
  refine ⟨fun f args σ => f = "loop".toList ∧ args = [], ⟨rfl, rfl⟩, fun f args σ ⟨h1, h2⟩ => .inl ?_⟩
  subst h1; subst h2
  refine ⟨[], loopBody, P, hd, Nat.le_refl _, ?_⟩
  let c : Ex := .num 1
  let b : St := .expr (.callName "ext".toList [.num 2])
  let k : Cont := .seq (P.after (.while c b)) .skip .stop
  let ρ : Frame := fun _ => none
  let σ0 : Store simM.toB.World := ⟨σ.mem, σ.world⟩
  let cyc : Nat → BState simM.toB.World := fun j => match j % 3 with
    | 0 => .run P (.while c b) k ρ σ0
    | 1 => .run (P.afterEx c) b (.loop P c b k) ρ σ0
    | _ => .run (P.afterEx c) .skip (.loop P c b k) ρ σ0
  refine ⟨fun i => match i with | 0 => .run P loopBody .stop ρ σ0 | i + 1 => cyc i, rfl, fun i => ?_⟩
  cases i with
  | zero => exact .seq
  | succ i =>
    show BStep _ _ _ _ (cyc i) (cyc (i + 1))
    have h : i % 3 = 0 ∧ (i + 1) % 3 = 1 ∨ i % 3 = 1 ∧ (i + 1) % 3 = 2 ∨ i % 3 = 2 ∧ (i + 1) % 3 = 0 := by omega
    rcases h with ⟨h1, h2⟩ | ⟨h1, h2⟩ | ⟨h1, h2⟩
    · simp only [cyc, h1, h2]
      exact .whileTrue (v := 1) ⟨.val 1, ⟨rfl, rfl⟩, rfl⟩ (by decide)
    · simp only [cyc, h1, h2]
      exact .expr (ext_value hP)
    · simp only [cyc, h1, h2]
      exact .endLoop

/-- ... and `deep` because it calls itself; the call of `ext` is never made -/
theorem deep_endless : endlessProg.RunsForever simM.toB simX "deep".toList [0] simS := by
  obtain ⟨P, hd, hn, h3, h4⟩ := deep_defined
  refine ⟨fun f args σ => f = "deep".toList ∧ ∃ v, args = [v], ⟨rfl, _, rfl⟩, fun f args σ ⟨h1, v, h2⟩ => .inr ?_⟩
  subst h1; subst h2
  obtain ⟨w, hw⟩ := next_arg (p := endlessProg) (P := P) (ρ := bindParams ["n".toList] (simM.toB.params σ.world 1).1 fun _ => none)
    (σ := ⟨storeArgs (simM.toB.params σ.world 1).1 [v] σ.mem, (simM.toB.params σ.world 1).2⟩) hn rfl
  refine ⟨_, "deep".toList, [w], _, ⟨_, _, P, hd, Nat.le_refl _, .head .seq .refl⟩, ⟨_, _, _, _, _, _, rfl, rfl,
    ⟨.val (simM.toB.global "deep".toList), ?_, .inr ⟨rfl, hw⟩⟩⟩, rfl, _, rfl⟩
  simp only [nameRes, if_neg h3, h4, List.not_mem_nil, if_false]

/-- C61: the first call of `ext` in `loop`, with the argument 2; `loop` does not return -/
theorem loop_calls : endlessProg.Makes simM.toB simX "loop".toList [] simS (simM.toB.global "ext".toList) [2] simS := by
  obtain ⟨P, hd, hP⟩ := loop_defined
  refine .own ⟨_, _, P, hd, Nat.le_refl _, .head .seq (.head (.whileTrue (v := 1) ⟨.val 1, ⟨rfl, rfl⟩, rfl⟩ (by decide)) .refl)⟩
    ⟨_, _, _, _, _, _, rfl, rfl, ?_⟩
  refine ⟨.val (simM.toB.global "ext".toList), ?_, .inr ⟨rfl, ⟨.val 2, _, [], ⟨rfl, rfl⟩, ⟨rfl, rfl⟩, rfl⟩⟩⟩
  have e1 : (P.afterEx (.num 1)).env.locals = [] := hP.1
  have e2 : (P.afterEx (.num 1)).env.exts = [] := hP.2
  simp only [nameRes, e1, e2, List.not_mem_nil, if_false]

/-- So the compiled functions never return. -/
example : ∃ m, compileText endlessText .eof = .ok m ∧
    (∀ n v σ', ¬ Module.Call m simM simX n (simM.addr (symbolOf "loop".toList)) [] simS v σ') ∧
    ∀ n v σ', ¬ Module.Call m simM simX n (simM.addr (symbolOf "deep".toList)) [0] simS v σ' := by
  obtain ⟨m, h1, h2, h3⟩ := endless_module
  exact ⟨m, h1, C62_no_end h2 endless_tame h3 loop_endless, C62_no_end h2 endless_tame h3 deep_endless⟩

example : ∃ m, compileText endlessText .eof = .ok m ∧
    Module.Makes m simM simX (simM.addr (symbolOf "loop".toList)) [] simS (simM.addr (symbolOf "ext".toList)) [2] simS := by
  obtain ⟨m, h1, h2, _⟩ := endless_module
  exact ⟨m, h1, C61_calls_made h2 endless_tame loop_calls⟩

end Blang.Props
