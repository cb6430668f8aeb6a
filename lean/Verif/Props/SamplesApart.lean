import Verif.Props.Apart
import Verif.Props.SamplesExact
/-
An example for the theorems about called parameters and `auto` variables.
-/
namespace Blang.Props
open Blang Blang.Spec Blang.Apart

instance (b : St) : Decidable (Orderly b) :=
  decidable_of_iff ((b.exit true).isSome ∧ b.labels.Nodup ∧ b.Distinct ∧ (-1 : Word) ∉ b.sizes)
    ⟨fun h => ⟨h.1, h.2.1, h.2.2.1, fun _ hn e => h.2.2.2 (e ▸ hn)⟩, fun h => ⟨h.exit, h.labels, h.cases, fun hn => h.sizes _ hn rfl⟩⟩

/-- the body of a function -/
def Decl.Neat : Decl → Prop
  | .func _ _ b => Orderly b
  | _ => True

instance : (d : Decl) → Decidable (Decl.Neat d)
  | .func _ _ b => inferInstanceAs (Decidable (Orderly b))
  | .global _ _ => inferInstanceAs (Decidable True)
  | .vector _ _ _ => inferInstanceAs (Decidable True)

instance (p : Program) : Decidable p.Orderly :=
  decidable_of_iff ((∀ d ∈ p, Decl.Neat d) ∧ ∀ x ∈ p.place.env.vars, x ∉ p.place.env.funs)
    ⟨fun h => ⟨fun f ps b hd => h.1 _ hd, h.2⟩, fun h => ⟨fun d hd => by
      cases d with
      | func f ps b => exact h.1 f ps b hd
      | global x vs => trivial
      | vector x n vs => trivial, h.2⟩⟩

/-- The parameter `f` of `apply` and the `auto` variable `g` of `main` are called by their names. -/
def mixText : List Char := ("apply(f,x){f=f+1;return(f(x)+f);} f(x){return(x+1);} g(){return(40);} " ++
  "main(){auto g;g=2;return(g()+g+apply(6,30));}").toList

def mixProg : Program :=
  [.func "apply".toList ["f".toList, "x".toList]
      (.seq (.expr (.assign none (.var "f".toList) (.bin .add (.var "f".toList) (.num 1))))
      (.seq (.ret (some (.bin .add (.callName "f".toList [.var "x".toList]) (.var "f".toList)))) .skip)),
    .func "f".toList ["x".toList] (.seq (.ret (some (.bin .add (.var "x".toList) (.num 1)))) .skip),
    .func "g".toList [] (.seq (.ret (some (.num 40))) .skip),
    .func "main".toList [] (.seq (.auto [("g".toList, none)]) (.seq (.expr (.assign none (.var "g".toList) (.num 2)))
      (.seq (.ret (some (.bin .add (.bin .add (.callName "g".toList []) (.var "g".toList)) (.callName "apply".toList [.num 6, .num 30])))) .skip)))]


/-- what the compiler makes of it: `apply(f________,x){f________=f________+1;return(f(x)+f________);} …` -/
def mixApart : Program :=
  [.func "apply".toList ["f________".toList, "x".toList]
      (.seq (.expr (.assign none (.var "f________".toList) (.bin .add (.var "f________".toList) (.num 1))))
      (.seq (.ret (some (.bin .add (.callName "f".toList [.var "x".toList]) (.var "f________".toList)))) .skip)),
    .func "f".toList ["x".toList] (.seq (.ret (some (.bin .add (.var "x".toList) (.num 1)))) .skip),
    .func "g".toList [] (.seq (.ret (some (.num 40))) .skip),
    .func "main".toList [] (.seq (.auto [("g__________".toList, none)]) (.seq (.expr (.assign none (.var "g__________".toList) (.num 2)))
      (.seq (.ret (some (.bin .add (.bin .add (.callName "g".toList []) (.var "g__________".toList)) (.callName "apply".toList [.num 6, .num 30])))) .skip)))]

set_option maxRecDepth 20000 in
theorem mix_apart : mixProg.effective.apart = mixApart := by
  have h : Program.isSame mixApart (some mixProg.effective.apart) = true := by decide +kernel
  exact Option.some.inj (Program.eq_of_same h)

def mixRenamed : List Char := ("apply(f________,x){f________=f________+1;return(f(x)+f________);} f(x){return(x+1);} g(){return(40);} " ++
  "main(){auto g__________;g__________=2;return(g()+g__________+apply(6,30));}").toList

/-- what the interpreter finds -/
def mixRun (f : String) (args : List Word) : Option Word :=
  (callI mixProg.effective.apart simM.toB simExt 60 4 (simM.toB.global f.toList) args simS).map (·.1)


set_option maxRecDepth 20000 in
theorem mix_checks : Program.isSame mixProg (refParse prec mixText) = true ∧ mixProg.Clear ∧
    (Program.Scoped Env.empty mixProg ∧ ∀ d ∈ mixProg, d.CasesOk) ∧
    (match compileText mixText .eof with | .ok m => loadedCheck m | .error _ => false) = true ∧
    ¬ mixProg.Tame ∧ mixProg.effective.Orderly ∧ mixRun "main" [] = some 80 ∧ mixRun "apply" [6, 30] = some 38 := by
  decide +kernel

set_option maxRecDepth 20000 in
theorem mix_renamed : Program.isSame mixProg.effective.apart (refParse prec mixRenamed) = true ∧ mixProg.effective.apart.Clear ∧
    (Program.Scoped Env.empty mixProg.effective.apart ∧ ∀ d ∈ mixProg.effective.apart, d.CasesOk) := by
  decide +kernel

attribute [irreducible] mixText mixRenamed

theorem mix_module : ∃ m, compileText mixText .eof = .ok m ∧ TreeOf mixText mixProg m ∧ Loaded m simM simX :=
  endless_of (refParse_sound (Program.eq_of_same mix_checks.1)) mix_checks.2.1 mix_checks.2.2.1 mix_checks.2.2.2.1

theorem mixRun_returns {f : String} {args : List Word} {v : Word} (h : mixRun f args = some v) :
    ∃ σ', mixProg.effective.apart.Returns simM.toB simX (simM.toB.global f.toList) args simS v σ' := by
  unfold mixRun at h
  simp only [Option.map_eq_some_iff, Prod.exists, exists_and_right, exists_eq_right] at h
  obtain ⟨σ', h⟩ := h
  exact ⟨σ', 4, callI_sound simExt_sound 4 _ _ _ _ _ h⟩

theorem mix_placed {m : Module} (h : TreeOf mixText mixProg m) (hl : Loaded m simM simX) : mixProg.effective.apart.Placed simM.toB simX := by
  obtain ⟨c, hb, htw, _⟩ := apart_between h
  exact placed_between hb (apart_names (effective_names (reads_names h.1))) (Twin.loaded (Twin.symm htw) hl)

/-- C91_module: the compiler makes the same module of both texts, up to the names of parameters -/
example : ∃ m m', compileText mixText .eof = .ok m ∧ compileText mixRenamed .eof = .ok m' ∧ Module.Twin m' m := by
  obtain ⟨m, h1, h2, _⟩ := mix_module
  obtain ⟨m', h3, h4⟩ := careful_module (refParse_sound (Program.eq_of_same mix_renamed.1)) mix_renamed.2.1 mix_renamed.2.2
  exact ⟨m, m', h1, h3, C91_module h2 h4⟩

/-- C91_tame, C91_results: `main` returns 80, `apply(6, 30)` returns 38. -/
example : ∃ m, compileText mixText .eof = .ok m ∧ ¬ mixProg.Tame ∧ mixProg.effective.apart.Tame ∧
    (∀ v σ', Module.Returns m simM simX (simM.addr (symbolOf "main".toList)) [] simS v σ' → v = 80) ∧
    (∃ σ', Module.Returns m simM simX (simM.addr (symbolOf "main".toList)) [] simS 80 σ') ∧
    ∃ σ', Module.Returns m simM simX (simM.addr (symbolOf "apply".toList)) [6, 30] simS 38 σ' := by
  obtain ⟨m, h1, h2, h3⟩ := mix_module
  have ht := mix_checks.2.2.2.2.2.1
  have hp := mix_placed h2 h3
  obtain ⟨σ1, r1⟩ := mixRun_returns mix_checks.2.2.2.2.2.2.1
  obtain ⟨σ2, r2⟩ := mixRun_returns mix_checks.2.2.2.2.2.2.2
  have ex1 := C91_results h2 ht h3 (f := "main".toList) (ps := [])
    (List.mem_cons_of_mem _ (List.mem_cons_of_mem _ (List.mem_cons_of_mem _ List.mem_cons_self))) (C65_returns_right hp r1)
  have ex2 := C91_results h2 ht h3 (f := "apply".toList) (ps := ["f".toList, "x".toList]) List.mem_cons_self (C65_returns_right hp r2)
  exact ⟨m, h1, mix_checks.2.2.2.2.1, C91_tame h2 ht, fun v σ' h => (C65_unique hp _ _ _ _ _ _ _ ((ex1 v σ').1 h) r1).1,
    ⟨σ1, (ex1 _ _).2 r1⟩, ⟨σ2, (ex2 _ _).2 r2⟩⟩

/-- the end of `main` as the interpreter finds it, with calls at most 3 deep -/
def mixEnd : Option (BState simM.toB.World) := reachI mixProg.effective.apart simM.toB simExt 60 3 "main".toList [] simS 8

theorem mix_end : ∃ σ', mixEnd = some (.done 80 σ') := by
  have h : (match mixEnd with | some (.done v _) => v == 80 | _ => false) = true := by decide +kernel
  cases e : mixEnd with
  | none => rw [e] at h; cases h
  | some x =>
    cases x with
    | run => rw [e] at h; cases h
    | done v σ' =>
      rw [e] at h
      simp only [beq_iff_eq] at h
      exact ⟨σ', by rw [h]⟩

/-- C91_flow -/
example : ∃ m σ', compileText mixText .eof = .ok m ∧ Module.Does m simM simX "main".toList [] simS 80 σ' := by
  obtain ⟨m, h1, h2, h3⟩ := mix_module
  obtain ⟨σ', h⟩ := mix_end
  exact ⟨m, _, h1, C91_flow h2 mix_checks.2.2.2.2.2.1 _ _ _ _ _ _ _ _ (reachI_sound simExt_sound h)⟩

/-- A parameter is called: `h(3)` calls the function `g`. -/
def kidText : List Char := "g(){return(40);}h(g){return(g());}".toList

def kidProg : Program :=
  [.func "g".toList [] (.seq (.ret (some (.num 40))) .skip),
    .func "h".toList ["g".toList] (.seq (.ret (some (.callName "g".toList []))) .skip)]

/-- what the interpreter finds -/
def kidRun (f : String) (args : List Word) : Option Word :=
  (callI kidProg.effective.apart simM.toB simExt 60 4 (simM.toB.global f.toList) args simS).map (·.1)

set_option maxRecDepth 20000 in
theorem kid_checks : Program.isSame kidProg (refParse prec kidText) = true ∧ kidProg.Clear ∧
    (Program.Scoped Env.empty kidProg ∧ ∀ d ∈ kidProg, d.CasesOk) ∧
    (match compileText kidText .eof with | .ok m => loadedCheck m | .error _ => false) = true ∧
    ¬ kidProg.Tame ∧ kidProg.effective.Orderly ∧ kidRun "h" [3] = some 40 := by
  decide +kernel

attribute [irreducible] kidText

theorem kid_module : ∃ m, compileText kidText .eof = .ok m ∧ TreeOf kidText kidProg m ∧ Loaded m simM simX :=
  endless_of (refParse_sound (Program.eq_of_same kid_checks.1)) kid_checks.2.1 kid_checks.2.2.1 kid_checks.2.2.2.1

def kidApart : Program :=
  [.func "g".toList [] (.seq (.ret (some (.num 40))) .skip),
    .func "h".toList ["g___".toList] (.seq (.ret (some (.callName "g".toList []))) .skip)]

theorem kid_apart : kidProg.effective.apart = kidApart := by
  have h : Program.isSame kidApart (some kidProg.effective.apart) = true := by decide +kernel
  exact Option.some.inj (Program.eq_of_same h)

theorem kid_calls : ∃ σ', kidProg.effective.apart.Makes simM.toB simX "h".toList [3] simS (simM.toB.global "g".toList) [] σ' := by
  rw [kid_apart]
  refine ⟨⟨storeArgs (simM.toB.params simS.world 1).1 [3] simS.mem, (simM.toB.params simS.world 1).2⟩, .own ⟨["g___".toList], .seq (.ret (some (.callName "g".toList []))) .skip, _,
    ⟨[_], [], rfl, (fun _ _ h => by cases h), rfl⟩, Nat.le_refl _, .head .seq .refl⟩
    ⟨_, _, _, _, _, _, rfl, rfl, ?_⟩⟩
  exact ⟨.val (simM.toB.global "g".toList), rfl, .inr ⟨rfl, ⟨rfl, rfl⟩⟩⟩

/-- C91_calls: `h(3)` calls the function `g`, without arguments -/
example : ∃ m σ', compileText kidText .eof = .ok m ∧
    Module.Makes m simM simX (simM.addr (symbolOf "h".toList)) [3] simS (simM.addr (symbolOf "g".toList)) [] σ' := by
  obtain ⟨m, h1, h2, h3⟩ := kid_module
  have hp : kidProg.effective.apart.Placed simM.toB simX := by
    obtain ⟨c, hb, htw, _⟩ := apart_between h2
    exact placed_between hb (apart_names (effective_names (reads_names h2.1))) (Twin.loaded (Twin.symm htw) h3)
  have hr := kid_checks.2.2.2.2.2.2
  unfold kidRun at hr
  simp only [Option.map_eq_some_iff, Prod.exists, exists_and_right, exists_eq_right] at hr
  obtain ⟨σ1, hr⟩ := hr
  obtain ⟨σ', hc⟩ := kid_calls
  exact ⟨m, σ', h1, (C91_calls h2 kid_checks.2.2.2.2.2.1 h3 (ps := ["g".toList]) (List.mem_cons_of_mem _ List.mem_cons_self)
    (C65_returns_right hp ⟨4, callI_sound simExt_sound 4 _ _ _ _ _ hr⟩) _ _ _).2 hc⟩

/-- C91_callee: wherever `return(g());` is reached, the function returns 40, if `g` may be called in that store -/
example {m : Module} (h : TreeOf kidText kidProg m) {P : Place} {k : Cont} {ρ : Frame} (hx : "g".toList ∉ P.env.exts)
    (hl : "g".toList ∉ P.env.locals) : ∃ σ2, Module.ReturnsFrom m kidProg.effective.apart simM simX 1
      (.run P (.ret (some (.callName "g".toList []))) k ρ simS) 40 σ2 :=
  ⟨_, C91_callee h kid_checks.2.2.2.2.2.1 hx hl ⟨rfl, rfl⟩ (.inr ⟨"g".toList, [], .seq (.ret (some (.num 40))) .skip, _,
    (by rw [kid_apart]; exact ⟨[], [_], rfl, (fun _ _ h => by rcases List.mem_singleton.1 h with h; cases h), rfl⟩), rfl, Nat.le_refl _, simS,
    .head .seq (.head (.ret (v := 40) ⟨.val 40, ⟨rfl, rfl⟩, rfl⟩) .refl), rfl⟩)⟩

/-- An `auto` variable is called. -/
def autoText : List Char := "g(){return(40);}main(){auto g;return(g());}".toList

def autoProg : Program :=
  [.func "g".toList [] (.seq (.ret (some (.num 40))) .skip),
    .func "main".toList [] (.seq (.auto [("g".toList, none)]) (.seq (.ret (some (.callName "g".toList []))) .skip))]

def autoApart : Program :=
  [.func "g".toList [] (.seq (.ret (some (.num 40))) .skip),
    .func "main".toList [] (.seq (.auto [("g___".toList, none)]) (.seq (.ret (some (.callName "g".toList []))) .skip))]

set_option maxRecDepth 20000 in
theorem auto_checks : Program.isSame autoProg (refParse prec autoText) = true ∧ autoProg.Clear ∧
    (Program.Scoped Env.empty autoProg ∧ ∀ d ∈ autoProg, d.CasesOk) ∧ ¬ autoProg.Tame ∧ autoProg.effective.Orderly ∧
    Program.isSame autoApart (some autoProg.effective.apart) = true := by
  decide +kernel

attribute [irreducible] autoText

theorem auto_prescribed {C : Computer} (L : Library) (σ : Store C.machine.World) :
    ∃ σ', autoProg.effective.apart.Returns C.machine.toB (C.calls L.Runs) (C.machine.toB.global "main".toList) [] σ 40 σ' := by
  rw [Option.some.inj (Program.eq_of_same auto_checks.2.2.2.2.2)]
  have hg : ∀ σ0 : Store C.machine.World, autoApart.Call C.machine.toB (C.calls L.Runs) 1 (C.machine.toB.global "g".toList) [] σ0 40
      (.back C.machine.toB.leave σ0 ⟨storeArgs (C.machine.toB.params σ0.world 0).1 [] σ0.mem, (C.machine.toB.params σ0.world 0).2⟩) := fun σ0 =>
    .inr ⟨"g".toList, [], .seq (.ret (some (.num 40))) .skip, _,
      ⟨[], [_], rfl, (fun _ _ h => by rcases List.mem_singleton.1 h with h; cases h), rfl⟩, rfl, Nat.le_refl _, _,
      .head .seq (.head (.ret (v := 40) ⟨.val 40, ⟨rfl, rfl⟩, rfl⟩) .refl), rfl⟩
  exact ⟨_, 2, .inr ⟨"main".toList, [], .seq (.auto [("g___".toList, none)]) (.seq (.ret (some (.callName "g".toList []))) .skip), _,
    ⟨[_], [], rfl, (fun _ _ h => by cases h), rfl⟩, rfl, Nat.le_refl _, _,
    .head .seq (.head .auto (.head .endSeq (.head .seq (.head (.ret (v := 40)
      ⟨.val 40, ⟨.val (C.machine.toB.global "g".toList), [], _, 40, rfl, ⟨rfl, rfl⟩, hg _, rfl⟩, rfl⟩) .refl)))), rfl⟩⟩

/-- C91_process: on whatever machine, the process ends with the status 40. -/
example : ∃ m, compileText autoText .eof = .ok m ∧ ∀ (C : Computer) (L : Library), Module.Links m C.addr →
    ∀ σ : Store C.machine.World, ∃ σ', Module.Ends m C.machine (C.calls L.Runs) σ 40 σ' := by
  obtain ⟨m, h1, h2⟩ := careful_module (refParse_sound (Program.eq_of_same auto_checks.1)) auto_checks.2.1 auto_checks.2.2.1
  refine ⟨m, h1, fun C L hk σ => ?_⟩
  obtain ⟨σ', hr⟩ := auto_prescribed L σ
  have hp : autoProg.effective.apart.Placed C.machine.toB (C.calls L.Runs) := by
    obtain ⟨c, hb, htw, _⟩ := apart_between h2
    exact placed_between hb (apart_names (effective_names (reads_names h2.1))) (Twin.loaded (Twin.symm htw) (loaded_of_links hk))
  exact ⟨σ', (C91_process h2 auto_checks.2.2.2.2.1 L hk (ps := []) (List.mem_cons_of_mem _ List.mem_cons_self)
    (C65_returns_right hp hr) _ _).2 (.inl hr)⟩

end Blang.Props
