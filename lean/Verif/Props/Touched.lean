import Verif.Props.Outputs
import Verif.Spec.Touched
/-
C70: which files the driver touches, at every moment of every run.

The list of events records every `create`, `write` and `remove` the driver performs and every command it
runs, in order, so what holds for all events of a run holds at every point at which it may be interrupted.
-/
namespace Blang.Props
open Blang Blang.Driver

/-- all events of a run of `x` satisfy `Q` -/
def Only (Q : Event → Prop) {α : Type} (x : D α) : Prop :=
  ∀ w r w', x w = (r, w') → ∃ es, w'.events = w.events ++ es ∧ ∀ e ∈ es, Q e

section
variable {Q : Event → Prop} {α β : Type}

theorem Only.pure (a : α) : Only Q (Pure.pure a : D α) := fun w r w' h => by cases h; exact ⟨[], by simp, by simp⟩
theorem Only.fail : Only Q (Driver.fail : D α) := fun w r w' h => by cases h; exact ⟨[], by simp, by simp⟩
theorem Only.panic : Only Q (Driver.panic : D α) := fun w r w' h => by cases h; exact ⟨[], by simp, by simp⟩

theorem Only.bind {x : D α} {f : α → D β} (hx : Only Q x) (hf : ∀ a, Only Q (f a)) : Only Q (x >>= f) := by
  intro w r w' h
  obtain ⟨r1, w1, h1⟩ : ∃ r1 w1, x w = (r1, w1) := ⟨_, _, rfl⟩
  obtain ⟨es1, e1, q1⟩ := hx _ _ _ h1
  cases r1 with
  | ok a =>
    rw [bind_ok h1] at h
    obtain ⟨es2, e2, q2⟩ := hf a _ _ _ h
    refine ⟨es1 ++ es2, by rw [e2, e1, List.append_assoc], fun e he => ?_⟩
    rcases List.mem_append.1 he with he | he
    · exact q1 e he
    · exact q2 e he
  | error => rw [bind_error h1] at h; cases h; exact ⟨es1, e1, q1⟩
  | panic => rw [bind_panic h1] at h; cases h; exact ⟨es1, e1, q1⟩

theorem Only.ite {p : Prop} [Decidable p] {x y : D α} (hx : p → Only Q x) (hy : ¬ p → Only Q y) : Only Q (if p then x else y) := by
  split
  · exact hx ‹_›
  · exact hy ‹_›

theorem Only.openRead (env : Env) (p : Path) : Only Q (openRead env p) := by
  intro w r w' h
  refine ⟨[], ?_, by simp⟩
  have : w' = w := by
    unfold Driver.openRead at h
    cases hf : w.fs p with
    | none => rw [hf] at h; cases h; rfl
    | some c =>
      rw [hf] at h
      dsimp only at h
      split at h
      · split at h <;> (cases h; rfl)
      · cases h; rfl
  rw [this]; simp

theorem Only.create (env : Env) {p : Path} (hq : Q (.create p)) : Only Q (create env p) := by
  intro w r w' h
  unfold Driver.create at h
  split at h <;> cases h
  · exact ⟨[.create p], rfl, by simpa using hq⟩
  · exact ⟨[], by simp, by simp⟩

theorem Only.writeString (env : Env) {p : Path} (c : Content) (hq : Q (.write p)) : Only Q (writeString env p c) := by
  intro w r w' h
  unfold Driver.writeString at h
  split at h <;> cases h <;> exact ⟨[.write p], rfl, by simpa using hq⟩

theorem Only.close (env : Env) (p : Path) : Only Q (close env p) := by
  intro w r w' h
  unfold Driver.close at h
  split at h <;> cases h <;> exact ⟨[], by simp, by simp⟩

theorem Only.remove (env : Env) {p : Path} (hq : Q (.remove p)) : Only Q (remove env p) := by
  intro w r w' h
  cases h; exact ⟨[.remove p], rfl, by simpa using hq⟩

theorem Only.runClang (env : Env) {c : List (List Char)} (hq : Q (.run c)) : Only Q (runClang env c) := by
  intro w r w' h
  cases h; exact ⟨[.run c], rfl, by simpa using hq⟩

theorem Only.single (env : Env) (i : Path) {o : Path} (h1 : Q (.create o)) (h2 : Q (.write o)) : Only Q (compileSingleTo env i o) := by
  unfold compileSingleTo
  refine Only.bind (Only.openRead env i) fun bt => ?_
  obtain ⟨bytes, tail⟩ := bt
  dsimp only
  split
  · exact Only.fail
  · refine Only.bind (Only.create env h1) fun _ => ?_
    split
    · exact Only.panic
    · exact Only.bind (Only.writeString env _ h2) fun _ => Only.close env o

theorem Only.cleanup (env : Env) (args : Options) {ts : List Path} (h : args.saveTemps = false → ∀ t ∈ ts, Q (.remove t)) :
    Only Q (cleanup env args ts) := by
  unfold Driver.cleanup
  refine Only.ite (fun _ => Only.pure _) fun hs => ?_
  replace h := h (by simpa using hs)
  clear hs
  induction ts with
  | nil => exact Only.pure _
  | cons t ts ih =>
    exact Only.bind (Only.remove env (h t (by simp))) fun _ => ih fun t ht => h t (by simp [ht])

theorem Only.clangOne (env : Env) (args : Options) (flag : List Char) (i o : Path) (ts : List Path)
    (hr : Q (.run (buildClangArgs args flag i o))) (h : args.saveTemps = false → ∀ t ∈ ts, Q (.remove t)) :
    Only Q (clangOne env args flag i o ts) :=
  Only.bind (Only.runClang env hr) fun ok => Only.bind (Only.cleanup env args h) fun _ =>
    Only.ite (fun _ => Only.pure _) fun _ => Only.fail

theorem Only.processOne (env : Env) (args : Options) (flag : List Char) (i o : Path)
    (h1 : Q (.create (o ++ tmpSuffix))) (h2 : Q (.write (o ++ tmpSuffix))) (h3 : args.saveTemps = false → Q (.remove (o ++ tmpSuffix)))
    (h4 : ext i ≠ ".b".toList → Q (.run (buildClangArgs args flag i o))) (h5 : Q (.run (buildClangArgs args flag (o ++ tmpSuffix) o))) :
    Only Q (processOne env args flag i o) := by
  unfold Driver.processOne
  refine Only.ite (fun hb => ?_) fun hb => ?_
  · dsimp only
    rw [compileToIR_one env args ((suffix_b_iff i).1 hb) (by simp [tmpSuffix])]
    exact Only.bind (Only.single env i h1 h2) fun _ => Only.clangOne env args flag _ o _ h5 fun hs t ht => by
      rw [List.mem_singleton.1 ht]; exact h3 hs
  · exact Only.clangOne env args flag i o [] (h4 fun e => hb ((suffix_b_iff i).2 e)) fun _ t ht => absurd ht (by simp)

theorem Only.forEach {p : Path → Path → D Unit} {e : Path} {l : List Path} (h : ∀ i ∈ l, Only Q (p i (defaultOut i e))) :
    Only Q (forEach p e l) := by
  induction l with
  | nil => exact Only.pure _
  | cons a l ih => exact Only.bind (h a (by simp)) fun _ => ih fun i hi => h i (by simp [hi])

theorem Only.exeLoop (env : Env) (args : Options) {l : List Path} : ∀ {i : Nat} {temps ci : List Path},
    (∀ t ∈ tempsOf args i l, Q (.create t) ∧ Q (.write t)) →
    (args.saveTemps = false → ∀ t ∈ temps ++ tempsOf args i l, Q (.remove t)) →
    Only Q (exeLoop env args i temps ci l) := by
  induction l with
  | nil => intro i temps ci _ _; exact Only.pure _
  | cons a l ih =>
    intro i temps ci h1 h2
    unfold Driver.exeLoop
    refine Only.ite (fun hb => ?_) fun hb => Only.ite (fun _ => ?_) fun _ => Only.fail
    · have et : tempsOf args i (a :: l) = exeTemp args i a :: tempsOf args (i + 1) l := by
        rw [tempsOf, if_pos hb]
      rw [et] at h1 h2
      dsimp only
      refine Only.bind ?_ fun _ => ih (fun t ht => h1 t (by simp [ht])) fun hs t ht => h2 hs t (by simpa using ht)
      intro w r w' h
      unfold exeCompile at h
      rw [compileToIR_one env args hb (exeTemp_ne args i a)] at h
      obtain ⟨r1, w1, e1⟩ : ∃ r1 w1, compileSingleTo env a (exeTemp args i a) w = (r1, w1) := ⟨_, _, rfl⟩
      obtain ⟨es1, f1, q1⟩ := Only.single (Q := Q) env a (h1 (exeTemp args i a) (by simp)).1 (h1 _ (by simp)).2 _ _ _ e1
      rw [e1] at h
      cases r1 with
      | ok u => cases h; exact ⟨es1, f1, q1⟩
      | panic => cases h; exact ⟨es1, f1, q1⟩
      | error =>
        have := Only.bind (Q := Q) (β := Unit) (Only.cleanup env args (ts := temps) fun hs t ht => h2 hs t (by simp [ht])) (fun _ => Only.fail) _ _ _ h
        obtain ⟨es2, f2, q2⟩ := this
        refine ⟨es1 ++ es2, by rw [f2, f1, List.append_assoc], fun e he => ?_⟩
        rcases List.mem_append.1 he with he | he
        · exact q1 e he
        · exact q2 e he
    · have et : tempsOf args i (a :: l) = tempsOf args (i + 1) l := by
        rw [tempsOf, if_neg hb]
      rw [et] at h1 h2
      exact ih h1 h2

theorem Only.exeMain (env : Env) (args : Options)
    (h1 : ∀ t ∈ tempsOf args 0 args.inputFiles, Q (.create t) ∧ Q (.write t))
    (h2 : args.saveTemps = false → ∀ t ∈ tempsOf args 0 args.inputFiles, Q (.remove t))
    (h3 : ∀ ci, Q (.run (linkArgs args ci))) : Only Q (exeMain env args) := by
  intro w r w' h
  unfold Driver.exeMain at h
  obtain ⟨r1, w1, e1⟩ : ∃ r1 w1, Driver.exeLoop env args 0 [] [] args.inputFiles w = (r1, w1) := ⟨_, _, rfl⟩
  have hl := Only.exeLoop (Q := Q) env args (l := args.inputFiles) (i := 0) (temps := []) (ci := []) h1 (by simpa using h2) _ _ _ e1
  obtain ⟨es1, f1, q1⟩ := hl
  cases r1 with
  | error => rw [bind_error e1] at h; cases h; exact ⟨es1, f1, q1⟩
  | panic => rw [bind_panic e1] at h; cases h; exact ⟨es1, f1, q1⟩
  | ok tc =>
    obtain ⟨T, C⟩ := tc
    rw [bind_ok e1] at h
    obtain ⟨t1, _⟩ := exeLoop_ok e1
    rw [List.nil_append] at t1
    subst t1
    obtain ⟨es2, f2, q2⟩ := (Only.bind (Only.runClang (Q := Q) env (h3 C)) fun ok => Only.bind (Only.cleanup env args h2) fun _ =>
      Only.ite (p := ok = true) (fun _ => Only.pure ()) fun _ => Only.fail) _ _ _ h
    refine ⟨es1 ++ es2, by rw [f2, f1, List.append_assoc], fun e he => ?_⟩
    rcases List.mem_append.1 he with he | he
    · exact q1 e he
    · exact q2 e he

end

theorem shape_tail (args : Options) (flag : List Char) (i o : Path) :
    buildClangArgs args flag i o = (optFlags args ++ [flag]) ++ "-o".toList :: o :: [i] := by
  simp [buildClangArgs]

theorem named_output {args : Options} (hm : args.outputType = .executable) (hi : args.inputFiles ≠ [])
    (hfirst : ∀ a, args.inputFiles.head? = some a → ext a ∈ accepts .executable) : IsOutput args (named args).outputFile := by
  unfold IsOutput named
  by_cases ho : args.outputFile = []
  · rw [if_neg (by simp [ho]), if_pos hm, if_pos ho]
    cases hl : args.inputFiles with
    | nil => exact absurd hl hi
    | cons a l => exact ⟨a, rfl, (outName_iff (accepts_ext _ _ (hfirst a (by rw [hl]; rfl))) rfl).2 rfl⟩
  · rw [if_pos ho, if_neg ho]

theorem named_temp {args : Options} (hm : args.outputType = .executable) (hout : IsOutput args (named args).outputFile) :
    ∀ t ∈ tempsOf (named args) 0 (named args).inputFiles, IsTemp args t := by
  intro t ht
  obtain ⟨k, inp, hk, hb, rfl⟩ := mem_tempsOf ht
  rw [named_inputs] at hk
  refine ⟨by simp [hm], ?_⟩
  unfold exeTemp
  split
  · exact .inl ⟨_, hout, rfl⟩
  · right
    refine ⟨hm, k, inp, trimSuffix (base inp) (ext inp), hk, ?_, by rw [Nat.zero_add]⟩
    have he : ∃ r, ".b".toList = '.' :: r ∧ '.' ∉ r ∧ '/' ∉ r := ⟨"b".toList, rfl, by decide, by decide⟩
    obtain ⟨s, hs⟩ := (ext_iff he).1 hb
    obtain ⟨stem, h⟩ := lastComponent_exists s
    have h3 : LastComponent inp (stem ++ ".b".toList) := by rw [hs]; exact lastComponent_append h (by decide)
    rw [base_of h3 (by simp), hb, trimSuffix_append]
    exact h3

/-- C70. Whatever happens — success, a failure at any point, a panic —, everything the driver does is
permitted: it creates and writes only the requested output (`--emit-llvm`) and temporaries, removes only
temporaries and those only without `--save-temps`, and asks `clang` to write only an output. -/
theorem C70_permitted {env : Env} {args : Options} {w w' : World} {r : Res Unit} (h : compile env args w = (r, w')) :
    ∃ es, w'.events = w.events ++ es ∧ ∀ e ∈ es, Permitted args e := by
  by_cases hm : args.outputType = .executable
  · by_cases hi : args.inputFiles = []
    · unfold compile compileToExecutable at h
      rw [hm] at h
      dsimp only at h
      rw [hi] at h
      split at h
      · cases h; exact ⟨[], by simp, by simp⟩
      · rename_i ho
        refine Only.exeMain env args ?_ ?_ ?_ _ _ _ h
        · simp [hi, tempsOf]
        · simp [hi, tempsOf]
        · intro ci
          refine ⟨by simp [hm], _, args.outputFile, [], ?_, rfl, .inl rfl⟩
          unfold IsOutput; rw [if_pos ho]
    · unfold compile at h; rw [hm] at h
      dsimp only at h
      rw [compileToExecutable_eq env args hi] at h
      -- the first input decides the name
      by_cases hfirst : ∃ i, args.inputFiles.head? = some i ∧ ext i ∉ accepts .executable
      · obtain ⟨i, h0, hx⟩ := hfirst
        obtain ⟨l, hl⟩ : ∃ l, args.inputFiles = i :: l := by
          cases he : args.inputFiles with
          | nil => exact absurd he hi
          | cons a l => rw [he] at h0; simp at h0; exact ⟨l, by rw [h0]⟩
        have : Driver.exeMain env (named args) w = (.error, w) := by
          have e1 : Driver.exeLoop env (named args) 0 [] [] (named args).inputFiles w = (.error, w) := by
            rw [named_inputs, hl]
            unfold Driver.exeLoop
            simp only [accepts, List.mem_cons, List.not_mem_nil, or_false, not_or] at hx
            rw [if_neg hx.1, if_neg (by rintro (h | h | h | h); (· exact hx.2.1 h); (· exact hx.2.2.1 h); (· exact hx.2.2.2.1 h); (· exact hx.2.2.2.2 h))]
            rfl
          unfold Driver.exeMain
          exact bind_error e1
        rw [this] at h
        cases h; exact ⟨[], by simp, by simp⟩
      · have hout := named_output hm hi (by
          intro a ha
          by_cases hx : ext a ∈ accepts .executable
          · exact hx
          · exact absurd ⟨a, ha, hx⟩ hfirst)
        have htemp := named_temp hm hout
        refine Only.exeMain env (named args) (fun t ht => ⟨.inr (htemp t ht), .inr (htemp t ht)⟩)
          (fun hs t ht => ⟨by rw [← named_save]; exact hs, htemp t ht⟩) ?_ _ _ _ h
        intro ci
        exact ⟨by simp [hm], _, _, [], hout, rfl, .inl rfl⟩
  · rw [compile_dispatch env args hm] at h
    split at h
    case isFalse => cases h; exact ⟨[], by simp, by simp⟩
    rename_i hx
    have hx : ∀ i ∈ args.inputFiles, ext i ∈ accepts args.outputType := by
      intro i hi
      simpa using List.all_eq_true.1 hx i hi
    have one : ∀ i ∈ args.inputFiles, ∀ o, IsOutput args o → Only (Permitted args) (process env args i o) := by
      intro i hi o ho
      have hf : ∀ flag, args.outputType ≠ .ir → Only (Permitted args) (processOne env args flag i o) := by
        intro flag hir
        have ht : IsTemp args (o ++ tmpSuffix) := ⟨hir, .inl ⟨o, ho, rfl⟩⟩
        refine Only.processOne env args flag i o (.inr ht) (.inr ht) (fun hs => ⟨hs, ht⟩)
          (fun _ => ⟨hir, _, o, [i], ho, shape_tail _ _ _ _, .inr ⟨i, rfl, .inl hi⟩⟩)
          ⟨hir, _, o, [o ++ tmpSuffix], ho, shape_tail _ _ _ _, .inr ⟨_, rfl, .inr ht⟩⟩
      unfold process
      cases hmode : args.outputType with
      | executable => exact absurd hmode hm
      | ir => exact Only.single env i (.inl ⟨hmode, ho⟩) (.inl ⟨hmode, ho⟩)
      | assembly => exact hf _ (by simp [hmode])
      | object => exact hf _ (by simp [hmode])
    unfold dispatch at h
    split at h
    · rename_i ho
      have hone : ∀ i, args.inputFiles = [i] → process env args i args.outputFile w = (r, w') →
          ∃ es, w'.events = w.events ++ es ∧ ∀ e ∈ es, Permitted args e := fun i hi h =>
        one i (by rw [hi]; simp) _ (by unfold IsOutput; rw [if_pos ho]) _ _ _ h
      generalize args.inputFiles = l at h hone
      match l, h, hone with
      | [], h, _ => cases h; exact ⟨[], by simp, by simp⟩
      | [i], h, hone => exact hone i rfl h
      | _ :: _ :: _, h, _ => cases h; exact ⟨[], by simp, by simp⟩
    · rename_i ho
      refine Only.forEach (fun i hi => one i hi _ ?_) _ _ _ h
      unfold IsOutput
      rw [if_neg ho, if_neg hm]
      exact ⟨i, hi, (outName_iff (accepts_ext _ _ (hx i hi)) rfl).2 rfl⟩

/-- C70. In particular, no source file is ever created, written or removed by the driver, unless the user
names one with `-o`. -/
theorem C70_sources {env : Env} {args : Options} {w w' : World} {r : Res Unit} (h : compile env args w = (r, w'))
    (ho : ¬ ExtIn args.outputFile [".b".toList]) :
    ∃ es, w'.events = w.events ++ es ∧
      ∀ p, ExtIn p [".b".toList] → Event.create p ∉ es ∧ Event.write p ∉ es ∧ Event.remove p ∉ es := by
  obtain ⟨es, e1, q⟩ := C70_permitted h
  refine ⟨es, e1, ?_⟩
  intro p hp
  rw [singleton_b] at hp ho
  have notTemp : ¬ IsTemp args p := by
    rintro ⟨_, ⟨o, _, rfl⟩ | ⟨_, k, i, stem, _, _, rfl⟩⟩
    · have : o ++ ".tmp.ll".toList = (o ++ ".tmp".toList) ++ ".ll".toList := by rw [List.append_assoc]; rfl
      rw [this, ext_append_ll] at hp
      revert hp; decide
    · rw [ext_append_ll] at hp
      revert hp; decide
  have notOut : ¬ (args.outputType = .ir ∧ IsOutput args p) := by
    rintro ⟨hm, hout⟩
    unfold IsOutput at hout
    split at hout
    · rw [hout] at hp; exact ho hp
    · rw [if_neg (by simp [hm])] at hout
      obtain ⟨i, _, stem, e, _, _, rfl⟩ := hout
      rw [hm] at hp
      rw [show outExt .ir = ".ll".toList from rfl, ext_append_ll] at hp
      revert hp; decide
  refine ⟨fun he => ?_, fun he => ?_, fun he => ?_⟩
  · exact (q _ he).elim notOut notTemp
  · exact (q _ he).elim notOut notTemp
  · exact notTemp (q _ he).2

/-- a run with events of all kinds -/
example :
    (compile marking (opts .object "" ["d/a.b", "b.b"] false) ⟨someFiles ["d/a.b", "b.b"], []⟩).2.events =
      [.create "a.o.tmp.ll".toList, .write "a.o.tmp.ll".toList,
       .run ["-c".toList, "-o".toList, "a.o".toList, "a.o.tmp.ll".toList], .remove "a.o.tmp.ll".toList,
       .create "b.o.tmp.ll".toList, .write "b.o.tmp.ll".toList,
       .run ["-c".toList, "-o".toList, "b.o".toList, "b.o.tmp.ll".toList], .remove "b.o.tmp.ll".toList] := by
  decide +kernel

/-- The default name of an executable can be that of a source: `blang a.b.b a.b` asks `clang` to write `a.b`. -/
theorem C70_executable_named_like_source :
    (runs (compile calm (opts .executable "" ["a.b.b", "a.b"] false) ⟨someFiles ["a.b.b", "a.b"], []⟩).2.events).map
      (fun c => c.drop (c.length - 2)) = [["-o".toList, "a.b".toList]] := by
  decide +kernel

end Blang.Props
