import Verif.Props.Driver
/-
C69: with several inputs, every input has its own result in its own output.
-/
namespace Blang.Props
open Blang Blang.Driver

/-- `clang` does its job: whenever it reports success for `… -o out in`, the file `in` existed, and `out` now
holds what the tool makes of its contents with those flags. -/
def Builds (env : Env) (tool : List (List Char) → Content → Content) : Prop :=
  ∀ w flags out inp, (env.clang w (flags ++ ["-o".toList, out, inp])).2 = true →
    ∃ c, w.fs inp = some c ∧ (env.clang w (flags ++ ["-o".toList, out, inp])).1 out = some (tool flags c)

/-- the flags of a run of `clang` without linking, as documented: optimisation, debug information, `-S` or `-c` -/
def toolFlags (args : Options) : List (List Char) :=
  (if args.optimize = 0 then [] else ["-O".toList ++ natDec args.optimize]) ++
  (if args.debugInfo then ["-g".toList] else []) ++
  [if args.outputType = .assembly then "-S".toList else "-c".toList]

/-- did the command succeed? -/
def succeeded : Res Unit → Bool
  | .ok _ => true
  | _ => false

/-- C69, `--emit-llvm` without `-o`: if the documented outputs of the inputs are different files, then after
success each of them holds the IR of its own input, and nothing else has changed. -/
theorem C69_ir {env : Env} {args : Options} {w w' : World} (hm : args.outputType = .ir) (ho : args.outputFile = [])
    (hd : args.inputFiles.Pairwise fun i j => ∀ o, OutName .ir i o → ¬ OutName .ir j o)
    (h : compile env args w = (.ok (), w')) :
    (∀ i ∈ args.inputFiles, ∀ o, OutName .ir i o → ∃ text, IrOf env w.fs i text ∧ w'.fs o = some text) ∧
    (∀ p, (∀ i ∈ args.inputFiles, ¬ OutName .ir i p) → w'.fs p = w.fs p) := by
  rw [compile_dispatch env args (by simp [hm])] at h
  split at h
  case isFalse => cases h
  rename_i hx
  have hx : ∀ i ∈ args.inputFiles, ext i = ".b".toList := by
    intro i hi
    have := List.all_eq_true.1 hx i hi
    rw [hm] at this
    simpa [accepts] using this
  unfold dispatch at h
  rw [if_neg (by simp [ho])] at h
  have hon : ∀ i ∈ args.inputFiles, ∀ o, OutName .ir i o ↔ o = defaultOut i ".ll".toList := fun i hi o =>
    outName_iff (accepts_ext .ir _ (by simp [accepts])) (hx i hi)
  have pr : process env args = compileSingleTo env := by
    funext a b; unfold process; rw [hm]
  rw [pr, hm] at h
  generalize args.inputFiles = l at hd h hx hon
  have extO : ∀ i : Path, ext (defaultOut i ".ll".toList) = ".ll".toList := fun i => ext_append_ll _
  have key : ∀ {l : List Path} {w w' : World}, (∀ i ∈ l, ext i = ".b".toList) →
      (l.map (defaultOut · ".ll".toList)).Nodup →
      forEach (compileSingleTo env) ".ll".toList l w = (.ok (), w') →
      (∀ i ∈ l, ∃ text, IrOf env w.fs i text ∧ w'.fs (defaultOut i ".ll".toList) = some text) ∧
      (∀ p, (∀ i ∈ l, p ≠ defaultOut i ".ll".toList) → w'.fs p = w.fs p) := by
    intro l
    induction l with
    | nil => intro w w' _ _ h; cases h; exact ⟨by simp, fun _ _ => rfl⟩
    | cons a l ih =>
      intro w w' hx nd h
      rw [forEach_cons] at h
      rw [List.map_cons, List.nodup_cons] at nd
      rcases compileSingleTo_cases env a (defaultOut a ".ll".toList) w with ⟨text, tr, h1⟩ | ⟨_, _, _, _, h1⟩ | h1 | ⟨_, h1⟩ <;> rw [h1] at h
      · obtain ⟨i1, i2⟩ := ih (fun i hi => hx i (by simp [hi])) nd.2 h
        refine ⟨?_, ?_⟩
        · intro i hi
          rcases List.mem_cons.1 hi with rfl | hi
          · refine ⟨text, tr.irOf, ?_⟩
            rw [i2 _ ?_, written_fs_eq]
            intro j hj e
            exact nd.1 (List.mem_map.2 ⟨j, hj, e.symm⟩)
          · obtain ⟨t, t1, t2⟩ := i1 i hi
            refine ⟨t, ?_, t2⟩
            obtain ⟨c, m, c1, c2⟩ := t1
            refine ⟨c, m, ?_, c2⟩
            rw [written_fs_ne] at c1
            · exact c1
            · intro e
              have e1 := hx i (by simp [hi])
              rw [e, extO] at e1
              revert e1; decide
        · intro p hp
          rw [i2 p (fun i hi => hp i (by simp [hi])), written_fs_ne (hp a (by simp))]
      · cases h
      · cases h
      · cases h
  have nd : (l.map (defaultOut · ".ll".toList)).Nodup := by
    rw [List.Nodup, List.pairwise_map]
    refine List.Pairwise.imp_of_mem ?_ hd
    intro a b ha hb hab e
    exact hab _ ((hon a ha _).2 rfl) ((hon b hb _).2 e)
  obtain ⟨k1, k2⟩ := key hx nd h
  refine ⟨fun i hi o hio => ?_, fun p hp => k2 p fun i hi e => hp i hi ((hon i hi _).2 e)⟩
  rw [hon i hi] at hio
  subst hio
  exact k1 i hi

example :
    let r := compile calm (opts .ir "" ["d/a.b", "b.b"] false) ⟨someFiles ["d/a.b", "b.b"], []⟩
    succeeded r.1 = true ∧ r.2.fs "a.ll".toList = some [102#8] ∧ r.2.fs "b.ll".toList = some [102#8] := by
  decide +kernel

/-- C69, `-S` and `-c` without `-o`, for a `clang` that does its job and touches no other file: if the
documented outputs of the inputs are different files, then after success the output of each source holds what
`clang` makes of the IR of that source, and the output of each other input that is not itself one of the
temporaries holds what `clang` makes of that input. -/
theorem C69_clang {env : Env} {args : Options} {w w' : World} {tool : List (List Char) → Content → Content}
    (hm : args.outputType = .assembly ∨ args.outputType = .object) (ho : args.outputFile = [])
    (hd : args.inputFiles.Pairwise fun i j => ∀ o, OutName args.outputType i o → ¬ OutName args.outputType j o)
    (hp : ClangPolite env) (hb : Builds env tool) (h : compile env args w = (.ok (), w')) :
    ∀ i ∈ args.inputFiles, ∀ o, OutName args.outputType i o →
      (ExtIn i [".b".toList] → ∃ text, IrOf env w.fs i text ∧ w'.fs o = some (tool (toolFlags args) text)) ∧
      (¬ ExtIn i [".b".toList] →
        (∀ j ∈ args.inputFiles, ∀ o', OutName args.outputType j o' → i ≠ o' ++ ".tmp.ll".toList) →
        ∃ c, w.fs i = some c ∧ w'.fs o = some (tool (toolFlags args) c)) := by
  have hir : args.outputType ≠ .ir := by rcases hm with h | h <;> simp [h]
  have hex : args.outputType ≠ .executable := by rcases hm with h | h <;> simp [h]
  obtain ⟨f1, f2, f3⟩ := outExt_facts hex hir
  rw [compile_dispatch env args hex] at h
  split at h
  case isFalse => cases h
  rename_i hx
  have hx : ∀ i ∈ args.inputFiles, ext i ∈ accepts args.outputType := by
    intro i hi
    simpa using List.all_eq_true.1 hx i hi
  unfold dispatch at h
  rw [if_neg (by simp [ho])] at h
  have hon : ∀ i ∈ args.inputFiles, ∀ o, OutName args.outputType i o ↔ o = defaultOut i (outExt args.outputType) := fun i hi o =>
    outName_iff (accepts_ext _ _ (hx i hi)) rfl
  obtain ⟨flag, pr, hfl⟩ : ∃ flag, process env args = processOne env args flag ∧
      ∀ out inp, buildClangArgs args flag inp out = toolFlags args ++ ["-o".toList, out, inp] := by
    have a : optFlags args = (if args.optimize = 0 then [] else ["-O".toList ++ natDec args.optimize]) ++
        (if args.debugInfo then ["-g".toList] else []) := by
      have a : (if 0 < args.optimize then [['-', 'O'] ++ natDec args.optimize] else []) =
          (if args.optimize = 0 then [] else ["-O".toList ++ natDec args.optimize]) := by
        by_cases h : args.optimize = 0
        · simp [h]
        · rw [if_pos (Nat.pos_of_ne_zero h), if_neg h]; rfl
      unfold optFlags
      rw [a]; rfl
    rcases hm with hm | hm
    · refine ⟨['-', 'S'], ?_, fun out inp => ?_⟩
      · funext a b; unfold process; rw [hm]
      · simp [buildClangArgs, toolFlags, a, hm]
    · refine ⟨['-', 'c'], ?_, fun out inp => ?_⟩
      · funext a b; unfold process; rw [hm]
      · simp [buildClangArgs, toolFlags, a, hm]
  rw [pr] at h
  have noEO : ∀ i ∈ args.inputFiles, ext i ≠ outExt args.outputType := by
    intro i hi e
    have := hx i hi
    rw [e] at this
    revert this
    rcases hm with hm | hm <;> rw [hm] <;> decide
  generalize args.inputFiles = l at hd h hx hon noEO
  generalize outExt args.outputType = e at h hon f1 f2 f3 noEO
  have extT : ∀ o : Path, ext (o ++ tmpSuffix) = ".ll".toList := by
    intro o
    have : o ++ tmpSuffix = (o ++ ".tmp".toList) ++ ".ll".toList := by rw [List.append_assoc]; rfl
    rw [this]; exact ext_append_ll _
  have extO : ∀ i : Path, ext (defaultOut i e) = e := fun i => (ext_iff f1).2 ⟨_, rfl⟩
  have tneO : ∀ o i : Path, o ++ tmpSuffix ≠ defaultOut i e := by
    intro o i h
    have := congrArg ext h
    rw [extT, extO] at this
    exact f2 this.symm
  have tne : ∀ o : Path, o ++ tmpSuffix ≠ o := by
    intro o e
    have := congrArg List.length e
    simp [tmpSuffix] at this
  have shape : ∀ i o : Path, buildClangArgs args flag i o = toolFlags args ++ ['-', 'o'] :: o :: [i] := fun i o => hfl o i
  -- one input
  have one : ∀ {i o : Path} {w w' : World}, processOne env args flag i o w = (.ok (), w') →
      (ext i = ".b".toList → ∃ text, IrOf env w.fs i text ∧ w'.fs o = some (tool (toolFlags args) text)) ∧
      (ext i ≠ ".b".toList → ∃ c, w.fs i = some c ∧ w'.fs o = some (tool (toolFlags args) c)) ∧
      (∀ p, p ≠ o → p ≠ o ++ tmpSuffix → w'.fs p = w.fs p) := by
    intro i o w w' h
    rcases processOne_cases env args flag i o w with ⟨hb', h1⟩ | ⟨hb', text, fs, tr, h1, h2, h3, h4⟩ | ⟨_, _, _, _, _, h1⟩ | ⟨_, h1⟩ | ⟨_, _, h1⟩
    · rw [h] at h1
      simp only [Prod.mk.injEq] at h1
      obtain ⟨hok, rfl⟩ := h1
      have hok : (env.clang w (buildClangArgs args flag i o)).2 = true := by
        cases hc : (env.clang w (buildClangArgs args flag i o)).2
        · rw [hc] at hok; cases hok
        · rfl
      refine ⟨fun e => absurd e hb', fun _ => ?_, fun p hpo _ => hp w _ _ o _ p (shape i o) hpo⟩
      rw [hfl] at hok ⊢
      exact hb w _ o i hok
    · rw [h] at h1
      simp only [Prod.mk.injEq] at h1
      obtain ⟨hok, rfl⟩ := h1
      have hok : (env.clang (written w (o ++ tmpSuffix) text) (buildClangArgs args flag (o ++ tmpSuffix) o)).2 = true := by
        cases hc : (env.clang (written w (o ++ tmpSuffix) text) (buildClangArgs args flag (o ++ tmpSuffix) o)).2
        · rw [hc] at hok; cases hok
        · rfl
      refine ⟨fun _ => ⟨text, tr.irOf, ?_⟩, fun e => absurd hb' e, fun p h1 hpt => ?_⟩
      · rw [hfl] at hok
        obtain ⟨c, c1, c2⟩ := hb _ _ _ _ hok
        rw [written_fs_eq] at c1
        cases c1
        show fs o = _
        rw [h2 o (fun e => tne o e.symm), hfl]
        exact c2
      · show fs p = _
        rw [h2 p hpt, hp _ _ _ o _ p (shape _ o) h1, written_fs_ne hpt]
    · rw [h] at h1; cases h1
    · rw [h] at h1; cases h1
    · rw [h] at h1; cases h1
  have key : ∀ {l : List Path} {w w' : World}, (∀ i ∈ l, ext i ≠ e) → (l.map (defaultOut · e)).Nodup →
      forEach (processOne env args flag) e l w = (.ok (), w') →
      (∀ i ∈ l, (ext i = ".b".toList → ∃ text, IrOf env w.fs i text ∧ w'.fs (defaultOut i e) = some (tool (toolFlags args) text)) ∧
        (ext i ≠ ".b".toList → (∀ j ∈ l, i ≠ defaultOut j e ++ tmpSuffix) →
          ∃ c, w.fs i = some c ∧ w'.fs (defaultOut i e) = some (tool (toolFlags args) c))) ∧
      (∀ p, (∀ i ∈ l, p ≠ defaultOut i e ∧ p ≠ defaultOut i e ++ tmpSuffix) → w'.fs p = w.fs p) := by
    intro l
    induction l with
    | nil => intro w w' _ _ h; cases h; exact ⟨by simp, fun _ _ => rfl⟩
    | cons a l ih =>
      intro w w' hx nd h
      rw [forEach_cons] at h
      rw [List.map_cons, List.nodup_cons] at nd
      obtain ⟨r1, w1, h1⟩ : ∃ r1 w1, processOne env args flag a (defaultOut a e) w = (r1, w1) := ⟨_, _, rfl⟩
      rw [h1] at h
      cases r1 with
      | error => cases h
      | panic => cases h
      | ok u =>
        obtain ⟨i1, i2⟩ := ih (fun i hi => hx i (by simp [hi])) nd.2 h
        obtain ⟨o1, o2, o3⟩ := one h1
        have keep : w'.fs (defaultOut a e) = w1.fs (defaultOut a e) := by
          refine i2 _ fun j hj => ⟨fun e' => nd.1 (List.mem_map.2 ⟨j, hj, e'.symm⟩), fun e' => tneO _ _ e'.symm⟩
        refine ⟨?_, ?_⟩
        · intro i hi
          rcases List.mem_cons.1 hi with rfl | hi
          · rw [keep]
            exact ⟨o1, fun hb' _ => o2 hb'⟩
          · obtain ⟨j1, j2⟩ := i1 i hi
            have neO : i ≠ defaultOut a e := fun e' => hx i (by simp [hi]) (by rw [e']; exact extO a)
            refine ⟨fun hb' => ?_, fun hb' ht => ?_⟩
            · obtain ⟨t, ⟨c, m, c1, c2⟩, t2⟩ := j1 hb'
              refine ⟨t, ⟨c, m, ?_, c2⟩, t2⟩
              rw [← c1]
              refine (o3 i neO ?_).symm
              intro e'
              rw [e', extT] at hb'
              revert hb'; decide
            · obtain ⟨c, c1, c2⟩ := j2 hb' fun j hj => ht j (by simp [hj])
              refine ⟨c, ?_, c2⟩
              rw [← c1]
              exact (o3 i neO (ht a (by simp))).symm
        · intro p hp'
          rw [i2 p (fun i hi => hp' i (by simp [hi]))]
          exact o3 p (hp' a (by simp)).1 (hp' a (by simp)).2
  have nd : (l.map (defaultOut · e)).Nodup := by
    rw [List.Nodup, List.pairwise_map]
    refine List.Pairwise.imp_of_mem ?_ hd
    intro a b ha hb hab e'
    exact hab _ ((hon a ha _).2 rfl) ((hon b hb _).2 e')
  obtain ⟨k1, _⟩ := key noEO nd h
  intro i hi o hio
  rw [hon i hi] at hio
  subst hio
  rw [singleton_b]
  refine ⟨(k1 i hi).1, fun hb' ht => (k1 i hi).2 hb' fun j hj => ht j hj _ ((hon j hj _).2 rfl)⟩

/-- a `clang` that marks what it translates, for the examples -/
def marking : Env := { calm with
  clang := fun w c => match c.reverse with
    | i :: o :: _ => match w.fs i with
      | some x => (w.fs.set o (some (0#8 :: x)), true)
      | none => (w.fs, false)
    | _ => (w.fs, false) }

theorem marking_builds : Builds marking fun _ c => 0#8 :: c := by
  intro w flags out inp h
  have e : (flags ++ ["-o".toList, out, inp]).reverse = inp :: out :: "-o".toList :: flags.reverse := by simp
  unfold marking at h ⊢
  dsimp only at h ⊢
  rw [e] at h ⊢
  dsimp only at h ⊢
  cases hc : w.fs inp with
  | none => rw [hc] at h; cases h
  | some x => exact ⟨x, rfl, by simp [FS.set]⟩

example :
    let r := compile marking (opts .object "" ["d/a.b", "b.b"] false) ⟨someFiles ["d/a.b", "b.b"], []⟩
    r.2.fs "a.o".toList = some [0#8, 102#8] ∧ r.2.fs "b.o".toList = some [0#8, 102#8] ∧
      r.2.fs "a.o.tmp.ll".toList = none := by decide +kernel

/-- C69 needs the outputs to differ: of two sources with the same base name only the last leaves its result
(here a module of two functions; the first source has one), and the command reports success. -/
theorem C69_same_name :
    let w : World := ⟨fun p => if p = "e/a.b".toList then some (bytesOf "f(){}g(){}") else someFiles ["d/a.b"] p, []⟩
    let one := compile marking (opts .object "" ["d/a.b"] false) w
    let both := compile marking (opts .object "" ["d/a.b", "e/a.b"] false) w
    one.2.fs "a.o".toList = some [0#8, 102#8] ∧
      succeeded both.1 = true ∧ both.2.fs "a.o".toList = some [0#8, 102#8, 102#8] := by
  decide +kernel

/-- C37 needs its hypothesis: with `-o a.tmp.0.ll --save-temps` the saved IR of `a.b` is overwritten by the
executable. -/
theorem C37_output_counterexample :
    let w : World := ⟨someFiles ["a.b", "b.b"], []⟩
    let env : Env := { calm with clang := fun w c => match c.reverse with
      | o :: _ => (w.fs.set o (some [1#8]), true)
      | _ => (w.fs, false) }
    let r := compile env (opts .executable "a.tmp.0.ll" ["a.b", "b.b"] true) w
    created r.2.events = ["a.tmp.0.ll".toList, "b.tmp.1.ll".toList] ∧
      r.2.fs "a.tmp.0.ll".toList = some [1#8] ∧ r.2.fs "b.tmp.1.ll".toList = some [102#8] := by
  decide +kernel

end Blang.Props
