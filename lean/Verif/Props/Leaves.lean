import Verif.Spec.Leaves
import Verif.Props.Driver
/-
C92: what a link leaves behind, file by file.
-/
namespace Blang.Props
open Blang Blang.Driver

theorem exeLoop_append {env : Env} {args : Options} {pre rest : List Path} : ∀ {i : Nat} {temps ci T C : List Path} {w w1 : World},
    exeLoop env args i temps ci pre w = (.ok (T, C), w1) →
    exeLoop env args i temps ci (pre ++ rest) w = exeLoop env args (i + pre.length) T C rest w1 := by
  induction pre with
  | nil =>
    intro i temps ci T C w w1 h
    cases h
    rfl
  | cons a pre ih =>
    intro i temps ci T C w w1 h
    rw [List.cons_append, show i + (a :: pre).length = i + 1 + pre.length by simp; omega]
    unfold exeLoop at h
    conv => lhs; unfold exeLoop
    split at h
    · rename_i hb
      rw [if_pos hb]
      dsimp only at h ⊢
      generalize e : exeCompile env args temps a (exeTemp args i a) w = x at h
      obtain ⟨r, w2⟩ := x
      cases r with
      | ok u => rw [bind_ok e] at h; rw [bind_ok e]; exact ih h
      | error => rw [bind_error e] at h; cases h
      | panic => rw [bind_panic e] at h; cases h
    · rename_i hb
      rw [if_neg hb]
      split at h
      · rename_i hx
        rw [if_pos hx]
        exact ih h
      · cases h

theorem smooth_translates {env : Env} (sm : Untroubled env) {w : World} {i : Path} {text : Content} (h : IrOf env w.fs i text) : Translates env w i text := by
  obtain ⟨c, m, h1, h2, h3⟩ := h
  exact ⟨c, m, h1, sm.opens _ _, sm.reads _ _, h2, h3⟩

theorem written_by {env : Env} (sm : Untroubled env) {w : World} {i o : Path} {text : Content} (h : Translates env w i text) :
    compileSingleTo env i o w = (.ok (), written w o text) := by
  obtain ⟨c, m, h1, h2, h3, h4, h5⟩ := h
  unfold compileSingleTo
  have e1 : openRead env i w = (.ok (c, .eof), w) := by unfold openRead; rw [h1]; simp [h2, h3]
  rw [bind_ok e1]
  dsimp only
  rw [h4]
  dsimp only
  have e2 : create env o w = (.ok (), ⟨w.fs.set o (some []), w.events ++ [.create o]⟩) := by unfold create; rw [if_pos (sm.creates _ _)]
  rw [bind_ok e2, h5]
  dsimp only
  have e3 : ∀ w, writeString env o text w = (.ok (), ⟨w.fs.set o (some text), w.events ++ [.write o]⟩) := by
    intro w; unfold writeString; rw [sm.io.1]
  rw [bind_ok (e3 _)]
  unfold close
  rw [if_pos (sm.io.2.1 _ _)]
  unfold written
  congr 2
  · funext q; simp only [FS.set]; split <;> rfl
  · simp

/-- usable inputs only: the pass over them succeeds -/
theorem exeLoop_usable {env : Env} (sm : Untroubled env) {args : Options} {inps : List Path} : ∀ {i : Nat} {temps ci : List Path} {w : World},
    (∀ j ∈ inps, Usable env w.fs j) → ∃ T C w', exeLoop env args i temps ci inps w = (.ok (T, C), w') := by
  induction inps with
  | nil => intro i temps ci w _; exact ⟨_, _, _, rfl⟩
  | cons a inps ih =>
    intro i temps ci w hu
    unfold exeLoop
    rcases hu a (by simp) with ⟨hb, text, ht⟩ | ⟨hb, hx⟩
    · rw [singleton_b] at hb
      rw [if_pos hb]
      have e : exeCompile env args temps a (exeTemp args i a) w = (.ok (), written w (exeTemp args i a) text) := by
        unfold exeCompile
        rw [compileToIR_one env args hb (exeTemp_ne _ _ _), written_by sm (smooth_translates sm ht)]
      rw [bind_ok e]
      apply ih
      intro j hj
      rcases hu j (by simp [hj]) with ⟨h1, tx, c, m, h2⟩ | h
      · refine .inl ⟨h1, tx, c, m, ?_, h2.2⟩
        rw [written_fs_ne fun e => exeTemp_ne_b args i a ((singleton_b _).1 h1) e.symm]
        exact h2.1
      · exact .inr h
    · rw [singleton_b] at hb
      rw [accepts_iff] at hx
      rw [if_neg hb, if_pos ((List.mem_cons.1 hx).resolve_left hb |> fun h => by simpa using h)]
      exact ih fun j hj => hu j (by simp [hj])

/-- the temporaries made so far, in the words of the specification -/
theorem tempFor_mem {env : Env} {args : Options} (ho : args.outputFile ≠ []) {fs : FS} {pre post : List Path} (hi : args.inputFiles = pre ++ post) {t : Path} :
    (∃ text, TempFor env args fs pre.length t text) → t ∈ tempsOf args 0 pre := by
  rintro ⟨text, k, i, hk, h1, h2, h3, h4⟩
  rw [singleton_b] at h2
  rw [linkTemp_iff ho h2] at h3
  rw [hi, List.getElem?_append_left hk] at h1
  have := tempsOf_mem (args := args) (i := 0) h1 h2
  rw [Nat.zero_add] at this
  exact h3 ▸ this

theorem mem_tempFor {env : Env} {args : Options} (ho : args.outputFile ≠ []) {w : World} {pre post : List Path} (hi : args.inputFiles = pre ++ post)
    (hu : ∀ j ∈ pre, Usable env w.fs j) {t : Path} (h : t ∈ tempsOf args 0 pre) : ∃ text, TempFor env args w.fs pre.length t text := by
  obtain ⟨k, i, h1, h2, h3⟩ := mem_tempsOf h
  obtain ⟨hk, _⟩ := List.getElem?_eq_some_iff.1 h1
  rcases hu i (List.mem_of_getElem? h1) with ⟨_, text, ht⟩ | ⟨hb, _⟩
  · exact ⟨text, k, i, hk, by rw [hi, List.getElem?_append_left hk]; exact h1, (singleton_b _).2 h2,
      (linkTemp_iff ho h2).2 (by rw [h3, Nat.zero_add]), ht⟩
  · exact absurd ((singleton_b _).2 h2) hb

theorem irOf_unique {env : Env} {fs : FS} {i : Path} {t t' : Content} (h : IrOf env fs i t) (h' : IrOf env fs i t') : t = t' := by
  obtain ⟨c, m, h1, h2, h3⟩ := h
  obtain ⟨c', m', h1', h2', h3'⟩ := h'
  rw [h1] at h1'; cases h1'
  rw [h2] at h2'; cases h2'
  rw [h3] at h3'; cases h3'
  rfl

/-- what holds after the usable inputs `pre` -/
theorem usable_inputs_pass {env : Env} (sm : Untroubled env) {args : Options} (ho : args.outputFile ≠ []) {w : World} {pre post : List Path}
    (hi : args.inputFiles = pre ++ post) (hu : ∀ j ∈ pre, Usable env w.fs j) :
    ∃ C w1, exeLoop env args 0 [] [] pre w = (.ok (tempsOf args 0 pre, C), w1) ∧ C = linkInputs args 0 pre ∧
      w1.events = w.events ++ (tempsOf args 0 pre).flatMap (fun t => [.create t, .write t]) ∧
      (∀ t text, TempFor env args w.fs pre.length t text → w1.fs t = some text) ∧ ∀ p, p ∉ tempsOf args 0 pre → w1.fs p = w.fs p := by
  obtain ⟨T, C, w1, h⟩ := exeLoop_usable sm (args := args) (i := 0) (temps := []) (ci := []) hu
  obtain ⟨e1, e2, e3, e4, e5, e6⟩ := exeLoop_ok h
  rw [List.nil_append] at e1 e2
  subst e1 e2
  have nd : (tempsOf args 0 pre).Nodup := by
    have := tempsOf_nodup args
    rw [hi] at this
    have app : ∀ (l r : List Path) i, tempsOf args i (l ++ r) = tempsOf args i l ++ tempsOf args (i + l.length) r := by
      intro l
      induction l with
      | nil => intro r i; rfl
      | cons a l ih =>
        intro r i
        rw [List.cons_append]
        conv => lhs; unfold tempsOf
        conv => rhs; lhs; unfold tempsOf
        rw [ih, show i + (a :: l).length = i + 1 + l.length by simp; omega]
        split <;> rfl
    rw [app] at this
    exact (List.nodup_append.1 this).1
  refine ⟨_, w1, h, rfl, e3, ?_, e4⟩
  rintro t text ⟨k, i, hk, h1, h2, h3, h4⟩
  rw [singleton_b] at h2
  rw [linkTemp_iff ho h2] at h3
  rw [hi, List.getElem?_append_left hk] at h1
  obtain ⟨tx, h5, h6⟩ := e6 nd k i h1 h2
  rw [Nat.zero_add, ← h3] at h6
  rw [h6, irOf_unique h5 h4]

/-- C92. A link that meets an input it cannot use, the first of them being `i` after `pre`: it fails, `clang` is not run, and afterwards every
file is as before, except the temporaries of the sources before it.  These are gone; they are there and hold the IR if `--save-temps` was given or
if `i` is not a source at all. -/
theorem C92_stopped {env : Env} (sm : Untroubled env) {args : Options} (hm : args.outputType = .executable) (ho : args.outputFile ≠ []) {w : World}
    {pre post : List Path} {i : Path} (hi : args.inputFiles = pre ++ i :: post) (hu : ∀ j ∈ pre, Usable env w.fs j) (hn : ¬ Usable env w.fs i) :
    ∃ w', compile env args w = (.error, w') ∧ runs w'.events = runs w.events ∧
      (∀ t text, TempFor env args w.fs pre.length t text →
        (args.saveTemps = true ∨ ¬ ExtIn i [".b".toList] → w'.fs t = some text) ∧
        (args.saveTemps = false ∧ ExtIn i [".b".toList] → w'.fs t = none)) ∧
      ∀ p, (∀ text, ¬ TempFor env args w.fs pre.length p text) → w'.fs p = w.fs p := by
  have hc : compile env args = exeMain env args := by
    unfold compile
    rw [hm]
    dsimp only
    rw [compileToExecutable_eq env args (by simp [hi]), named_of ho]
  obtain ⟨C, w1, h1, _, h2, h3, h4⟩ := usable_inputs_pass sm ho hi hu
  have hr1 : runs w1.events = runs w.events := by
    rw [h2, runs_append]
    have : ∀ T : List Path, runs (T.flatMap fun t => [Event.create t, .write t]) = [] := by
      intro T
      induction T with
      | nil => rfl
      | cons a T ih => rw [List.flatMap_cons, runs_append, ih]; rfl
    rw [this, List.append_nil]
  have hx : ∀ p, (∀ text, ¬ TempFor env args w.fs pre.length p text) → p ∉ tempsOf args 0 pre := fun p hp hm =>
    (mem_tempFor ho hi hu hm).elim hp
  have main : ∀ w', exeLoop env args (0 + pre.length) (tempsOf args 0 pre) C (i :: post) w1 = (.error, w') →
      compile env args w = (.error, w') := by
    intro w' h
    rw [hc]
    unfold exeMain
    rw [hi]
    exact bind_error (by rw [exeLoop_append h1, h])
  by_cases hb : ext i = ".b".toList
  · obtain ⟨fs, e, k1, k2, k3⟩ : ∃ fs, exeCompile env args (tempsOf args 0 pre) i (exeTemp args (0 + pre.length) i) w1 =
        (.error, ⟨fs, w1.events ++ if args.saveTemps then [] else (tempsOf args 0 pre).map .remove⟩) ∧
        (∀ p, p ∉ tempsOf args 0 pre → fs p = w1.fs p) ∧ (args.saveTemps = true → fs = w1.fs) ∧
        (args.saveTemps = false → ∀ p ∈ tempsOf args 0 pre, fs p = none) := by
      rcases exeCompile_cases env args (tempsOf args 0 pre) (exeTemp args (0 + pre.length) i) w1 hb (exeTemp_ne _ _ _) with
        ⟨text, tr, _⟩ | ⟨w0, fs, h0, e, k1, k2, k3⟩ | ⟨⟨m, hp⟩, _⟩
      · obtain ⟨c, m, t1, t2⟩ := tr.irOf
        refine absurd (.inl ⟨(singleton_b _).2 hb, text, c, m, ?_, t2⟩) hn
        rw [← t1, h4 i fun hm => ?_]
        obtain ⟨k, j, _, _, e⟩ := mem_tempsOf hm
        exact exeTemp_ne_b _ _ _ hb e.symm
      · rcases h0 with rfl | ⟨_, ⟨w2, h0⟩ | ⟨w2, h0⟩⟩
        · exact ⟨fs, e, k1, k2, fun h => k3 h sm.io.2.2.1⟩
        · exact absurd (sm.io.1 _ _) h0
        · rw [sm.io.2.1] at h0; cases h0
      · exact absurd hp (sm.io.2.2.2 m)
    refine ⟨⟨fs, w1.events ++ if args.saveTemps then [] else (tempsOf args 0 pre).map .remove⟩, main _ ?_, ?_, ?_, ?_⟩
    · unfold exeLoop
      rw [if_pos hb]
      exact bind_error e
    · show runs (w1.events ++ _) = _
      rw [runs_append, hr1]
      split
      · simp [runs]
      · have : ∀ T : List Path, runs (T.map Event.remove) = [] := by
          intro T
          induction T with
          | nil => rfl
          | cons a T ih => simpa [runs] using ih
        rw [this, List.append_nil]
    · intro t text ht
      refine ⟨fun h => ?_, fun h => k3 h.1 t (tempFor_mem ho hi ⟨text, ht⟩)⟩
      rcases h with h | h
      · show fs t = _
        rw [k2 h, h3 t text ht]
      · exact absurd ((singleton_b _).2 hb) h
    · intro p hp
      show fs p = _
      rw [k1 p (hx p hp), h4 p (hx p hp)]
  · refine ⟨w1, main _ ?_, hr1, fun t text ht => ⟨fun _ => h3 t text ht, fun h => absurd ((singleton_b _).1 h.2) hb⟩, fun p hp => h4 p (hx p hp)⟩
    unfold exeLoop
    rw [if_neg hb, if_neg fun h => ?_]
    · rfl
    · exact hn (.inr ⟨fun h => hb ((singleton_b _).1 h), (accepts_iff _ _).2 (List.mem_cons_of_mem _ (by simpa using h))⟩)

/-- C92. A link of usable inputs: `clang` is run once, in a world in which the temporaries of all sources hold their IR and all other files are as
before.  Afterwards every file is as `clang` left it, except that without `--save-temps` the temporaries are gone, also one that is the output. -/
theorem C92_linked {env : Env} (sm : Untroubled env) {args : Options} (hm : args.outputType = .executable) (ho : args.outputFile ≠ []) {w : World}
    (hne : args.inputFiles ≠ []) (hu : ∀ j ∈ args.inputFiles, Usable env w.fs j) :
    ∃ w1 cmd w', compile env args w = (if (env.clang w1 cmd).2 then .ok () else .error, w') ∧ runs w'.events = runs w.events ++ [cmd] ∧
      (∃ before, cmd = before ++ ["-o".toList, args.outputFile]) ∧
      (∀ t text, TempFor env args w.fs args.inputFiles.length t text → w1.fs t = some text ∧
        (args.saveTemps = true → w'.fs t = (env.clang w1 cmd).1 t) ∧ (args.saveTemps = false → w'.fs t = none)) ∧
      ∀ p, (∀ text, ¬ TempFor env args w.fs args.inputFiles.length p text) → w1.fs p = w.fs p ∧ w'.fs p = (env.clang w1 cmd).1 p := by
  have hc : compile env args = exeMain env args := by
    unfold compile
    rw [hm]
    dsimp only
    rw [compileToExecutable_eq env args hne, named_of ho]
  have hi : args.inputFiles = args.inputFiles ++ [] := (List.append_nil _).symm
  obtain ⟨C, w1, h1, rfl, h2, h3, h4⟩ := usable_inputs_pass sm ho hi hu
  have hx : ∀ p, (∀ text, ¬ TempFor env args w.fs args.inputFiles.length p text) → p ∉ tempsOf args 0 args.inputFiles := fun p hp hm =>
    (mem_tempFor ho hi hu hm).elim hp
  have fl : ∀ T : List Path, runs (T.flatMap fun t => [Event.create t, .write t]) = [] := by
    intro T
    induction T with
    | nil => rfl
    | cons a T ih => rw [List.flatMap_cons, runs_append, ih]; rfl
  have rm : ∀ T : List Path, runs (T.map Event.remove) = [] := by
    intro T
    induction T with
    | nil => rfl
    | cons a T ih => simp [runs]
  generalize hcmd : linkArgs args (linkInputs args 0 args.inputFiles) = cmd
  obtain ⟨fs, c1, c2, c3, c4⟩ := cleanup_run (env := env) (args := args) (tempsOf args 0 args.inputFiles)
    ⟨(env.clang w1 cmd).1, w1.events ++ [.run cmd]⟩
  refine ⟨w1, cmd, ⟨fs, (w1.events ++ [.run cmd]) ++ if args.saveTemps then [] else (tempsOf args 0 args.inputFiles).map .remove⟩, ?_, ?_, ?_, ?_, ?_⟩
  · rw [hc]
    unfold exeMain
    rw [bind_ok h1]
    dsimp only
    rw [hcmd, bind_ok (show runClang env cmd w1 = (.ok (env.clang w1 cmd).2, ⟨(env.clang w1 cmd).1, w1.events ++ [.run cmd]⟩) from rfl), bind_ok c1]
    split <;> rfl
  · show runs (_ ++ _) = _
    rw [runs_append, runs_append, h2, runs_append, fl]
    split
    · simp [runs]
    · rw [rm]; simp [runs]
  · rw [← hcmd]
    exact ⟨_, rfl⟩
  · intro t text ht
    refine ⟨h3 t text ht, fun hs => ?_, fun hs => c4 hs sm.io.2.2.1 t (tempFor_mem ho hi ⟨text, ht⟩)⟩
    show fs t = _
    rw [c3 hs]
  · intro p hp
    exact ⟨h4 p (hx p hp), c2 p (hx p hp)⟩

/-- C92, for the output: without `--save-temps`, a link of usable inputs under a requested output name that is the name of a temporary leaves no
output file; under any other name it leaves what `clang` made of it. -/
theorem C92_output {env : Env} (sm : Untroubled env) {args : Options} (hm : args.outputType = .executable) (ho : args.outputFile ≠ []) {w : World}
    (hne : args.inputFiles ≠ []) (hs : args.saveTemps = false) (hu : ∀ j ∈ args.inputFiles, Usable env w.fs j) :
    ∃ w1 cmd w', compile env args w = (if (env.clang w1 cmd).2 then .ok () else .error, w') ∧
      ((∃ k i, args.inputFiles[k]? = some i ∧ ExtIn i [".b".toList] ∧ LinkTemp args.inputFiles.length args.outputFile k i args.outputFile) →
        w'.fs args.outputFile = none) ∧
      ((¬ ∃ k i, args.inputFiles[k]? = some i ∧ ExtIn i [".b".toList] ∧ LinkTemp args.inputFiles.length args.outputFile k i args.outputFile) →
        w'.fs args.outputFile = (env.clang w1 cmd).1 args.outputFile) := by
  obtain ⟨w1, cmd, w', h1, _, _, h2, h3⟩ := C92_linked sm hm ho hne hu
  refine ⟨w1, cmd, w', h1, fun h => ?_, fun h => ?_⟩
  · obtain ⟨k, i, hk, hb, ht⟩ := h
    rcases hu i (List.mem_of_getElem? hk) with ⟨_, text, hi⟩ | ⟨hb', _⟩
    · exact (h2 _ text ⟨k, i, (List.getElem?_eq_some_iff.1 hk).1, hk, hb, ht, hi⟩).2.2 hs
    · exact absurd hb hb'
  · exact (h3 _ fun text ⟨k, i, _, hk, hb, ht, _⟩ => h ⟨k, i, hk, hb, ht⟩).2

/-! ### examples -/

theorem calm_smooth : Untroubled calm := ⟨calm_noIo, fun _ _ => rfl, fun _ _ => rfl, fun _ _ => rfl⟩

theorem good_usable {fs : FS} {i : Path} (hb : ExtIn i [".b".toList]) (h : fs i = some (bytesOf "main(){}")) : Usable calm fs i := by
  obtain ⟨m, hm⟩ : ∃ m, compileFile (bytesOf "main(){}") .eof = .ok m := by
    cases e : compileFile (bytesOf "main(){}") .eof with
    | ok m => exact ⟨m, rfl⟩
    | error x =>
      have : (match compileFile (bytesOf "main(){}") .eof with | .ok _ => true | .error _ => false) = true := by decide +kernel
      rw [e] at this; cases this
  exact .inl ⟨hb, _, _, m, h, hm, rfl⟩

theorem bad_unusable {fs : FS} (h : fs "bad.b".toList = some (bytesOf "main({")) : ¬ Usable calm fs "bad.b".toList := by
  have bad : (match compileFile (bytesOf "main({") .eof with | .ok _ => true | .error _ => false) = false := by decide +kernel
  rintro (⟨_, _, c, m, h1, h2, _⟩ | ⟨hb, _⟩)
  · rw [h] at h1; cases h1
    rw [h2] at bad; cases bad
  · exact hb ((singleton_b _).2 (by decide))

theorem wrong_unusable {fs : FS} : ¬ Usable calm fs "b.txt".toList := by
  rintro (⟨hb, _⟩ | ⟨_, hx⟩)
  · rw [singleton_b] at hb; revert hb; decide
  · rw [accepts_iff] at hx; revert hx; decide

/-- C92_stopped: `blang -o x a.b bad.b`, and `a.b b.txt` given to the library -/
example : (∃ w', compile calm (opts .executable "x" ["a.b", "bad.b"] false) ⟨someFiles ["a.b", "a.tmp.0.ll"], []⟩ = (.error, w') ∧
      w'.fs "a.tmp.0.ll".toList = none ∧ w'.fs "a.b".toList ≠ none) ∧
    ∃ w', compile calm (opts .executable "x" ["a.b", "b.txt"] false) ⟨someFiles ["a.b"], []⟩ = (.error, w') ∧
      w'.fs "a.tmp.0.ll".toList ≠ none := by
  have ha : ∀ fs : FS, fs "a.b".toList = some (bytesOf "main(){}") → Usable calm fs "a.b".toList := fun fs h =>
    good_usable ((singleton_b _).2 (by decide)) h
  have temp : ∀ (j : String) (fs : FS), fs "a.b".toList = some (bytesOf "main(){}") →
      ∃ text, TempFor calm (opts .executable "x" ["a.b", j] false) fs 1 "a.tmp.0.ll".toList text := by
    intro j fs h
    rcases ha fs h with ⟨hb, text, ht⟩ | ⟨hb, _⟩
    · exact ⟨text, 0, "a.b".toList, Nat.zero_lt_one, rfl, hb, .inr ⟨(by show 2 ≠ 1; decide), "a".toList, ⟨by decide, .inl rfl⟩, by decide⟩, ht⟩
    · exact absurd ((singleton_b _).2 (by decide)) hb
  constructor
  · obtain ⟨w', h1, _, h2, h3⟩ := C92_stopped calm_smooth (args := opts .executable "x" ["a.b", "bad.b"] false) rfl (by decide)
      (w := ⟨someFiles ["a.b", "a.tmp.0.ll"], []⟩) (pre := ["a.b".toList]) (i := "bad.b".toList) (post := []) rfl
      (fun j hj => by rw [List.mem_singleton.1 hj]; exact ha _ (by decide)) (bad_unusable (by decide))
    obtain ⟨text, ht⟩ := temp "bad.b" (someFiles ["a.b", "a.tmp.0.ll"]) (by decide)
    refine ⟨w', h1, (h2 _ text ht).2 ⟨rfl, (singleton_b _).2 (by decide)⟩, ?_⟩
    rw [h3 "a.b".toList]
    · decide
    · rintro tx ⟨k, i, hk, hi, hb, hl, _⟩
      rw [singleton_b] at hb
      rw [linkTemp_iff (by decide) hb] at hl
      exact exeTemp_ne_b _ _ _ (by decide) hl.symm
  · obtain ⟨w', h1, _, h2, h3⟩ := C92_stopped calm_smooth (args := opts .executable "x" ["a.b", "b.txt"] false) rfl (by decide)
      (w := ⟨someFiles ["a.b"], []⟩) (pre := ["a.b".toList]) (i := "b.txt".toList) (post := []) rfl
      (fun j hj => by rw [List.mem_singleton.1 hj]; exact ha _ (by decide)) wrong_unusable
    obtain ⟨text, ht⟩ := temp "b.txt" (someFiles ["a.b"]) (by decide)
    exact ⟨w', h1, by rw [(h2 _ text ht).1 (.inr fun h => by rw [singleton_b] at h; revert h; decide)]; simp⟩

/-- C92_linked, C92_output: `blang -o a.tmp.0.ll a.b c.o`: the output is gone -/
example : ∃ w1 cmd w', compile calm (opts .executable "a.tmp.0.ll" ["a.b", "c.o"] false) ⟨someFiles ["a.b", "c.o"], []⟩ =
    (if (calm.clang w1 cmd).2 then .ok () else .error, w') ∧ w'.fs "a.tmp.0.ll".toList = none := by
  obtain ⟨w1, cmd, w', h1, h2⟩ := C92_output calm_smooth (args := opts .executable "a.tmp.0.ll" ["a.b", "c.o"] false) rfl (by decide)
    (w := ⟨someFiles ["a.b", "c.o"], []⟩) (by simp [opts]) rfl (by
      intro j hj
      rcases List.mem_cons.1 hj with rfl | hj
      · exact good_usable ((singleton_b _).2 (by decide)) (by decide)
      · rw [List.mem_singleton.1 hj]
        exact .inr ⟨fun h => (by rw [singleton_b] at h; revert h; decide), (accepts_iff _ _).2 (by decide)⟩)
  refine ⟨w1, cmd, w', h1, h2.1 (⟨0, "a.b".toList, rfl, (singleton_b _).2 (by decide), .inr ⟨(by show 2 ≠ 1; decide), "a".toList,
    ⟨by decide, .inl rfl⟩, by decide⟩⟩)⟩

end Blang.Props
