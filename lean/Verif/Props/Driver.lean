import Verif.Proofs.Driver
/-
Properties of the driver: C35-C45.
`compile env args` is `Compile` (driver.go), `main env sys f` is `main` (main.go); both map the world
before to the outcome and the world after, which includes the log of everything done.
-/
namespace Blang.Props
open Blang.Driver

/-! ### a calm environment for the examples -/

/-- nothing fails, `clang` succeeds and writes nothing, IR is printed as one byte per function -/
def calm : Env where
  openOk _ _ := true
  readErr _ _ := none
  createOk _ _ := true
  writeErr _ _ := none
  closeOk _ _ := true
  removeOk _ _ := true
  clang w _ := (w.fs, true)
  print m := some (m.funcs.map fun _ => 102#8)

def bytesOf (s : String) : Content := s.toList.map fun c => BitVec.ofNat 8 c.toNat

/-- a file system holding `main(){}` in the named files, `main({` in `bad.b` -/
def someFiles (good : List String) : FS := fun p =>
  if p = "bad.b".toList then some (bytesOf "main({")
  else if (good.map String.toList).contains p then some (bytesOf "main(){}") else none

def opts (o : OutputType) (out : String) (ins : List String) (save : Bool) : Options :=
  { outputFile := out.toList, inputFiles := ins.map String.toList, saveTemps := save, outputType := o,
    optimize := 0, debugInfo := false, libraryDirs := [], libraries := [] }

theorem calm_noIo : NoIoErrors calm := ⟨fun _ _ => rfl, fun _ _ => rfl, fun _ _ => rfl, by simp [calm]⟩
theorem calm_polite : ClangPolite calm := fun _ _ _ _ _ _ _ _ => rfl

/-! ### C35 -/

theorem singleton_b (i : Path) : ExtIn i [".b".toList] ↔ ext i = ".b".toList := by
  have := accepts_iff .ir i
  simpa [accepts] using this

theorem b_accepted {i : Path} (h : ext i = ".b".toList) (o : OutputType) : ext i ∈ accepts o := by
  rw [h]; cases o <;> decide

/-- C35. A single source that does not compile: an error, and the world is exactly as before — in every
mode, with or without `-o`, whatever is in the file system. -/
theorem C35_single {env : Env} {args : Options} {w : World} {i : Path} (hi : args.inputFiles = [i])
    (hb : ExtIn i [".b".toList]) (hf : FrontEndFails env w i) : compile env args w = (.error, w) := by
  rw [singleton_b] at hb
  by_cases hm : args.outputType = .executable
  · have ho : compile env args = exeMain env (named args) := by
      unfold compile; rw [hm]; exact compileToExecutable_eq env args (by simp [hi])
    have hl : exeLoop env (named args) 0 [] [] [i] w = (.error, w) := by
      unfold exeLoop
      rw [if_pos hb]
      refine bind_error ?_
      unfold exeCompile
      rw [compileToIR_one env _ hb (exeTemp_ne _ _ _), compileSingleTo_feFails hf]
      show (cleanup env (named args) [] >>= fun _ => (Driver.fail : D Unit)) w = _
      have : cleanup env (named args) [] w = (.ok (), w) := by
        unfold cleanup; split <;> rfl
      rw [bind_ok this]; rfl
    rw [ho]
    unfold exeMain
    rw [named_inputs, hi]
    exact bind_error hl
  · rw [compile_dispatch env args hm, hi]
    simp only [List.all_cons, List.all_nil, Bool.and_true, decide_eq_true_eq]
    rw [if_pos (b_accepted hb _)]
    unfold dispatch
    rw [hi]
    split
    · exact process_feFails hm hb hf _
    · rw [forEach_cons, process_feFails hm hb hf]

example : FrontEndFails calm ⟨someFiles [], []⟩ "bad.b".toList :=
  ⟨bytesOf "main({", rfl, rfl, .inl ⟨rfl, by
    have : (compileFile (bytesOf "main({") .eof).toOption = none := by decide +kernel
    cases h : compileFile (bytesOf "main({") .eof with
    | ok m => rw [h] at this; cases this
    | error e => exact ⟨e, rfl⟩⟩⟩

/-- C35, several inputs in the modes with one output per input: when the turn of an input that does not
compile comes, nothing more happens. -/
theorem C35_several {env : Env} {args : Options} {w w1 : World} {pre post : List Path} {i : Path}
    (hm : args.outputType ≠ .executable) (ho : args.outputFile = [])
    (hx : ∀ p ∈ pre ++ i :: post, ExtIn p (accepts args.outputType)) (hb : ExtIn i [".b".toList])
    (hpre : compile env { args with inputFiles := pre } w = (.ok (), w1)) (hf : FrontEndFails env w1 i) :
    compile env { args with inputFiles := pre ++ i :: post } w = (.error, w1) := by
  rw [singleton_b] at hb
  simp only [accepts_iff] at hx
  rw [compile_dispatch env { args with inputFiles := pre } hm] at hpre
  rw [compile_dispatch env { args with inputFiles := pre ++ i :: post } hm]
  have all : ∀ l : List Path, (∀ p ∈ l, ext p ∈ accepts args.outputType) →
      l.all (fun i => decide (ext i ∈ accepts args.outputType)) = true := by simp
  have a1 := all (pre ++ i :: post) hx
  have a2 := all pre (fun p hp => hx p (List.mem_append_left _ hp))
  dsimp only at hpre ⊢
  rw [if_pos a1]
  rw [if_pos a2] at hpre
  unfold dispatch at hpre ⊢
  dsimp only at hpre ⊢
  rw [if_neg (by simp [ho])] at hpre ⊢
  have pr : ∀ l, process env { args with inputFiles := l } = process env args := by
    intro l; funext a b; unfold process; cases h : args.outputType <;> rfl
  rw [pr] at hpre ⊢
  clear a1 a2 hx
  induction pre generalizing w with
  | nil =>
    cases hpre
    rw [List.nil_append, forEach_cons, process_feFails hm hb hf]
  | cons a pre ih =>
    rw [List.cons_append, forEach_cons]
    rw [forEach_cons] at hpre
    cases hr : process env args a (defaultOut a (outExt args.outputType)) w with
    | mk r w' =>
      rw [hr] at hpre
      cases r with
      | ok u => exact ih hpre
      | error => cases hpre
      | panic => cases hpre

/-- the program in file `i` is not accepted by the front end -/
def SourceBad (fs : FS) (i : Path) : Prop := ∃ c e, fs i = some c ∧ compileFile c .eof = .error e

/-- C35, linking: if one of the sources does not compile, the outcome is a failure, `clang` is not run,
and every file that is not one of the temporaries created is as before; temporaries are `.ll` files.
(Missing: an output file requested under the name of a temporary is lost, see
`C35_temp_counterexample`.) -/
theorem C35_link_partial {env : Env} {args : Options} {w w' : World} {r : Res Unit} {i : Path}
    (hm : args.outputType = .executable) (hi : i ∈ args.inputFiles) (hb : ExtIn i [".b".toList])
    (hbad : SourceBad w.fs i) (h : compile env args w = (r, w')) :
    r ≠ .ok () ∧ ∃ es, w'.events = w.events ++ es ∧ runs es = [] ∧
      ∀ p, ¬ ExtIn p [".ll".toList] → w'.fs p = w.fs p := by
  rw [singleton_b] at hb
  have hne : args.inputFiles ≠ [] := fun e => by rw [e] at hi; cases hi
  have ho : compile env args = exeMain env (named args) := by
    unfold compile; rw [hm]; exact compileToExecutable_eq env args hne
  rw [ho] at h
  rcases exeMain_cases env (named args) w with ⟨w1, fs, h1, _, _, _, h5, _⟩ | ⟨r', w1, h1, hr, es, e1, e2, _, e4, _⟩
  · exfalso
    rw [named_inputs] at h5
    obtain ⟨k, hk⟩ := List.getElem?_of_mem hi
    obtain ⟨text, ⟨c, m, t1, t2, _⟩, _⟩ := h5 k i hk hb
    obtain ⟨c', e, b1, b2⟩ := hbad
    rw [t1] at b1; cases b1
    rw [t2] at b2; cases b2
  · rw [h] at h1; cases h1
    refine ⟨hr _, es, e1, e2, fun p hp => e4 p fun hm => hp ?_⟩
    obtain ⟨k, j, _, _, e⟩ := mem_tempsOf hm
    refine ⟨_, List.mem_singleton.2 rfl, ?_⟩
    have he : ∃ r, ".ll".toList = '.' :: r ∧ '.' ∉ r ∧ '/' ∉ r := ⟨"ll".toList, rfl, by decide, by decide⟩
    obtain ⟨stem, hs⟩ := (ext_iff he).1 (ext_exeTemp (named args) (0 + k) j)
    exact ⟨stem, by rw [e]; exact hs, he⟩

/-- `blang -o a.tmp.0.ll a.b bad.b`, the output existing before: `bad.b` does not compile and the output
is gone afterwards. -/
theorem C35_temp_counterexample :
    let w : World := ⟨fun p => if p = "a.tmp.0.ll".toList then some [1#8] else someFiles ["a.b"] p, []⟩
    let r := compile calm (opts .executable "a.tmp.0.ll" ["a.b", "bad.b"] false) w
    w.fs "a.tmp.0.ll".toList = some [1#8] ∧ r.2.fs "a.tmp.0.ll".toList = none := by
  decide +kernel

/-! ### C36 -/

/-- how the driver's two kinds of modes are entered -/
theorem compile_cases {env : Env} {args : Options} {w w' : World} {r : Res Unit} (h : compile env args w = (r, w'))
    (hir : args.outputType ≠ .ir) :
    (args.outputType = .executable ∧ exeMain env (named args) w = (r, w'))
    ∨ (r ≠ .ok () ∧ w' = w)
    ∨ ∃ flag, args.outputType ≠ .executable ∧ (∀ p ∈ args.inputFiles, ext p ∈ accepts args.outputType) ∧
        ((∃ i, args.inputFiles = [i] ∧ args.outputFile ≠ [] ∧ processOne env args flag i args.outputFile w = (r, w'))
        ∨ (args.outputFile = [] ∧ forEach (processOne env args flag) (outExt args.outputType) args.inputFiles w = (r, w'))) := by
  by_cases hm : args.outputType = .executable
  · by_cases hi : args.inputFiles = []
    · unfold compile compileToExecutable at h
      rw [hm] at h
      dsimp only at h
      rw [hi] at h
      split at h
      · cases h
        exact .inr (.inl ⟨by simp, rfl⟩)
      · rename_i ho
        left
        unfold named; rw [if_neg ho]; exact ⟨hm, h⟩
    · left
      refine ⟨hm, ?_⟩
      unfold compile at h; rw [hm] at h
      rw [← compileToExecutable_eq env args hi]; exact h
  · right
    rw [compile_dispatch env args hm] at h
    split at h
    · rename_i hall
      simp only [List.all_eq_true, decide_eq_true_eq] at hall
      have pr : ∃ flag, process env args = processOne env args flag := by
        cases ho : args.outputType with
        | ir => exact absurd ho hir
        | executable => exact absurd ho hm
        | assembly => exact ⟨['-', 'S'], by funext a b; unfold process; rw [ho]⟩
        | object => exact ⟨['-', 'c'], by funext a b; unfold process; rw [ho]⟩
      obtain ⟨flag, pr⟩ := pr
      rw [pr] at h
      unfold dispatch at h
      by_cases ho : args.outputFile = []
      · rw [if_neg (by simp [ho])] at h
        exact .inr ⟨flag, hm, hall, .inr ⟨ho, h⟩⟩
      · rw [if_pos ho] at h
        match hi : args.inputFiles with
        | [] => rw [hi] at h; cases h; exact .inl ⟨by simp, rfl⟩
        | [i] => rw [hi] at h; exact .inr ⟨flag, hm, hi ▸ hall, .inl ⟨i, rfl, ho, h⟩⟩
        | a :: b :: l => rw [hi] at h; cases h; exact .inl ⟨by simp, rfl⟩
    · cases h
      exact .inl ⟨by simp, rfl⟩

theorem outExt_facts {o : OutputType} (h1 : o ≠ .executable) (h2 : o ≠ .ir) :
    (∃ r, outExt o = '.' :: r ∧ '.' ∉ r ∧ '/' ∉ r) ∧ outExt o ≠ ".ll".toList ∧ outExt o ≠ ".b".toList := by
  cases o with
  | ir => exact absurd rfl h2
  | executable => exact absurd rfl h1
  | assembly => exact ⟨⟨"s".toList, rfl, by decide, by decide⟩, by decide, by decide⟩
  | object => exact ⟨⟨"o".toList, rfl, by decide, by decide⟩, by decide, by decide⟩

/-- C36. Without `--save-temps`, when `Compile` returns in the assembly, object and executable modes — with
success or not, after a front-end error in any input or a failure of `clang` — no file it created itself is
left: the only files that remain are those written by `clang`.  Missing from the full property: failures
of writing, closing or removing the temporary itself (`C36_write_error_counterexample`), a panic of the IR
printer, and inputs with an extension the mode does not support (`C36_extension_counterexample`). -/
theorem C36_partial {env : Env} {args : Options} {w w' : World} {r : Res Unit} (hir : args.outputType ≠ .ir)
    (hs : args.saveTemps = false) (hx : ∀ p ∈ args.inputFiles, ExtIn p (accepts args.outputType))
    (nio : NoIoErrors env) (hp : ClangPolite env) (h : compile env args w = (r, w')) :
    ∃ es, w'.events = w.events ++ es ∧ ∀ p ∈ created es, w'.fs p = none := by
  simp only [accepts_iff] at hx
  rcases compile_cases h hir with ⟨hm, h⟩ | ⟨_, rfl⟩ | ⟨flag, hm, hx, ⟨i, hi, ho, h⟩ | ⟨ho, h⟩⟩
  · rcases exeMain_cases env (named args) w with ⟨w1, fs, h1, _, _, _, _, _, _, h5⟩ | ⟨r', w1, h1, hr, es, e1, e2, _, e4, e5⟩
    · rw [h] at h1
      simp only [Prod.mk.injEq] at h1
      obtain ⟨rfl, rfl⟩ := h1
      refine ⟨_, by simp only [List.append_assoc]; rfl, ?_⟩
      intro p hp
      rw [created_append, created_append, created_flat, created_if] at hp
      have hp' : p ∈ tempsOf (named args) 0 (named args).inputFiles := by simpa [created] using hp
      exact h5 (by rw [named_save]; exact hs) nio.2.2.1 p hp'
    · rw [h] at h1; cases h1
      exact ⟨es, e1, (e5 nio).2.1 (by rw [named_save]; exact hs) (by rw [named_inputs]; rw [hm] at hx; exact hx)⟩
  · exact ⟨[], by simp, by simp [created]⟩
  · obtain ⟨es, e1, _, _, e4, _⟩ := processOne_effect h
    exact ⟨es, e1, e4 nio hs⟩
  · obtain ⟨f1, f2, f3⟩ := outExt_facts hm hir
    obtain ⟨es, e1, _, _, e4, _⟩ := forEach_effect f1 f2 f3 h
    exact ⟨es, e1, e4 nio hp hs⟩

/-- `blang -S bad-disk.b`: writing the temporary fails; it is still there afterwards. -/
theorem C36_write_error_counterexample :
    let env : Env := { calm with writeErr := fun _ _ => some 0 }
    let r := compile env (opts .assembly "x.s" ["a.b"] false) ⟨someFiles ["a.b"], []⟩
    (someFiles ["a.b"]) "x.s.tmp.ll".toList = none ∧ r.2.fs "x.s.tmp.ll".toList = some [] := by
  decide +kernel

/-- `Compile` in executable mode on `a.b` and `b.txt`: the temporary of `a.b` remains. -/
theorem C36_extension_counterexample :
    let r := compile calm (opts .executable "x" ["a.b", "b.txt"] false) ⟨someFiles ["a.b"], []⟩
    r.2.fs "a.tmp.0.ll".toList = some [102#8] := by
  decide +kernel

/-- a concrete case of `C36_partial`: the temporary was created and is gone -/
example :
    let r := compile calm (opts .executable "x" ["a.b", "bad.b"] false) ⟨someFiles ["a.b"], []⟩
    created r.2.events = ["a.tmp.0.ll".toList] ∧ r.2.fs "a.tmp.0.ll".toList = none := by
  decide +kernel


/-! ### C37 -/

/-- C37, linking: with `--save-temps` the IR of every `.b` input that was compiled is present at the end
under the documented name, whatever the outcome; after success every `.b` input was compiled.
(`out` must not itself be the name of a temporary.) -/
theorem C37_link_partial {env : Env} {args : Options} {w w' : World} {r : Res Unit} (hm : args.outputType = .executable)
    (hs : args.saveTemps = true) (ho : args.outputFile ≠ [])
    (hot : ∀ k i, args.inputFiles[k]? = some i → ¬ LinkTemp args.inputFiles.length args.outputFile k i args.outputFile)
    (nio : NoIoErrors env) (hp : ClangPolite env) (h : compile env args w = (r, w')) :
    ∃ es, w'.events = w.events ++ es ∧
      ∀ k i t, args.inputFiles[k]? = some i → ExtIn i [".b".toList] →
        LinkTemp args.inputFiles.length args.outputFile k i t →
        (t ∈ created es → ∃ text, IrOf env w.fs i text ∧ w'.fs t = some text) ∧ (r = .ok () → t ∈ created es) := by
  rcases compile_cases h (by simp [hm]) with ⟨_, h⟩ | ⟨hr, rfl⟩ | ⟨_, hm', _⟩
  · rw [named_of ho] at h
    rcases exeMain_cases env args w with ⟨w1, fs, h1, _, h3, _, h4, h6, h7, h5⟩ | ⟨r', w1, h1, hr, es, e1, e2, _, e4, e5⟩
    · rw [h] at h1
      simp only [Prod.mk.injEq] at h1
      obtain ⟨rfl, rfl⟩ := h1
      refine ⟨_, by simp only [List.append_assoc]; rfl, ?_⟩
      intro k i t hk hb ht
      rw [singleton_b] at hb
      have htn : t ≠ args.outputFile := fun e => hot k i hk (e ▸ ht)
      rw [linkTemp_iff ho hb] at ht
      subst ht
      refine ⟨fun _ => ?_, fun _ => ?_⟩
      · obtain ⟨text, t1, t2⟩ := h4 k i hk hb
        refine ⟨text, t1, ?_⟩
        show fs _ = _
        rw [h7 hs, ← t2]
        exact hp w1 _ _ args.outputFile [] _ rfl htn
      · rw [created_append, created_flat]
        have := tempsOf_mem (args := args) (i := 0) hk hb
        rw [Nat.zero_add] at this
        exact List.mem_append_left _ this
    · rw [h] at h1; cases h1
      refine ⟨es, e1, ?_⟩
      intro k i t hk hb ht
      rw [singleton_b] at hb
      rw [linkTemp_iff ho hb] at ht
      subst ht
      exact ⟨(e5 nio).2.2 hs k i hk hb, fun e => absurd e (hr _)⟩
  · exact ⟨[], by simp, fun _ _ _ _ _ _ => ⟨by simp [created], fun e => absurd e hr⟩⟩
  · exact absurd hm hm'

/-- C37, assembly and object files: as for links; the IR of an input with output `o` is kept in
`<o>.tmp.ll`.  Inputs whose default outputs coincide overwrite each other's, so they must differ. -/
theorem C37_files_partial {env : Env} {args : Options} {w w' : World} {r : Res Unit}
    (hm : args.outputType = .assembly ∨ args.outputType = .object) (hs : args.saveTemps = true)
    (hd : args.inputFiles.Pairwise fun i j => ∀ o, OutName args.outputType i o → ¬ OutName args.outputType j o)
    (nio : NoIoErrors env) (hp : ClangPolite env) (h : compile env args w = (r, w')) :
    ∃ es, w'.events = w.events ++ es ∧
      ∀ i ∈ args.inputFiles, ExtIn i [".b".toList] → ∀ o,
        (if args.outputFile = [] then OutName args.outputType i o else o = args.outputFile) →
        (o ++ ".tmp.ll".toList ∈ created es →
          ∃ text, IrOf env w.fs i text ∧ w'.fs (o ++ ".tmp.ll".toList) = some text) ∧
        (r = .ok () → o ++ ".tmp.ll".toList ∈ created es) := by
  have hir : args.outputType ≠ .ir := by rcases hm with h | h <;> simp [h]
  have hex : args.outputType ≠ .executable := by rcases hm with h | h <;> simp [h]
  rcases compile_cases h hir with ⟨hm', _⟩ | ⟨hr, rfl⟩ | ⟨flag, _, hx, ⟨i, hi, ho, h⟩ | ⟨ho, h⟩⟩
  · exact absurd hm' hex
  · exact ⟨[], by simp, fun _ _ _ _ _ => ⟨by simp [created], fun e => absurd e hr⟩⟩
  · obtain ⟨es, e1, _, _, _, e5, _, e7⟩ := processOne_effect h
    refine ⟨es, e1, ?_⟩
    intro j hj hb o hjo
    rw [singleton_b] at hb
    rw [if_neg ho] at hjo
    subst hjo
    rw [hi, List.mem_singleton] at hj
    subst hj
    exact ⟨e5 nio hp hs, fun e => (e7 e).2 hb⟩
  · obtain ⟨f1, f2, f3⟩ := outExt_facts hex hir
    obtain ⟨es, e1, _, _, _, e5, e6⟩ := forEach_effect f1 f2 f3 h
    have nd : (args.inputFiles.map (defaultOut · (outExt args.outputType))).Nodup := by
      rw [List.Nodup, List.pairwise_map]
      refine List.Pairwise.imp_of_mem ?_ hd
      intro a b ha hb hab e
      have ea := accepts_ext _ _ (hx a ha)
      have eb := accepts_ext _ _ (hx b hb)
      exact hab _ ((outName_iff ea rfl).2 rfl) ((outName_iff eb rfl).2 e)
    refine ⟨es, e1, ?_⟩
    intro j hj hb o hjo
    rw [if_pos ho] at hjo
    rw [outName_iff (accepts_ext _ _ (hx j hj)) rfl] at hjo
    rw [singleton_b] at hb
    subst hjo
    exact ⟨e5 nio hp hs nd j hj hb, fun e => e6 e j hj hb⟩

example :
    let w : World := ⟨someFiles ["a.b", "d/b.b"], []⟩
    let r := compile calm (opts .executable "x" ["a.b", "d/b.b", "c.o"] true) w
    created r.2.events = ["a.tmp.0.ll".toList, "b.tmp.1.ll".toList] ∧
    r.2.fs "a.tmp.0.ll".toList = some [102#8] ∧ r.2.fs "b.tmp.1.ll".toList = some [102#8] := by
  decide +kernel

example :
    let w : World := ⟨someFiles ["a.b", "d/b.b"], []⟩
    let r := compile calm (opts .object "" ["a.b", "d/b.b"] true) w
    created r.2.events = ["a.o.tmp.ll".toList, "b.o.tmp.ll".toList] ∧ r.2.fs "a.o.tmp.ll".toList = some [102#8] := by
  decide +kernel

/-! ### C38 -/

/-- C38. Without `-o` an input of the IR, assembly and object modes is treated exactly as with
`-o <documented name>`. -/
theorem C38_default_output {env : Env} {args : Options} {i o : Path} (hm : args.outputType ≠ .executable)
    (hx : ExtIn i (accepts args.outputType)) (hn : OutName args.outputType i o) :
    compile env { args with inputFiles := [i], outputFile := [] } =
      compile env { args with inputFiles := [i], outputFile := o } := by
  rw [accepts_iff] at hx
  have hon : o ≠ [] := by
    obtain ⟨s, e, _, _, rfl⟩ := hn
    cases h : args.outputType <;> simp [outExt] <;> exact absurd h hm
  rw [outName_iff (accepts_ext _ _ hx) rfl] at hn
  rw [compile_dispatch env { args with inputFiles := [i], outputFile := [] } hm,
    compile_dispatch env { args with inputFiles := [i], outputFile := o } hm]
  have pr : ∀ x : Path, process env { args with inputFiles := [i], outputFile := x } i (defaultOut i (outExt args.outputType)) =
      process env args i (defaultOut i (outExt args.outputType)) := by
    intro x; unfold process
    cases h : args.outputType <;> rfl
  have h1 : (dispatch { args with inputFiles := [i], outputFile := [] }
      (process env { args with inputFiles := [i], outputFile := [] }) (outExt args.outputType)) =
      process env args i o := by
    unfold dispatch
    rw [if_neg (by simp)]
    funext w
    dsimp only
    rw [forEach_cons, pr, ← hn]
    rcases process env args i o w with ⟨r, w'⟩
    cases r <;> rfl
  have h2 : (dispatch { args with inputFiles := [i], outputFile := o }
      (process env { args with inputFiles := [i], outputFile := o }) (outExt args.outputType)) =
      process env args i o := by
    unfold dispatch
    rw [if_pos hon]
    dsimp only
    rw [hn, pr]
  dsimp only
  rw [h1, h2]

/-- C38. Without `-o` an executable is named after the first input. -/
theorem C38_default_executable {env : Env} {args : Options} {i o : Path} {is : List Path}
    (hm : args.outputType = .executable) (hn : OutName .executable i o) (ho : o ≠ []) :
    compile env { args with inputFiles := i :: is, outputFile := [] } =
      compile env { args with inputFiles := i :: is, outputFile := o } := by
  obtain ⟨s, e, h1, h2, rfl⟩ := hn
  unfold compile
  dsimp only
  rw [hm]
  dsimp only [compileToExecutable]
  rw [if_pos rfl, if_neg ho, defaultOut_of h1 h2]
  rfl

/-- C38. `--emit-llvm -o out`: on success the file system is the old one with the IR of the input at `out`. -/
theorem C38_ir_output {env : Env} {args : Options} {i : Path} {w w' : World} (hm : args.outputType = .ir)
    (hi : args.inputFiles = [i]) (ho : args.outputFile ≠ []) (h : compile env args w = (.ok (), w')) :
    ∃ text, IrOf env w.fs i text ∧ w'.fs args.outputFile = some text ∧
      (∀ p, p ≠ args.outputFile → w'.fs p = w.fs p) ∧ runs w'.events = runs w.events := by
  rw [compile_dispatch env args (by simp [hm])] at h
  split at h
  · unfold dispatch at h
    rw [if_pos ho, hi] at h
    unfold process at h
    rw [hm] at h
    dsimp only at h
    rcases compileSingleTo_cases env i args.outputFile w with ⟨text, tr, h1⟩ | ⟨_, _, _, _, h1⟩ | h1 | ⟨_, h1⟩ <;> rw [h1] at h
    · cases h
      exact ⟨text, tr.irOf, written_fs_eq, fun p hp => written_fs_ne hp, by simp [written, runs_append]; rfl⟩
    · cases h
    · cases h
    · cases h
  · cases h

/-- C38. `-S`/`-c` with `-o out`: `clang` is asked to write exactly `out`, and (if it does as asked) no
other file differs at the end, except the temporary `out.tmp.ll`. -/
theorem C38_clang_output {env : Env} {args : Options} {i : Path} {w w' : World} {r : Res Unit}
    (hm : args.outputType = .assembly ∨ args.outputType = .object)
    (hi : args.inputFiles = [i]) (ho : args.outputFile ≠ []) (h : compile env args w = (r, w')) :
    ∃ es, w'.events = w.events ++ es ∧ (r = .ok () → runs es ≠ []) ∧
      (∀ c ∈ runs es, ∃ pre j, c = pre ++ ["-o".toList, args.outputFile, j]) ∧
      (ClangPolite env → ∀ p, p ≠ args.outputFile → p ≠ args.outputFile ++ ".tmp.ll".toList → w'.fs p = w.fs p) := by
  have hir : args.outputType ≠ .ir := by rcases hm with h | h <;> simp [h]
  have hex : args.outputType ≠ .executable := by rcases hm with h | h <;> simp [h]
  rcases compile_cases h hir with ⟨hm', _⟩ | ⟨hr, rfl⟩ | ⟨flag, _, hx, ⟨j, hj, _, h⟩ | ⟨ho', h⟩⟩
  · exact absurd hm' hex
  · exact ⟨[], by simp, fun e => absurd e hr, by simp [runs], fun _ _ _ _ => rfl⟩
  · rw [hi] at hj; cases hj
    obtain ⟨es, e1, e2, e3, _, _, e6, e7⟩ := processOne_effect h
    refine ⟨es, e1, fun e => (e7 e).1, e6, fun hp p h1 h2 => e3 hp p h1 ?_⟩
    rcases e2 with e2 | e2 <;> rw [e2]
    · simp
    · exact fun hm => h2 (List.mem_singleton.1 hm)
  · exact absurd ho' ho

example : OutName .object "dir/prog.v2.b".toList "prog.v2.o".toList :=
  ⟨"prog.v2".toList, ".b".toList, ⟨by decide, .inr ⟨"dir".toList, rfl⟩⟩,
    ⟨rfl, ⟨"b".toList, rfl, by decide, by decide⟩⟩, rfl⟩

example : (compile calm (opts .ir "" ["d/a.b"] false) ⟨someFiles ["d/a.b"], []⟩).2.fs "a.ll".toList = some [102#8] := by
  decide +kernel

/-! ### C39 -/

/-- C39. `-o` with a number of inputs different from one is refused and nothing happens. -/
theorem C39_refused {env : Env} {args : Options} (hm : args.outputType ≠ .executable) (ho : args.outputFile ≠ [])
    (hn : args.inputFiles.length ≠ 1) (w : World) : compile env args w = (.error, w) := by
  rw [compile_dispatch env args hm]
  split
  · unfold dispatch
    rw [if_pos ho]
    match hi : args.inputFiles, hn with
    | [], _ => rfl
    | [i], hn => exact absurd rfl hn
    | _ :: _ :: _, _ => rfl
  · rfl

/-! ### C40 -/

/-- C40. The temporaries of one link are pairwise different, whatever the inputs are called, and none is
one of the sources (`.b` inputs).  Missing: a temporary may be one of the other inputs
(`C40_counterexample`). -/
theorem C40_partial {env : Env} {args : Options} {w w' : World} {r : Res Unit} (hm : args.outputType = .executable)
    (h : compile env args w = (r, w')) :
    ∃ es, w'.events = w.events ++ es ∧ (created es).Nodup ∧ ∀ p ∈ created es, ¬ ExtIn p [".b".toList] := by
  have nb : ∀ p ∈ tempsOf (named args) 0 (named args).inputFiles, ¬ ExtIn p [".b".toList] := by
    intro p hp hb
    rw [singleton_b] at hb
    obtain ⟨k, inp, _, _, rfl⟩ := mem_tempsOf hp
    exact exeTemp_ne_b _ _ _ hb rfl
  rcases compile_cases h (by simp [hm]) with ⟨_, h⟩ | ⟨hr, rfl⟩ | ⟨_, hm', _⟩
  · rcases exeMain_cases env (named args) w with ⟨w1, fs, h1, _⟩ | ⟨r', w1, h1, hr, es, e1, e2, e3, _⟩
    · rw [h] at h1
      simp only [Prod.mk.injEq] at h1
      obtain ⟨rfl, rfl⟩ := h1
      have cr : created ((tempsOf (named args) 0 (named args).inputFiles).flatMap (fun t => [.create t, .write t]) ++
          ([.run (linkArgs (named args) (linkInputs (named args) 0 (named args).inputFiles))] ++
            if (named args).saveTemps then [] else (tempsOf (named args) 0 (named args).inputFiles).map .remove)) =
          tempsOf (named args) 0 (named args).inputFiles := by
        rw [created_append, created_append, created_flat, created_if]
        simp [created]
      refine ⟨_, by simp only [List.append_assoc]; rfl, ?_⟩
      rw [cr]
      exact ⟨tempsOf_nodup _, nb⟩
    · rw [h] at h1; cases h1
      exact ⟨es, e1, e3.sublist.nodup (tempsOf_nodup _), fun p hp => nb p (e3.subset hp)⟩
  · exact ⟨[], by simp, by simp [created], by simp [created]⟩
  · exact absurd hm hm'

/-- C40: a temporary is one of the inputs only if the user names an input as the temporary of another one is documented:
input number `k` is `.../<stem>.b` and another input is `<stem>.tmp.<k>.ll` in the current directory. -/
theorem C40_collision_partial {env : Env} {args : Options} {w w' : World} {r : Res Unit} (hm : args.outputType = .executable)
    (h : compile env args w = (r, w')) :
    ∃ es, w'.events = w.events ++ es ∧ ∀ p ∈ created es, p ∈ args.inputFiles →
      ∃ k i stem, args.inputFiles[k]? = some i ∧ LastComponent i (stem ++ ".b".toList) ∧
        p = stem ++ ".tmp.".toList ++ natDec k ++ ".ll".toList := by
  have nb : ∀ p ∈ tempsOf (named args) 0 (named args).inputFiles, p ∈ args.inputFiles →
      ∃ k i stem, args.inputFiles[k]? = some i ∧ LastComponent i (stem ++ ".b".toList) ∧
        p = stem ++ ".tmp.".toList ++ natDec k ++ ".ll".toList := by
    intro p hp hin
    obtain ⟨k, inp, hk, hb, e⟩ := mem_tempsOf hp
    rw [named_inputs] at hk
    rw [Nat.zero_add] at e
    have hl : (named args).inputFiles.length ≠ 1 := by
      rw [named_inputs]
      intro h1
      obtain ⟨a, ha⟩ := List.length_eq_one_iff.1 h1
      rw [ha, List.mem_singleton] at hin
      rw [ha] at hk
      have : inp = a := by
        cases k with
        | zero => simpa using hk.symm
        | succ k => simp at hk
      exact exeTemp_ne_b (named args) k inp (by rw [← e, hin, ← this]; exact hb) rfl
    have ht : LinkTemp (named args).inputFiles.length ['x'] k inp p := by
      have := (linkTemp_iff (args := { named args with outputFile := ['x'] }) (k := k) (i := inp) (t := p) (by simp) hb).2
        (by rw [e]; unfold exeTemp; rw [if_neg (fun h => hl h.1), if_neg (fun h => hl h.1)])
      exact this
    rcases ht with ⟨h1, _⟩ | ⟨_, stem, h2, h3⟩
    · exact absurd h1 hl
    · exact ⟨k, inp, stem, hk, h2, h3⟩
  rcases compile_cases h (by simp [hm]) with ⟨_, h⟩ | ⟨hr, rfl⟩ | ⟨_, hm', _⟩
  · rcases exeMain_cases env (named args) w with ⟨w1, fs, h1, _⟩ | ⟨r', w1, h1, hr, es, e1, e2, e3, _⟩
    · rw [h] at h1
      simp only [Prod.mk.injEq] at h1
      obtain ⟨rfl, rfl⟩ := h1
      refine ⟨_, by simp only [List.append_assoc]; rfl, ?_⟩
      intro p hp
      rw [created_append, created_append, created_flat, created_if] at hp
      exact nb p (by simpa [created] using hp)
    · rw [h] at h1; cases h1
      exact ⟨es, e1, fun p hp => nb p (e3.subset hp)⟩
  · exact ⟨[], by simp, by simp [created]⟩
  · exact absurd hm hm'

/-- `blang a.b a.tmp.0.ll`: the second input is overwritten and then deleted. -/
theorem C40_counterexample :
    let w : World := ⟨fun p => if p = "a.tmp.0.ll".toList then some [1#8] else someFiles ["a.b"] p, []⟩
    let r := compile calm (opts .executable "x" ["a.b", "a.tmp.0.ll"] false) w
    created r.2.events = ["a.tmp.0.ll".toList] ∧ r.2.fs "a.tmp.0.ll".toList = none := by
  decide +kernel

example : created (compile calm (opts .executable "x" ["d/a.b", "a.b", "e/a.b"] false)
    ⟨someFiles ["d/a.b", "a.b", "e/a.b"], []⟩).2.events =
    ["a.tmp.0.ll".toList, "a.tmp.1.ll".toList, "a.tmp.2.ll".toList] := by decide +kernel

/-! ### C41 -/

theorem linkInputs_get (args : Options) (i : Nat) (l : List Path) (k : Nat) (inp : Path) (h : l[k]? = some inp) :
    (linkInputs args i l)[k]? = some (if ext inp = ".b".toList then exeTemp args (i + k) inp else inp) := by
  induction l generalizing i k with
  | nil => simp at h
  | cons a l ih =>
    unfold linkInputs
    cases k with
    | zero => simp at h; subst h; simp
    | succ k =>
      have := ih (i + 1) k (by simpa using h)
      rw [List.getElem?_cons_succ, this, show i + 1 + k = i + (k + 1) by omega]

theorem linkInputs_length (args : Options) (i : Nat) (l : List Path) : (linkInputs args i l).length = l.length := by
  induction l generalizing i with
  | nil => rfl
  | cons a l ih => unfold linkInputs; simp [ih]

/-- C41. A successful link ran `clang` exactly once, with: optimisation and debug flags, one file per input
in order — the input itself, or for a source a file that at that moment holds its IR —, then `-static
-nostdlib`, the library directories, `-lb`, the libraries in order, and `-o out`. -/
theorem C41_link_command {env : Env} {args : Options} {w w' : World} (hm : args.outputType = .executable)
    (ho : args.outputFile ≠ []) (h : compile env args w = (.ok (), w')) :
    ∃ (w1 : World) (ins : List Path) (cmd : List (List Char)),
      cmd = (if args.optimize = 0 then [] else ["-O".toList ++ natDec args.optimize]) ++
        (if args.debugInfo then ["-g".toList] else []) ++ ins ++ ["-static".toList, "-nostdlib".toList] ++
        args.libraryDirs.map (fun d => "-L".toList ++ d) ++ ["-lb".toList] ++
        args.libraries.map (fun l => "-l".toList ++ l) ++ ["-o".toList, args.outputFile] ∧
      (∃ es1 es2, w1.events = w.events ++ es1 ∧ w'.events = w1.events ++ .run cmd :: es2 ∧ runs es1 = [] ∧ runs es2 = [] ∧
        (∀ p, p ∉ created es1 → w1.fs p = w.fs p ∧ w'.fs p = (env.clang w1 cmd).1 p) ∧ (env.clang w1 cmd).2 = true) ∧
      ins.length = args.inputFiles.length ∧
      ∀ (k : Nat) (i : Path), args.inputFiles[k]? = some i →
        (ExtIn i [".b".toList] → ∃ t text, ins[k]? = some t ∧ IrOf env w.fs i text ∧ w1.fs t = some text) ∧
        (¬ ExtIn i [".b".toList] → ins[k]? = some i) := by
  rcases compile_cases h (by simp [hm]) with ⟨_, h⟩ | ⟨hr, rfl⟩ | ⟨_, hm', _⟩
  · rw [named_of ho] at h
    rcases exeMain_cases env args w with ⟨w1, fs, h1, h2, h3, h4, h5, h6, _⟩ | ⟨r', w1, h1, hr, _⟩
    · rw [h] at h1
      simp only [Prod.mk.injEq] at h1
      obtain ⟨hok, rfl⟩ := h1
      refine ⟨w1, linkInputs args 0 args.inputFiles, linkArgs args (linkInputs args 0 args.inputFiles), ?_, ?_, linkInputs_length _ _ _, ?_⟩
      · have a : (if 0 < args.optimize then [['-', 'O'] ++ natDec args.optimize] else []) =
            (if args.optimize = 0 then [] else ["-O".toList ++ natDec args.optimize]) := by
          by_cases h : args.optimize = 0
          · simp [h]
          · rw [if_pos (Nat.pos_of_ne_zero h), if_neg h]; rfl
        unfold linkArgs optFlags
        rw [a]
        rfl
      · refine ⟨_, if args.saveTemps then [] else (tempsOf args 0 args.inputFiles).map .remove, h2, ?_, runs_flat _, runs_if _ _, ?_, ?_⟩
        · rw [h2]; simp only [List.append_assoc, List.singleton_append]
        · intro p hp
          rw [created_flat] at hp
          exact ⟨h3 p hp, h6 p hp⟩
        · by_cases hb : (env.clang w1 (linkArgs args (linkInputs args 0 args.inputFiles))).2 = true
          · exact hb
          · rw [if_neg hb] at hok; cases hok
      · intro k i hk
        have g := linkInputs_get args 0 _ k i hk
        rw [Nat.zero_add] at g
        rw [singleton_b]
        refine ⟨fun hb => ?_, fun hb => ?_⟩
        · rw [if_pos hb] at g
          obtain ⟨text, t1, t2⟩ := h5 k i hk hb
          exact ⟨_, text, g, t1, t2⟩
        · rw [if_neg hb] at g
          exact g
    · rw [h] at h1; cases h1
      exact absurd rfl (hr _)
  · exact absurd rfl hr
  · exact absurd hm hm'

example : runs (compile calm { opts .executable "x" ["a.b", "c.o", "b.b"] false with
      optimize := 2, libraryDirs := ["d".toList], libraries := ["m".toList] } ⟨someFiles ["a.b", "b.b"], []⟩).2.events =
    [["-O2".toList, "a.tmp.0.ll".toList, "c.o".toList, "b.tmp.2.ll".toList, "-static".toList, "-nostdlib".toList,
      "-Ld".toList, "-lb".toList, "-lm".toList, "-o".toList, "x".toList]] := by decide +kernel

/-! ### C42 -/

/-- C42. In the IR, assembly and object modes an input with an unacceptable extension is refused before
anything happens. -/
theorem C42_library_partial {env : Env} {args : Options} {i : Path} (hm : args.outputType ≠ .executable)
    (hi : i ∈ args.inputFiles) (hx : ¬ ExtIn i (accepts args.outputType)) (w : World) :
    compile env args w = (.error, w) := by
  rw [accepts_iff] at hx
  rw [compile_dispatch env args hm, if_neg ?_]
  · rfl
  · intro h
    simp only [List.all_eq_true, decide_eq_true_eq] at h
    exact hx (h i hi)

theorem allowedExt_iff (e : Path) : allowedExt e = true ↔ e ∈ accepts .executable := by
  simp [allowedExt, accepts, or_assoc]

theorem sub_accepts {o : OutputType} {e : Path} (h : e ∈ accepts o) : e ∈ accepts .executable := by
  have : ∀ e ∈ accepts o, e ∈ accepts .executable := by cases o <;> decide
  exact this e h

theorem outputType_cases (sys : Sys) (f : Flags) (l : Nat) : (optionsOf sys f l).outputType = outputTypeOf f := rfl

/-- C42. The command refuses such inputs in every mode: exit status 1 and nothing happens (or 0, also
without doing anything, when help or the version was asked for). -/
theorem C42_command {env : Env} {sys : Sys} {f : Flags} {i : Path} {w : World} (hi : i ∈ f.files)
    (hx : ¬ ExtIn i (accepts (outputTypeOf f))) (hh : f.showHelp = false) (hv : f.showVersion = false) :
    Driver.main env sys f w = (1, w) := by
  rw [accepts_iff] at hx
  unfold Driver.main
  simp only [hh, hv, Bool.false_eq_true, if_false]
  split
  · rfl
  split
  · rfl
  split
  · rfl
  rename_i level _
  split
  · rfl
  rename_i ha
  have hall : ∀ p ∈ f.files, ext p ∈ accepts .executable := by
    intro p hp
    simp only [List.any_eq_true, not_exists, not_and, Bool.or_eq_true, Bool.not_eq_true', not_or] at ha
    have := (ha p hp).1
    rw [← allowedExt_iff]
    simpa using this
  have hne : outputTypeOf f ≠ .executable := by
    intro e
    rw [e] at hx
    exact hx (hall i hi)
  have := C42_library_partial (env := env) (args := optionsOf sys f level) (i := i) hne hi (by rw [accepts_iff]; exact hx) w
  rw [this]

/-- Used as a library, `Compile` in executable mode has already compiled the sources before the input of
the wrong kind, and leaves their temporaries. -/
theorem C42_library_counterexample :
    created (compile calm (opts .executable "x" ["a.b", "b.txt"] false) ⟨someFiles ["a.b"], []⟩).2.events =
      ["a.tmp.0.ll".toList] := by
  decide +kernel

/-! ### C43 -/

/-- C43. In the modes with one output per input, compiling a list is compiling its inputs one after the
other: if all of `pre` succeed and the next input `i` does not, the result is that of `i`, in the world it
left; the inputs after it play no role. -/
theorem C43_first_failure {env : Env} {args : Options} {w w1 w2 : World} {pre post : List Path} {i : Path} {r : Res Unit}
    (hm : args.outputType ≠ .executable) (ho : args.outputFile = [])
    (hx : ∀ p ∈ pre ++ i :: post, ExtIn p (accepts args.outputType))
    (hpre : compile env { args with inputFiles := pre } w = (.ok (), w1))
    (hi : compile env { args with inputFiles := [i] } w1 = (r, w2)) (hr : r ≠ .ok ()) :
    compile env { args with inputFiles := pre ++ i :: post } w = (r, w2) := by
  simp only [accepts_iff] at hx
  have all : ∀ l : List Path, (∀ p ∈ l, ext p ∈ accepts args.outputType) →
      l.all (fun i => decide (ext i ∈ accepts args.outputType)) = true := by simp
  have pr : ∀ l, process env { args with inputFiles := l } = process env args := by
    intro l; funext a b; unfold process; cases h : args.outputType <;> rfl
  have key : ∀ l, (∀ p ∈ l, ext p ∈ accepts args.outputType) →
      compile env { args with inputFiles := l } = forEach (process env args) (outExt args.outputType) l := by
    intro l hl
    rw [compile_dispatch env { args with inputFiles := l } hm]
    dsimp only
    rw [if_pos (all l hl), pr]
    unfold dispatch
    dsimp only
    rw [if_neg (by simp [ho])]
  rw [key _ (fun p hp => hx p (List.mem_append_left _ hp))] at hpre
  rw [key _ (fun p hp => hx p (by simp at hp; simp [hp]))] at hi
  rw [key _ hx]
  clear hx
  induction pre generalizing w with
  | nil =>
    cases hpre
    rw [List.nil_append]
    rw [forEach_cons] at hi ⊢
    cases hq : process env args i (defaultOut i (outExt args.outputType)) w1 with
    | mk r' w' =>
      rw [hq] at hi
      cases r' with
      | ok u => cases hi; exact absurd rfl hr
      | error => exact hi
      | panic => exact hi
  | cons a pre ih =>
    rw [List.cons_append, forEach_cons]
    rw [forEach_cons] at hpre
    cases hq : process env args a (defaultOut a (outExt args.outputType)) w with
    | mk r' w' =>
      rw [hq] at hpre
      cases r' with
      | ok u => exact ih hpre
      | error => cases hpre
      | panic => cases hpre

/-- C43, and if every input succeeds, so does the list -/
theorem C43_all_succeed {env : Env} {args : Options} {w w1 w2 : World} {pre : List Path} {i : Path}
    (hm : args.outputType ≠ .executable) (ho : args.outputFile = [])
    (hpre : compile env { args with inputFiles := pre } w = (.ok (), w1))
    (hi : compile env { args with inputFiles := [i] } w1 = (.ok (), w2)) :
    compile env { args with inputFiles := pre ++ [i] } w = (.ok (), w2) := by
  have pr : ∀ l, process env { args with inputFiles := l } = process env args := by
    intro l; funext a b; unfold process; cases h : args.outputType <;> rfl
  have key : ∀ l, compile env { args with inputFiles := l } =
      if l.all (fun i => decide (ext i ∈ accepts args.outputType)) = true then
        forEach (process env args) (outExt args.outputType) l else Driver.fail := by
    intro l
    rw [compile_dispatch env { args with inputFiles := l } hm]
    dsimp only
    rw [pr]
    have : dispatch { args with inputFiles := l } (process env args) (outExt args.outputType) =
        forEach (process env args) (outExt args.outputType) l := by
      unfold dispatch
      exact if_neg (by simp [ho])
    rw [this]
  rw [key] at hpre hi ⊢
  split at hpre
  · rename_i hp
    split at hi
    · rename_i hq
      rw [if_pos (by rw [List.all_append, hp, hq]; rfl)]
      clear hp
      induction pre generalizing w with
      | nil => cases hpre; exact hi
      | cons a pre ih =>
        rw [List.cons_append, forEach_cons]
        rw [forEach_cons] at hpre
        cases hq : process env args a (defaultOut a (outExt args.outputType)) w with
        | mk r' w' =>
          rw [hq] at hpre
          cases r' with
          | ok u => exact ih hpre
          | error => cases hpre
          | panic => cases hpre
    · cases hi
  · cases hpre

example :
    let r := compile calm (opts .ir "" ["a.b", "bad.b", "c.b"] false) ⟨someFiles ["a.b", "c.b"], []⟩
    r.2.fs "a.ll".toList = some [102#8] ∧ r.2.fs "bad.ll".toList = none ∧ r.2.fs "c.ll".toList = none := by
  decide +kernel

/-! ### C44 -/

/-- C44. Exactly which invocations are refused or answered without any work, and with which options the
others compile. -/
theorem C44_main (env : Env) (sys : Sys) (f : Flags) (w : World) :
    ((f.showHelp = true ∨ f.showVersion = true) → Driver.main env sys f w = (0, w)) ∧
    (f.showHelp = false → f.showVersion = false →
      ((f.files = [] ∨ (∀ d ∈ ['0', '1', '2', '3'], f.optimize ≠ [d]) ∨
        ∃ p ∈ f.files, (¬ ExtIn p (accepts .executable)) ∨ sys.stat p = none) → Driver.main env sys f w = (1, w)) ∧
      (f.files ≠ [] → 1 < f.nargs → (∀ p ∈ f.files, ExtIn p (accepts .executable) ∧ sys.stat p ≠ none) →
        ∀ d ∈ ['0', '1', '2', '3'], f.optimize = [d] →
        ∃ args : Options, Driver.main env sys f w =
            ((match (compile env args w).1 with | .ok _ => 0 | .error => 1 | .panic => 2), (compile env args w).2) ∧
          args.inputFiles = f.files ∧ args.outputFile = f.output ∧ args.saveTemps = f.saveTemps ∧
          args.debugInfo = f.debugInfo ∧ args.libraries = f.libraries ∧
          args.optimize = d.toNat - 48 ∧
          args.outputType = (if f.assemblyOnly then .assembly else if f.compileOnly then .object
            else if f.emitLLVM then .ir else .executable))) := by
  refine ⟨fun h => ?_, fun hh hv => ⟨fun h => ?_, fun hf hn hp d hd hopt => ?_⟩⟩
  · unfold Driver.main
    rcases h with h | h
    · rw [if_pos h]
    · rw [h]
      split
      · rfl
      · rfl
  · unfold Driver.main
    simp only [hh, hv, Bool.false_eq_true, if_false]
    split
    · rfl
    split
    · rfl
    rename_i hfn
    split
    · rfl
    rename_i level hl
    rcases h with h | h | ⟨p, hp, h⟩
    · exact absurd h hfn
    · exfalso
      unfold optLevelOf at hl
      by_cases h0 : f.optimize = ['0']
      · exact h '0' (by simp) h0
      · rw [if_pos h0] at hl
        split at hl
        · rename_i hd
          rcases hd with hd | hd | hd
          · exact h '1' (by simp) hd
          · exact h '2' (by simp) hd
          · exact h '3' (by simp) hd
        · cases hl
    · rw [if_pos]
      simp only [List.any_eq_true, Bool.or_eq_true, Bool.not_eq_true']
      refine ⟨p, hp, ?_⟩
      rcases h with h | h
      · left
        rw [accepts_iff, ← allowedExt_iff] at h
        simpa using h
      · right; simp [h]
  · unfold Driver.main
    simp only [hh, hv, Bool.false_eq_true, if_false]
    rw [if_neg (by omega), if_neg hf]
    have hl : optLevelOf f.optimize = some (d.toNat - 48) := by
      rw [hopt]
      simp only [List.mem_cons, List.not_mem_nil, or_false] at hd
      rcases hd with rfl | rfl | rfl | rfl <;> rfl
    rw [hl]
    dsimp only
    rw [if_neg]
    · refine ⟨optionsOf sys f (d.toNat - 48), ?_, rfl, rfl, rfl, rfl, rfl, rfl, rfl⟩
      cases h : compile env (optionsOf sys f (d.toNat - 48)) w with
      | mk r w' => cases r <;> rfl
    · simp only [List.any_eq_true, not_exists, not_and, Bool.or_eq_true, Bool.not_eq_true', not_or]
      intro p hpf
      obtain ⟨h1, h2⟩ := hp p hpf
      rw [accepts_iff, ← allowedExt_iff] at h1
      refine ⟨by simp [h1], ?_⟩
      cases h : sys.stat p with
      | none => exact absurd h h2
      | some b => simp

/-! ### C45 -/

/-- C45. The library directories of the options are the existing ones of the documented defaults, in that
order, followed by the user's in order. -/
theorem C45_library_dirs (sys : Sys) (f : Flags) (level : Nat) :
    (optionsOf sys f level).libraryDirs =
      (sys.homeLib.toList ++ ["/opt/homebrew/lib".toList, "/opt/local/lib".toList, "/usr/local/lib".toList,
        "/usr/lib".toList]).filter (fun p => sys.stat p == some true) ++ f.libraryDirs := by
  have one : ∀ p, addIfDir sys p = [p].filter (fun p => sys.stat p == some true) := by
    intro p
    unfold addIfDir
    by_cases h : sys.stat p = some true
    · simp [h]
    · rw [if_neg h, List.filter_cons_of_neg (by simpa using h)]; rfl
  have e : ∀ a b c d : Path, [a, b, c, d] = [a] ++ [b] ++ [c] ++ [d] := fun _ _ _ _ => rfl
  show defaultDirs sys ++ _ = _
  unfold defaultDirs
  rw [e, List.filter_append, List.filter_append, List.filter_append, List.filter_append]
  simp only [one]
  cases sys.homeLib <;> simp

/-- C45. `main` hands these directories to the compilation, and with them to the link command in the same
order (see `C41_link_command`). -/
theorem C45_main {env : Env} {sys : Sys} {f : Flags} {w w' : World} (h : Driver.main env sys f w = (0, w'))
    (hh : f.showHelp = false) (hv : f.showVersion = false) :
    ∃ args : Options, compile env args w = (.ok (), w') ∧ args.libraries = f.libraries ∧
      args.libraryDirs = (sys.homeLib.toList ++ ["/opt/homebrew/lib".toList, "/opt/local/lib".toList,
        "/usr/local/lib".toList, "/usr/lib".toList]).filter (fun p => sys.stat p == some true) ++ f.libraryDirs := by
  unfold Driver.main at h
  simp only [hh, hv, Bool.false_eq_true, if_false] at h
  split at h
  · cases h
  split at h
  · cases h
  split at h
  · cases h
  rename_i level _
  split at h
  · cases h
  refine ⟨optionsOf sys f level, ?_, rfl, C45_library_dirs sys f level⟩
  cases hc : compile env (optionsOf sys f level) w with
  | mk r w1 =>
    rw [hc] at h
    cases r with
    | ok u => cases h; rfl
    | error => cases h
    | panic => cases h

example : (optionsOf ⟨fun p => if p = "/usr/lib".toList ∨ p = "/h/.local/lib".toList then some true else none,
      some "/h/.local/lib".toList⟩
    ⟨2, [], false, false, false, false, false, false, ['0'], false, ["u".toList], [], ["a.b".toList]⟩ 0).libraryDirs =
    ["/h/.local/lib".toList, "/usr/lib".toList, "u".toList] := by decide +kernel

end Blang.Props
