import Verif.Props.Leaves
import Verif.Props.Outputs
/-
C95: what the compilation of one input leaves behind, file by file, in the modes with one output per input (by C43 a list of inputs is
processed one after the other).
-/
namespace Blang.Props
open Blang Blang.Driver

/-- `o` is the output of the single input `i`: the requested name, or the documented one -/
def OutputFor (args : Options) (i o : Path) : Prop :=
  if args.outputFile = [] then OutName args.outputType i o else o = args.outputFile

/-- one input: `Compile` is the processing of this input -/
theorem compile_single {env : Env} {args : Options} {i o : Path} (hm : args.outputType ≠ .executable) (hi : args.inputFiles = [i])
    (hx : ExtIn i (accepts args.outputType)) (ho : OutputFor args i o) (w : World) : compile env args w = process env args i o w := by
  rw [accepts_iff] at hx
  rw [compile_dispatch env args hm, hi]
  rw [if_pos (by simpa using hx)]
  unfold OutputFor at ho
  unfold dispatch
  split at ho
  · rename_i e
    rw [if_neg (by simp [e]), hi]
    rw [outName_iff (accepts_ext _ _ hx) rfl] at ho
    rw [forEach_cons, ← ho]
    rcases process env args i o w with ⟨r, w'⟩
    cases r <;> rfl
  · rename_i e
    rw [if_pos e, hi, ho]

theorem outputFor_ne {args : Options} {i o : Path} (hm : args.outputType ≠ .executable) (ho : OutputFor args i o) : o ≠ [] := by
  unfold OutputFor at ho
  split at ho
  · obtain ⟨s, e, _, _, rfl⟩ := ho
    cases h : args.outputType <;> simp [outExt] <;> exact absurd h hm
  · rw [ho]; assumption

/-- a source without IR -/
theorem single_fails {env : Env} (sm : Untroubled env) {w : World} {i : Path} (hn : ∀ text, ¬ IrOf env w.fs i text) (o : Path) :
    compileSingleTo env i o w = (.error, w) := by
  unfold compileSingleTo
  cases hf : w.fs i with
  | none =>
    have e1 : openRead env i w = (.error, w) := by unfold openRead; rw [hf]
    exact bind_error e1
  | some c =>
    have e1 : openRead env i w = (.ok (c, .eof), w) := by unfold openRead; rw [hf]; simp [sm.opens, sm.reads]
    rw [bind_ok e1]
    dsimp only
    cases hc : compileFile c .eof with
    | error e => rfl
    | ok m =>
      cases hp : env.print m with
      | none => exact absurd hp (sm.io.2.2.2 m)
      | some text => exact absurd ⟨c, m, hf, hc, hp⟩ (hn text)

/-- the tool that makes the output, and the command line it gets -/
theorem process_tool {env : Env} {args : Options} (hm : args.outputType = .assembly ∨ args.outputType = .object) :
    ∃ flag, process env args = processOne env args flag ∧ ∀ out inp, buildClangArgs args flag inp out = toolFlags args ++ ["-o".toList, out, inp] := by
  have a : optFlags args = (if args.optimize = 0 then [] else ["-O".toList ++ natDec args.optimize]) ++
      (if args.debugInfo then ["-g".toList] else []) := by
    have a : (if 0 < args.optimize then [['-', 'O'] ++ natDec args.optimize] else []) =
        (if args.optimize = 0 then [] else ["-O".toList ++ natDec args.optimize]) := by
      by_cases h : args.optimize = 0
      · simp [h]
      · rw [if_pos (Nat.pos_of_ne_zero h), if_neg h]; rfl
    unfold optFlags
    rw [a]; rfl
  rcases hm with hm | hm
  · refine ⟨['-', 'S'], ?_, fun out inp => ?_⟩
    · funext a b; unfold process; rw [hm]
    · simp [buildClangArgs, toolFlags, a, hm]
  · refine ⟨['-', 'c'], ?_, fun out inp => ?_⟩
    · funext a b; unfold process; rw [hm]
    · simp [buildClangArgs, toolFlags, a, hm]

theorem tempIR_ne (o : Path) : o ++ tmpSuffix ≠ [] := by
  simp [tmpSuffix]

/-- C95. A source that is missing or does not compile: an error, and the world is as before. -/
theorem C95_fails {env : Env} (sm : Untroubled env) {args : Options} {w : World} {i : Path} (hm : args.outputType ≠ .executable)
    (hi : args.inputFiles = [i]) (hb : ExtIn i [".b".toList]) (hn : ∀ text, ¬ IrOf env w.fs i text) : compile env args w = (.error, w) := by
  have hb' := (singleton_b _).1 hb
  have hx : ExtIn i (accepts args.outputType) := (accepts_iff _ _).2 (b_accepted hb' _)
  obtain ⟨o, ho⟩ : ∃ o, OutputFor args i o := by
    unfold OutputFor
    split
    · exact ⟨_, (outName_iff (accepts_ext _ _ (b_accepted hb' args.outputType)) rfl).2 rfl⟩
    · exact ⟨_, rfl⟩
  rw [compile_single hm hi hx ho]
  have one : ∀ flag, processOne env args flag i o w = (.error, w) := by
    intro flag
    unfold processOne
    rw [if_pos ((suffix_b_iff i).2 hb')]
    rw [compileToIR_one env args hb' (tempIR_ne o)]
    exact bind_error (single_fails sm hn _)
  unfold process
  cases h : args.outputType with
  | ir => exact single_fails sm hn o
  | assembly => exact one _
  | object => exact one _
  | executable => exact absurd h hm

/-- C95, `--emit-llvm`: the output of a source holds its IR, every other file is as before, `clang` is not run. -/
theorem C95_ir {env : Env} (sm : Untroubled env) {args : Options} {w : World} {i o : Path} {text : Content} (hm : args.outputType = .ir)
    (hi : args.inputFiles = [i]) (hb : ExtIn i [".b".toList]) (ho : OutputFor args i o) (ht : IrOf env w.fs i text) :
    ∃ w', compile env args w = (.ok (), w') ∧ runs w'.events = runs w.events ∧ w'.fs o = some text ∧ ∀ p, p ≠ o → w'.fs p = w.fs p := by
  have hx : ExtIn i (accepts args.outputType) := (accepts_iff _ _).2 (b_accepted ((singleton_b _).1 hb) _)
  refine ⟨written w o text, ?_, ?_, ?_, fun p hp => written_fs_ne hp⟩
  · rw [compile_single (by simp [hm]) hi hx ho]
    unfold process
    rw [hm]
    exact written_by sm (smooth_translates sm ht)
  · simp [written, runs]
  · simp [written, FS.set]

/-- C95, `-S` and `-c` on a source: `clang` is run once, on `<output>.tmp.ll`, when this file holds the IR of the source and every other file is as
before.  The outcome is that of `clang`.  Afterwards every file is as `clang` left it, except that without `--save-temps` the file
`<output>.tmp.ll` is gone. -/
theorem C95_source {env : Env} (sm : Untroubled env) {args : Options} {w : World} {i o : Path} {text : Content}
    (hm : args.outputType = .assembly ∨ args.outputType = .object) (hi : args.inputFiles = [i]) (hb : ExtIn i [".b".toList])
    (ho : OutputFor args i o) (ht : IrOf env w.fs i text) :
    ∃ w1 cmd w', compile env args w = (if (env.clang w1 cmd).2 then .ok () else .error, w') ∧
      cmd = toolFlags args ++ ["-o".toList, o, o ++ ".tmp.ll".toList] ∧ runs w'.events = runs w.events ++ [cmd] ∧
      w1.fs (o ++ ".tmp.ll".toList) = some text ∧ (∀ p, p ≠ o ++ ".tmp.ll".toList → w1.fs p = w.fs p) ∧
      (w'.fs (o ++ ".tmp.ll".toList) = if args.saveTemps then (env.clang w1 cmd).1 (o ++ ".tmp.ll".toList) else none) ∧
      ∀ p, p ≠ o ++ ".tmp.ll".toList → w'.fs p = (env.clang w1 cmd).1 p := by
  have hb' := (singleton_b _).1 hb
  have hx : ExtIn i (accepts args.outputType) := (accepts_iff _ _).2 (b_accepted hb' _)
  have hne : args.outputType ≠ .executable := by rcases hm with h | h <;> simp [h]
  obtain ⟨flag, h1, h2⟩ := process_tool (env := env) hm
  generalize hw : written w (o ++ ".tmp.ll".toList) text = w1
  generalize hc : toolFlags args ++ ["-o".toList, o, o ++ ".tmp.ll".toList] = cmd
  obtain ⟨fs, c1, c2, c3, c4⟩ := cleanup_run (env := env) (args := args) [o ++ ".tmp.ll".toList] ⟨(env.clang w1 cmd).1, w1.events ++ [.run cmd]⟩
  refine ⟨w1, cmd, ⟨fs, (w1.events ++ [.run cmd]) ++ if args.saveTemps then [] else [o ++ ".tmp.ll".toList].map .remove⟩, ?_, rfl, ?_, ?_, ?_, ?_, ?_⟩
  · rw [compile_single hne hi hx ho, h1]
    unfold processOne
    rw [if_pos ((suffix_b_iff i).2 hb')]
    rw [compileToIR_one env args hb' (tempIR_ne o)]
    have e : compileSingleTo env i (o ++ tmpSuffix) w = (.ok (), w1) := by
      rw [written_by sm (smooth_translates sm ht), ← hw]; rfl
    rw [bind_ok e]
    unfold clangOne
    rw [h2, show toolFlags args ++ ["-o".toList, o, o ++ tmpSuffix] = cmd from hc,
      bind_ok (show runClang env cmd w1 = (.ok (env.clang w1 cmd).2, ⟨(env.clang w1 cmd).1, w1.events ++ [.run cmd]⟩) from rfl),
      show [o ++ tmpSuffix] = [o ++ ".tmp.ll".toList] from rfl, bind_ok c1]
    split <;> rfl
  · show runs (_ ++ _) = _
    rw [← hw]
    cases args.saveTemps <;> simp [written, runs]
  · rw [← hw]; simp [written, FS.set]
  · intro p hp; rw [← hw]; exact written_fs_ne hp
  · cases hs : args.saveTemps with
    | true => simp only [if_true]; rw [c3 hs]
    | false => exact c4 hs sm.io.2.2.1 _ (by simp)
  · intro p hp
    exact c2 p (by simpa using hp)

/-- C95, `-S` and `-c` on an input that is not a source: `clang` is run once, on this input in the world as it was, and every file is as `clang`
left it. -/
theorem C95_other {env : Env} {args : Options} {w : World} {i o : Path}
    (hm : args.outputType = .assembly ∨ args.outputType = .object) (hi : args.inputFiles = [i]) (hx : ExtIn i (accepts args.outputType))
    (hb : ¬ ExtIn i [".b".toList]) (ho : OutputFor args i o) :
    ∃ cmd, cmd = toolFlags args ++ ["-o".toList, o, i] ∧
      compile env args w = (if (env.clang w cmd).2 then .ok () else .error, ⟨(env.clang w cmd).1, w.events ++ [.run cmd]⟩) := by
  have hb' : ext i ≠ ".b".toList := fun h => hb ((singleton_b _).2 h)
  have hne : args.outputType ≠ .executable := by rcases hm with h | h <;> simp [h]
  obtain ⟨flag, h1, h2⟩ := process_tool (env := env) hm
  refine ⟨_, rfl, ?_⟩
  rw [compile_single hne hi hx ho, h1]
  unfold processOne
  rw [if_neg (fun h => hb' ((suffix_b_iff i).1 h))]
  unfold clangOne
  rw [h2]
  generalize toolFlags args ++ ["-o".toList, o, i] = cmd
  rw [bind_ok (show runClang env cmd w = (.ok (env.clang w cmd).2, ⟨(env.clang w cmd).1, w.events ++ [.run cmd]⟩) from rfl)]
  have c : cleanup env args [] ⟨(env.clang w cmd).1, w.events ++ [.run cmd]⟩ = (.ok (), ⟨(env.clang w cmd).1, w.events ++ [.run cmd]⟩) := by
    unfold cleanup; split <;> rfl
  rw [bind_ok c]
  split <;> rfl

/-- C95: `blang -c -o x.o a.b` on a file system with `a.b` and `x.o.tmp.ll`, `blang -S b.ll`, `blang --emit-llvm bad.b` -/
example : (∃ w1 cmd w', compile calm (opts .object "x.o" ["a.b"] false) ⟨someFiles ["a.b", "x.o.tmp.ll"], []⟩ =
      (if (calm.clang w1 cmd).2 then .ok () else .error, w') ∧ w'.fs "x.o.tmp.ll".toList = none) ∧
    (∃ cmd w', compile calm (opts .assembly "" ["b.ll"] false) ⟨someFiles ["b.ll"], []⟩ = (.ok (), w') ∧ runs w'.events = [cmd] ∧
      cmd = ["-S".toList, "-o".toList, "b.s".toList, "b.ll".toList]) ∧
    (∀ w, w.fs "bad.b".toList = some (bytesOf "main({") → compile calm (opts .ir "" ["bad.b"] false) w = (.error, w)) := by
  refine ⟨?_, ?_, fun w hw => ?_⟩
  · have hb : ExtIn "a.b".toList [".b".toList] := (singleton_b _).2 (by decide)
    rcases good_usable (fs := someFiles ["a.b", "x.o.tmp.ll"]) hb (by decide) with ⟨_, text, ht⟩ | ⟨h, _⟩
    · obtain ⟨w1, cmd, w', h1, _, _, _, _, h2, _⟩ := C95_source calm_smooth (args := opts .object "x.o" ["a.b"] false) (o := "x.o".toList)
        (w := ⟨someFiles ["a.b", "x.o.tmp.ll"], []⟩) (.inr rfl) rfl hb (by unfold OutputFor; rw [if_neg (by decide)]; rfl) ht
      exact ⟨w1, cmd, w', h1, h2⟩
    · exact absurd hb h
  · obtain ⟨cmd, h1, h2⟩ := C95_other (env := calm) (args := opts .assembly "" ["b.ll"] false) (o := "b.s".toList) (i := "b.ll".toList)
      (w := ⟨someFiles ["b.ll"], []⟩) (.inl rfl) rfl ((accepts_iff _ _).2 (by decide)) (fun h => by rw [singleton_b] at h; revert h; decide)
      (by
        unfold OutputFor
        rw [if_pos (by decide)]
        exact (outName_iff (e := ".ll".toList) ⟨"ll".toList, by decide⟩ (by decide)).2 (by decide))
    refine ⟨cmd, ⟨(calm.clang ⟨someFiles ["b.ll"], []⟩ cmd).1, [.run cmd]⟩, h2.trans ?_, rfl, h1.trans (by decide)⟩
    rfl
  · exact C95_fails calm_smooth (i := "bad.b".toList) (by decide) rfl ((singleton_b _).2 (by decide)) fun text ht =>
      bad_unusable hw (.inl ⟨(singleton_b _).2 (by decide), text, ht⟩)

end Blang.Props
