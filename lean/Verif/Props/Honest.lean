import Verif.Props.Touched
import Verif.Spec.Honest
/-
C76: the exit status is truthful.
-/
namespace Blang.Driver

section
variable {env : Env} {args : Options} {α β : Type}

theorem Smooth.trans {a b c : World} (h1 : Smooth env a b) (h2 : Smooth env b c) : Smooth env a c := by
  induction h2 with
  | refl => exact h1
  | step _ g ih => exact .step ih g

theorem Smooth.one {a b : World} (h : Good env a b) : Smooth env a b := .step (.refl _) h

theorem Tidied.smooth {a b : World} (h : Tidied env a b) : Smooth env a b := by
  induction h with
  | refl => exact .refl _
  | step p _ ih => exact .step ih (.remove p)

theorem Tidied.trans {a b c : World} (h1 : Tidied env a b) (h2 : Tidied env b c) : Tidied env a c := by
  induction h2 with
  | refl => exact h1
  | step p _ ih => exact .step p ih

theorem Smooth.failed {d : Cause} {a b c : World} (h1 : Smooth env a b) (h2 : FailedBy env args d b c) : FailedBy env args d a c :=
  h2.elim fun u ⟨v, h3, h4, h5⟩ => ⟨u, v, h1.trans h3, h4, h5⟩

theorem Fault.failed {d : Cause} {a b : World} (h : Fault env args d a b) : FailedBy env args d a b := ⟨a, b, .refl _, h, .refl _⟩

theorem FailedBy.tidied {d : Cause} {a b c : World} (h : FailedBy env args d a b) (h2 : Tidied env b c) : FailedBy env args d a c :=
  h.elim fun u ⟨v, h3, h4, h5⟩ => ⟨u, v, h3, h4, h5.trans h2⟩

theorem leftBy_append (a b : List Event) : ∀ L, leftBy L (a ++ b) = leftBy (leftBy L a) b := by
  induction a with
  | nil => intro L; rfl
  | cons e a ih => intro L; cases e <;> exact ih _

theorem leftBy_removes (ts : List Path) : ∀ L, leftBy L (ts.map .remove) = L.filter (· ∉ ts) := by
  induction ts with
  | nil => intro L; exact (List.filter_eq_self.2 (by simp)).symm
  | cons t ts ih =>
    intro L
    simp only [List.map_cons, leftBy, ih, List.filter_filter, List.mem_cons, not_or]
    congr 1
    funext x
    simp [Bool.and_comm]

/-- what removing `ts` means for the events -/
def tidyEvents (args : Options) (ts : List Path) : List Event := if args.saveTemps then [] else ts.map .remove

theorem cleanup_tidied (ts : List Path) (w : World) : ∃ w', cleanup env args ts w = (.ok (), w') ∧ Tidied env w w' ∧
    w'.events = w.events ++ tidyEvents args ts := by
  unfold cleanup tidyEvents
  split
  · exact ⟨w, rfl, .refl _, by simp⟩
  · have : ∀ (ts : List Path) (w : World), ∃ w', cleanup.go env ts w = (.ok (), w') ∧ Tidied env w w' ∧ w'.events = w.events ++ ts.map .remove := by
      intro ts
      induction ts with
      | nil => exact fun w => ⟨w, rfl, .refl _, by simp⟩
      | cons t ts ih =>
        intro w
        obtain ⟨w', h1, h2, h3⟩ := ih ⟨if env.removeOk w t then w.fs.set t none else w.fs, w.events ++ [.remove t]⟩
        refine ⟨w', ?_, (Tidied.step t (.refl w)).trans h2, by rw [h3]; simp⟩
        show (remove env t >>= fun _ => cleanup.go env ts) w = _
        rw [bind_ok (show remove env t w = (.ok (), _) from rfl)]
        exact h1
    exact this ts w

/-- a source through the front end -/
theorem single_honest {i : Path} (hi : i ∈ args.inputFiles) (o : Path) (ho : Props.Permitted args (.create o)) (w : World) {r : Res Unit} {w' : World} (h : compileSingleTo env i o w = (r, w')) :
    (r = .ok () → Translated env w i o w' ∧ Smooth env w w' ∧ w'.events = w.events ++ [.create o, .write o]) ∧
    (r = .error → ∃ c, c ≠ .kind ∧ FailedBy env args c w w' ∧ ((w'.events = w.events ∧ c.leaves [] = []) ∨
      (w'.events = w.events ++ [.create o, .write o] ∧ c = .file o))) := by
  unfold compileSingleTo at h
  have hpo := ho
  clear ho
  cases hf : w.fs i with
  | none =>
    have : openRead env i w = (.error, w) := by unfold openRead; rw [hf]
    rw [bind_error this] at h
    cases h
    exact ⟨fun e => (by cases e), fun _ => ⟨_, (by simp), (Fault.unreadable i hi (.inl hf)).failed, .inl ⟨rfl, rfl⟩⟩⟩
  | some c =>
  cases ho : env.openOk w i with
  | false =>
    have : openRead env i w = (.error, w) := by unfold openRead; rw [hf]; simp [ho]
    rw [bind_error this] at h
    cases h
    exact ⟨fun e => (by cases e), fun _ => ⟨_, (by simp), (Fault.unreadable i hi (.inr ho)).failed, .inl ⟨rfl, rfl⟩⟩⟩
  | true =>
  cases hr : env.readErr w i with
  | some k =>
    have e : openRead env i w = (.ok (c.take k, .io), w) := by unfold openRead; rw [hf]; simp [ho, hr]
    rw [bind_ok e] at h
    dsimp only at h
    obtain ⟨er, he⟩ := Props.C09_read_error (c.take k)
    have he' : ∃ e, compileFile (c.take k) .io = .error e := ⟨_, he⟩
    obtain ⟨e', he'⟩ := he'
    rw [he'] at h
    cases h
    exact ⟨fun e => (by cases e), fun _ => ⟨_, (by simp), (Fault.rejected i hi ⟨c, hf, ho, .inr ⟨k, hr, e', he'⟩⟩).failed, .inl ⟨rfl, rfl⟩⟩⟩
  | none =>
  have e : openRead env i w = (.ok (c, .eof), w) := by unfold openRead; rw [hf]; simp [ho, hr]
  rw [bind_ok e] at h
  dsimp only at h
  cases hc : compileFile c .eof with
  | error er =>
    rw [hc] at h
    cases h
    exact ⟨fun e => (by cases e), fun _ => ⟨_, (by simp), (Fault.rejected i hi ⟨c, hf, ho, .inl ⟨hr, er, hc⟩⟩).failed, .inl ⟨rfl, rfl⟩⟩⟩
  | ok m =>
  rw [hc] at h
  dsimp only at h
  cases hk : env.createOk w o with
  | false =>
    have : create env o w = (.error, w) := by unfold create; simp [hk]
    rw [bind_error this] at h
    cases h
    exact ⟨fun e => (by cases e), fun _ => ⟨_, (by simp), (Fault.create o hpo hk).failed, .inl ⟨rfl, rfl⟩⟩⟩
  | true =>
  have e : create env o w = (.ok (), ⟨w.fs.set o (some []), w.events ++ [.create o]⟩) := by unfold create; simp [hk]
  rw [bind_ok e] at h
  have s1 : Smooth env w ⟨w.fs.set o (some []), w.events ++ [.create o]⟩ := .one (.create o hk)
  cases hp : env.print m with
  | none =>
    rw [hp] at h
    cases h
    exact ⟨fun e => (by cases e), fun e => by cases e⟩
  | some text =>
  rw [hp] at h
  dsimp only at h
  generalize hw : (⟨w.fs.set o (some []), w.events ++ [.create o]⟩ : World) = w1 at h s1
  cases hwr : env.writeErr w1 o with
  | some k =>
    have : writeString env o text w1 = (.error, ⟨w1.fs.set o (some (text.take k)), w1.events ++ [.write o]⟩) := by unfold writeString; rw [hwr]
    rw [bind_error this] at h
    cases h
    exact ⟨fun e => (by cases e), fun _ => ⟨_, (by simp), s1.failed (Fault.write o text k hwr).failed, .inr ⟨by rw [← hw]; simp, rfl⟩⟩⟩
  | none =>
  have : writeString env o text w1 = (.ok (), ⟨w1.fs.set o (some text), w1.events ++ [.write o]⟩) := by unfold writeString; rw [hwr]
  rw [bind_ok this] at h
  cases hcl : env.closeOk ⟨w1.fs.set o (some text), w1.events ++ [.write o]⟩ o with
  | false =>
    have : close env o ⟨w1.fs.set o (some text), w1.events ++ [.write o]⟩ = (.error, ⟨w1.fs.set o (some text), w1.events ++ [.write o]⟩) := by unfold close; rw [hcl]; rfl
    rw [this] at h
    cases h
    exact ⟨fun e => (by cases e), fun _ => ⟨_, (by simp), s1.failed (Fault.close o text hwr hcl).failed, .inr ⟨by rw [← hw]; simp, rfl⟩⟩⟩
  | true =>
    have : close env o ⟨w1.fs.set o (some text), w1.events ++ [.write o]⟩ = (.ok (), ⟨w1.fs.set o (some text), w1.events ++ [.write o]⟩) := by unfold close; rw [hcl]; rfl
    rw [this] at h
    cases h
    have s2 : Smooth env w ⟨w1.fs.set o (some text), w1.events ++ [.write o]⟩ := .step s1 (.write o text hwr hcl)
    refine ⟨fun _ => ⟨⟨w, text, .refl _, ⟨c, m, hf, ho, hr, hc, hp⟩, s2, by simp [FS.set], by rw [← hw]; simp⟩, s2, by rw [← hw]; simp⟩, fun e => by cases e⟩

/-- a run of clang on one file -/
theorem clangOne_honest (a : Options) (flag : List Char) (i o : Path) (ts : List Path) (w : World) {r : Res Unit} {w' : World} (h : clangOne env a flag i o ts w = (r, w')) :
    (r = .ok () → (env.clang w (buildClangArgs a flag i o)).2 = true ∧
      Smooth env ⟨(env.clang w (buildClangArgs a flag i o)).1, w.events ++ [.run (buildClangArgs a flag i o)]⟩ w' ∧ Smooth env w w') ∧
    (r = .error → FailedBy env args .tool w w') ∧
    w'.events = w.events ++ (.run (buildClangArgs a flag i o) :: tidyEvents a ts) := by
  unfold clangOne at h
  rw [bind_ok (show runClang env _ w = (.ok _, _) from rfl)] at h
  obtain ⟨w2, h1, h2, h3⟩ := cleanup_tidied (env := env) (args := a) ts ⟨(env.clang w (buildClangArgs a flag i o)).1, w.events ++ [.run (buildClangArgs a flag i o)]⟩
  rw [bind_ok h1] at h
  cases hc : (env.clang w (buildClangArgs a flag i o)).2 with
  | true =>
    rw [hc] at h
    cases h
    exact ⟨fun _ => ⟨rfl, h2.smooth, (Smooth.one (.run _ hc)).trans h2.smooth⟩, fun e => (by cases e), by rw [h3]; simp⟩
  | false =>
    rw [hc] at h
    cases h
    exact ⟨fun e => (by cases e), fun _ => ⟨w, _, .refl _, .run _ hc, h2⟩, by rw [h3]; simp⟩

theorem b_iff (i : Path) : ExtIn i [".b".toList] ↔ ext i = ".b".toList := Props.singleton_b i

theorem Smooth.served {w u v w' : World} {i : Path} (h1 : Smooth env w u) (h : Served env args u v i) (h2 : Smooth env v w') : Served env args w w' i := by
  obtain ⟨x, y, h3, h4, h5⟩ := h
  rcases h3 with ⟨hb, s, text, a1, a2⟩ | ⟨hb, rfl, rfl⟩
  · refine ⟨x, y, .inl ⟨hb, s, text, h1.trans a1, a2⟩, h4.trans h2, fun hm => ?_⟩
    obtain ⟨z, cmd, k1, k2, k3, k4⟩ := h5 hm
    exact ⟨z, cmd, k1, k2, k3, k4.trans h2⟩
  · refine ⟨x, w, .inr ⟨hb, rfl, rfl⟩, (h1.trans h4).trans h2, fun hm => ?_⟩
    obtain ⟨z, cmd, k1, k2, k3, k4⟩ := h5 hm
    exact ⟨z, cmd, h1.trans k1, k2, k3, k4.trans h2⟩

/-- one input of the modes with one output per input -/
theorem process_honest (hm : args.outputType ≠ .executable) {i : Path} (hi : i ∈ args.inputFiles) (hx : ext i ∈ accepts args.outputType) (o : Path) (ho : Props.IsOutput args o) (w : World)
    {r : Res Unit} {w' : World} (h : process env args i o w = (r, w')) :
    (r = .ok () → Served env args w w' i ∧ Smooth env w w' ∧ (∃ es, w'.events = w.events ++ es ∧ (args.saveTemps = false → args.outputType ≠ .ir → leftBy [] es = []))) ∧
    (r = .error → ∃ c es, c ≠ .kind ∧ FailedBy env args c w w' ∧ w'.events = w.events ++ es ∧ (args.saveTemps = false → args.outputType ≠ .ir → leftBy [] es = c.leaves [])) := by
  have one : ∀ flag, args.outputType ≠ .ir → processOne env args flag i o w = (r, w') →
      (r = .ok () → Served env args w w' i ∧ Smooth env w w' ∧ (∃ es, w'.events = w.events ++ es ∧ (args.saveTemps = false → args.outputType ≠ .ir → leftBy [] es = []))) ∧
    (r = .error → ∃ c es, c ≠ .kind ∧ FailedBy env args c w w' ∧ w'.events = w.events ++ es ∧ (args.saveTemps = false → args.outputType ≠ .ir → leftBy [] es = c.leaves [])) := by
    intro flag hir h
    unfold processOne at h
    by_cases hs : hasSuffix i ['.', 'b'] = true
    · rw [if_pos hs] at h
      have hb := (suffix_b_iff i).1 hs
      rw [compileToIR_one env args hb (by simp [tmpSuffix])] at h
      obtain ⟨r1, w1, h1⟩ : ∃ r1 w1, compileSingleTo env i (o ++ tmpSuffix) w = (r1, w1) := ⟨_, _, rfl⟩
      obtain ⟨k1, k2⟩ := single_honest (args := args) hi (o ++ tmpSuffix) (.inr ⟨hir, .inl ⟨o, ho, rfl⟩⟩) w h1
      cases r1 with
      | ok a =>
        rw [bind_ok h1] at h
        obtain ⟨t, s, ev⟩ := k1 rfl
        obtain ⟨l1, l2, l3⟩ := clangOne_honest (args := args) args flag _ _ _ w1 h
        have left : args.saveTemps = false → leftBy [] ([Event.create (o ++ tmpSuffix), .write (o ++ tmpSuffix)] ++
            (.run (buildClangArgs args flag (o ++ tmpSuffix) o) :: tidyEvents args [o ++ tmpSuffix])) = [] := by
          intro hs
          simp [tidyEvents, hs, leftBy]
        have evs : w'.events = w.events ++ ([Event.create (o ++ tmpSuffix), .write (o ++ tmpSuffix)] ++
            (.run (buildClangArgs args flag (o ++ tmpSuffix) o) :: tidyEvents args [o ++ tmpSuffix])) := by
          rw [l3, ev]; simp
        refine ⟨fun e => ?_, fun e => ⟨_, _, by simp, s.failed (l2 e), evs, fun hs _ => left hs⟩⟩
        obtain ⟨m1, m2, m3⟩ := l1 e
        refine ⟨⟨o ++ tmpSuffix, w1, .inl ⟨(b_iff i).2 hb, t⟩, m3, fun _ => ⟨w1, _, .refl _, ?_, m1, m2⟩⟩, s.trans m3, _, evs, fun hs _ => left hs⟩
        simp [buildClangArgs]
      | error =>
        rw [bind_error h1] at h
        cases h
        refine ⟨fun e => (by cases e), fun _ => ?_⟩
        obtain ⟨c, q1, q2, ⟨q3, q4⟩ | ⟨q3, rfl⟩⟩ := k2 rfl
        · exact ⟨c, [], q1, q2, by rw [q3]; simp, fun _ _ => q4.symm⟩
        · exact ⟨_, _, q1, q2, q3, fun _ _ => rfl⟩
      | panic =>
        rw [bind_panic h1] at h
        cases h
        exact ⟨fun e => (by cases e), fun e => by cases e⟩
    · rw [if_neg hs] at h
      have hb : ¬ ext i = ".b".toList := fun e => hs ((suffix_b_iff i).2 e)
      obtain ⟨l1, l2, l3⟩ := clangOne_honest (args := args) args flag _ _ _ w h
      have left : leftBy [] (.run (buildClangArgs args flag i o) :: tidyEvents args []) = [] := by simp [tidyEvents, leftBy]
      refine ⟨fun e => ?_, fun e => ⟨_, _, by simp, l2 e, l3, fun _ _ => left⟩⟩
      obtain ⟨m1, m2, m3⟩ := l1 e
      refine ⟨⟨i, w, .inr ⟨fun e => hb ((b_iff i).1 e), rfl, rfl⟩, m3, fun _ => ⟨w, _, .refl _, ?_, m1, m2⟩⟩, m3, _, l3, fun _ _ => left⟩
      simp [buildClangArgs]
  unfold process at h
  cases ht : args.outputType with
  | executable => exact absurd ht hm
  | ir =>
    rw [ht] at h hx
    have hb : ext i = ".b".toList := by simpa [accepts] using hx
    obtain ⟨k1, k2⟩ := single_honest (args := args) hi o (.inl ⟨ht, ho⟩) w h
    refine ⟨fun e => ?_, fun e => ?_⟩
    · obtain ⟨t, s, ev⟩ := k1 e
      exact ⟨⟨o, w', .inl ⟨(b_iff i).2 hb, t⟩, .refl _, fun hne => absurd ht hne⟩, s, _, ev, fun _ hne => absurd rfl hne⟩
    · obtain ⟨c, q1, q2, ⟨q3, q4⟩ | ⟨q3, rfl⟩⟩ := k2 e
      · exact ⟨c, [], q1, q2, by rw [q3]; simp, fun _ _ => q4.symm⟩
      · exact ⟨_, _, q1, q2, q3, fun _ _ => rfl⟩
  | assembly => rw [ht] at h; rw [← ht]; exact one _ (by simp [ht]) h
  | object => rw [ht] at h; rw [← ht]; exact one _ (by simp [ht]) h

theorem forEach_honest (hm : args.outputType ≠ .executable) (e : Path) : ∀ (is : List Path) (_ : ∀ i ∈ is, i ∈ args.inputFiles ∧ ext i ∈ accepts args.outputType ∧ Props.IsOutput args (defaultOut i e)) (w : World)
    {r : Res Unit} {w' : World} (_ : forEach (process env args) e is w = (r, w')),
    (r = .ok () → (∀ i ∈ is, Served env args w w' i) ∧ Smooth env w w' ∧ (∃ es, w'.events = w.events ++ es ∧ (args.saveTemps = false → args.outputType ≠ .ir → leftBy [] es = []))) ∧
    (r = .error → ∃ c es, c ≠ .kind ∧ FailedBy env args c w w' ∧ w'.events = w.events ++ es ∧ (args.saveTemps = false → args.outputType ≠ .ir → leftBy [] es = c.leaves [])) := by
  intro is
  induction is with
  | nil =>
    intro _ w r w' h
    cases h
    exact ⟨fun _ => ⟨by simp, .refl _, [], by simp, fun _ _ => rfl⟩, fun e => by cases e⟩
  | cons i is ih =>
    intro hi w r w' h
    rw [forEach_cons] at h
    obtain ⟨r1, w1, h1⟩ : ∃ r1 w1, process env args i (defaultOut i e) w = (r1, w1) := ⟨_, _, rfl⟩
    rw [h1] at h
    obtain ⟨k1, k2⟩ := process_honest hm (hi i (by simp)).1 (hi i (by simp)).2.1 _ (hi i (by simp)).2.2 w h1
    cases r1 with
    | ok a =>
      obtain ⟨s1, s2, es1, ev1, left1⟩ := k1 rfl
      obtain ⟨l1, l2⟩ := ih (fun j hj => hi j (by simp [hj])) w1 h
      have ev : ∀ es, w'.events = w1.events ++ es → w'.events = w.events ++ (es1 ++ es) := by
        intro es he; rw [he, ev1]; simp
      refine ⟨fun e => ?_, fun e => ?_⟩
      rotate_left
      · obtain ⟨c, es, q1, q2, q3, q4⟩ := l2 e
        exact ⟨c, _, q1, s2.failed q2, ev es q3, fun a b => by rw [leftBy_append, left1 a b]; exact q4 a b⟩
      obtain ⟨m1, m2, es, ev2, left2⟩ := l1 e
      refine ⟨fun j hj => ?_, s2.trans m2, _, ev es ev2, fun a b => by rw [leftBy_append, left1 a b]; exact left2 a b⟩
      rcases List.mem_cons.1 hj with rfl | hj
      · exact Smooth.served (.refl _) s1 m2
      · exact s2.served (m1 j hj) (.refl _)
    | error => cases h; exact ⟨fun e => (by cases e), fun _ => k2 rfl⟩
    | panic => cases h; exact ⟨fun e => (by cases e), fun e => by cases e⟩

/-- the inputs of a link -/
theorem exeLoop_honest {na : Options} : ∀ (is : List Path) (_ : ∀ i ∈ is, i ∈ args.inputFiles) (_ : args.outputType = .executable) (k : Nat) (_ : ∀ t ∈ tempsOf na k is, Props.IsTemp args t) (temps ci : List Path) (_ : (temps ++ tempsOf na k is).Nodup) (w : World)
    {r : Res (List Path × List Path)} {w' : World} (_ : exeLoop env na k temps ci is w = (r, w')),
    (∀ T C, r = .ok (T, C) → Smooth env w w' ∧ (∀ x ∈ ci, x ∈ C) ∧ ∀ i ∈ is, ext i ∈ accepts .executable ∧
      ((ext i = ".b".toList ∧ ∃ x v, Translated env w i x v ∧ Smooth env v w' ∧ x ∈ C) ∨ (ext i ≠ ".b".toList ∧ i ∈ C))) ∧
    (∀ T C, r = .ok (T, C) → ∃ es, w'.events = w.events ++ es ∧ leftBy temps es = T) ∧
    (r = .error → ∃ c es, FailedBy env args c w w' ∧ w'.events = w.events ++ es ∧ (na.saveTemps = false → leftBy temps es = c.leaves (temps ++ created es))) := by
  intro is
  induction is with
  | nil =>
    intro _ _ k _ temps ci _ w r w' h
    cases h
    exact ⟨fun T C e => (by cases e; exact ⟨.refl _, fun x hx => hx, by simp⟩), fun T C e => (by cases e; exact ⟨[], by simp, rfl⟩), fun e => by cases e⟩
  | cons i is ih =>
    intro hi hm k ht temps ci nd w r w' h
    unfold exeLoop at h
    unfold tempsOf at ht nd
    split at h
    · rename_i hb
      rw [if_pos hb] at ht nd
      dsimp only at h
      obtain ⟨r1, w1, h1⟩ : ∃ r1 w1, exeCompile env na temps i (exeTemp na k i) w = (r1, w1) := ⟨_, _, rfl⟩
      have hc := h1
      unfold exeCompile at hc
      rw [compileToIR_one env na hb (exeTemp_ne na k i)] at hc
      obtain ⟨r2, w2, h2⟩ : ∃ r2 w2, compileSingleTo env i (exeTemp na k i) w = (r2, w2) := ⟨_, _, rfl⟩
      obtain ⟨k1, k2⟩ := single_honest (args := args) (hi i (by simp)) (exeTemp na k i) (.inr (ht _ (by simp))) w h2
      rw [h2] at hc
      cases r2 with
      | ok a =>
        cases hc
        rw [bind_ok h1] at h
        obtain ⟨t, s, ev1⟩ := k1 rfl
        obtain ⟨l1, l3, l2⟩ := ih (fun j hj => hi j (by simp [hj])) hm _ (fun t h => ht t (by simp [h])) _ _ (by simpa using nd) _ h
        refine ⟨fun T C e => ?_, fun T C e => ?_, fun e => ?_⟩
        rotate_left
        · obtain ⟨es, q1, q2⟩ := l3 T C e
          exact ⟨[Event.create (exeTemp na k i), Event.write (exeTemp na k i)] ++ es, by rw [q1, ev1, List.append_assoc], by rw [leftBy_append]; exact q2⟩
        · obtain ⟨c, es, q1, q2, q3⟩ := l2 e
          refine ⟨c, _, s.failed q1, by rw [q2, ev1, List.append_assoc], fun hs => ?_⟩
          rw [leftBy_append]
          simpa [leftBy, created] using q3 hs
        obtain ⟨m1, m2, m3⟩ := l1 T C e
        refine ⟨s.trans m1, fun x hx => m2 x (by simp [hx]), fun j hj => ?_⟩
        rcases List.mem_cons.1 hj with rfl | hj
        · exact ⟨by rw [hb]; simp [accepts], .inl ⟨hb, _, _, t, m1, m2 _ (by simp)⟩⟩
        · obtain ⟨n1, n2⟩ := m3 j hj
          refine ⟨n1, n2.imp (fun ⟨q1, x, v, ⟨u, text, q2, q3⟩, q4⟩ => ⟨q1, x, v, ⟨u, text, s.trans q2, q3⟩, q4⟩) id⟩
      | error =>
        obtain ⟨w3, h3, h4, ev⟩ := cleanup_tidied (env := env) (args := na) temps w2
        dsimp only at hc
        rw [bind_ok h3] at hc
        cases hc
        rw [bind_error h1] at h
        cases h
        refine ⟨fun T C e => (by cases e), fun T C e => (by cases e), fun _ => ?_⟩
        obtain ⟨c, q1, q2, q3⟩ := k2 rfl
        have lv : ∀ cs, c.leaves cs = c.leaves [] := by
          intro cs; cases c <;> first | rfl | exact absurd rfl q1
        rcases q3 with ⟨q3, q4⟩ | ⟨q3, rfl⟩
        · refine ⟨c, _, q2.tidied h4, by rw [ev, q3], fun hs => ?_⟩
          rw [lv, q4]
          simp [tidyEvents, hs, leftBy_removes]
        · refine ⟨_, _, q2.tidied h4, by rw [ev, q3, List.append_assoc], fun hs => ?_⟩
          have hn : exeTemp na k i ∉ temps := fun hm => by
            have := (List.nodup_append.1 nd).2.2 _ hm _ (List.mem_cons_self ..)
            exact this rfl
          rw [leftBy_append, lv]
          simp [tidyEvents, hs, leftBy, leftBy_removes, Cause.leaves, hn, List.filter_append]
      | panic =>
        cases hc
        rw [bind_panic h1] at h
        cases h
        exact ⟨fun T C e => (by cases e), fun T C e => (by cases e), fun e => by cases e⟩
    · rename_i hb
      rw [if_neg hb] at ht nd
      split at h
      · rename_i ho
        obtain ⟨l1, l3, l2⟩ := ih (fun j hj => hi j (by simp [hj])) hm _ ht _ _ nd _ h
        refine ⟨fun T C e => ?_, l3, l2⟩
        obtain ⟨m1, m2, m3⟩ := l1 T C e
        refine ⟨m1, fun x hx => m2 x (by simp [hx]), fun j hj => ?_⟩
        rcases List.mem_cons.1 hj with rfl | hj
        · refine ⟨?_, .inr ⟨hb, m2 _ (by simp)⟩⟩
          rcases ho with e | e | e | e <;> simp [accepts, e]
        · exact m3 j hj
      · rename_i ho
        cases h
        refine ⟨fun T C e => (by cases e), fun T C e => (by cases e), fun _ => ⟨_, [], (Fault.kind i (hi i (by simp)) ?_).failed, by simp, fun _ => by simp [leftBy, Cause.leaves, created]⟩⟩
        rw [accepts_iff, hm]
        intro hx
        simp only [accepts, List.mem_cons, List.not_mem_nil, or_false] at hx
        rcases hx with e | e
        · exact hb e
        · exact ho e

theorem exeMain_honest {na : Options} (hm : args.outputType = .executable) (hn : na.inputFiles = args.inputFiles) (hsv : na.saveTemps = args.saveTemps) (hq : ∀ t ∈ tempsOf na 0 na.inputFiles, Props.IsTemp args t) (w : World)
    {r : Res Unit} {w' : World} (h : exeMain env na w = (r, w')) :
    (r = .ok () → (∀ i ∈ args.inputFiles, ext i ∈ accepts args.outputType ∧ Served env args w w' i) ∧ Smooth env w w' ∧
      (∃ es, w'.events = w.events ++ es ∧ (args.saveTemps = false → args.outputType ≠ .ir → leftover es = []))) ∧
    (r = .error → ∃ c es, FailedBy env args c w w' ∧ w'.events = w.events ++ es ∧ (args.saveTemps = false → args.outputType ≠ .ir → leftover es = c.leaves (created es))) := by
  unfold exeMain at h
  obtain ⟨r1, w1, h1⟩ : ∃ r1 w1, exeLoop env na 0 [] [] na.inputFiles w = (r1, w1) := ⟨_, _, rfl⟩
  obtain ⟨k1, k3, k2⟩ := exeLoop_honest (args := args) na.inputFiles (fun i hi => hn ▸ hi) hm 0 hq [] [] (by simpa using tempsOf_nodup na) w h1
  cases r1 with
  | error =>
    rw [bind_error h1] at h
    cases h
    refine ⟨fun e => (by cases e), fun _ => ?_⟩
    obtain ⟨c, es, q1, q2, q3⟩ := k2 rfl
    exact ⟨c, es, q1, q2, fun hs _ => by simpa [leftover] using q3 (hsv.trans hs)⟩
  | panic =>
    rw [bind_panic h1] at h
    cases h
    exact ⟨fun e => (by cases e), fun e => by cases e⟩
  | ok TC =>
    obtain ⟨T, C⟩ := TC
    rw [bind_ok h1] at h
    obtain ⟨s, _, hi⟩ := k1 T C rfl
    dsimp only at h
    rw [bind_ok (show runClang env (linkArgs na C) w1 = (.ok _, _) from rfl)] at h
    obtain ⟨es, ev, lf⟩ := k3 T C rfl
    obtain ⟨w2, h2, h3, ev2⟩ := cleanup_tidied (env := env) (args := na) T ⟨(env.clang w1 (linkArgs na C)).1, w1.events ++ [.run (linkArgs na C)]⟩
    rw [bind_ok h2] at h
    have left : args.saveTemps = false → leftover (es ++ (.run (linkArgs na C) :: tidyEvents na T)) = [] := by
      intro hs
      rw [leftover, leftBy_append, lf]
      simp [tidyEvents, hsv, hs, leftBy, leftBy_removes]
    have evs : w2.events = w.events ++ (es ++ (.run (linkArgs na C) :: tidyEvents na T)) := by rw [ev2, ev]; simp
    cases hc : (env.clang w1 (linkArgs na C)).2 with
    | false =>
      rw [hc] at h
      cases h
      exact ⟨fun e => (by cases e), fun _ => ⟨_, _, ⟨w1, _, s, .run _ hc, h3⟩, evs, fun hs _ => left hs⟩⟩
    | true =>
      rw [hc] at h
      cases h
      have s2 : Smooth env w1 w' := (Smooth.one (.run _ hc)).trans h3.smooth
      refine ⟨fun _ => ⟨fun i hin => ?_, s.trans s2, _, evs, fun hs _ => left hs⟩, fun e => by cases e⟩
      have inC : ∀ x ∈ C, x ∈ linkArgs na C := fun x hx => by simp [linkArgs, hx]
      obtain ⟨n1, n2⟩ := hi i (hn ▸ hin)
      refine ⟨hm ▸ n1, ?_⟩
      rcases n2 with ⟨hb, x, v, t, q1, q2⟩ | ⟨hb, q2⟩
      · exact ⟨x, v, .inl ⟨(b_iff i).2 hb, t⟩, q1.trans s2, fun _ => ⟨w1, _, q1, inC x q2, hc, h3.smooth⟩⟩
      · exact ⟨i, w, .inr ⟨fun e => hb ((b_iff i).1 e), rfl, rfl⟩, s.trans s2, fun _ => ⟨w1, _, s, inC i q2, hc, h3.smooth⟩⟩

theorem leaves_any {c : Cause} (h : c ≠ .kind) (cs : List Path) : c.leaves [] = c.leaves cs := by
  cases c <;> first | rfl | exact absurd rfl h

theorem compile_honest {w w' : World} {r : Res Unit} (h : compile env args w = (r, w')) :
    (r = .ok () → (∀ i ∈ args.inputFiles, ext i ∈ accepts args.outputType ∧ Served env args w w' i) ∧ Smooth env w w' ∧
      (∃ es, w'.events = w.events ++ es ∧ (args.saveTemps = false → args.outputType ≠ .ir → leftover es = []))) ∧
    (r = .error → ∃ c es, FailedBy env args c w w' ∧ w'.events = w.events ++ es ∧ (args.saveTemps = false → args.outputType ≠ .ir → leftover es = c.leaves (created es))) := by
  by_cases hm : args.outputType = .executable
  · unfold compile at h
    rw [hm] at h
    dsimp only at h
    by_cases hi : args.inputFiles = []
    · unfold compileToExecutable at h
      rw [hi] at h
      split at h
      · cases h
        exact ⟨fun e => (by cases e), fun e => by cases e⟩
      · exact exeMain_honest hm rfl rfl (by simp [hi, tempsOf]) w h
    · rw [compileToExecutable_eq env args hi] at h
      by_cases hfirst : ∃ i, args.inputFiles.head? = some i ∧ ext i ∉ accepts .executable
      · obtain ⟨i, h0, hx⟩ := hfirst
        obtain ⟨l, hl⟩ : ∃ l, args.inputFiles = i :: l := by
          cases he : args.inputFiles with
          | nil => exact absurd he hi
          | cons a l => rw [he] at h0; simp at h0; exact ⟨l, by rw [h0]⟩
        have hx' := hx
        simp only [accepts, List.mem_cons, List.not_mem_nil, or_false, not_or] at hx'
        have e1 : exeLoop env (named args) 0 [] [] (named args).inputFiles w = (.error, w) := by
          rw [named_inputs, hl]
          unfold exeLoop
          rw [if_neg hx'.1, if_neg (by rintro (h | h | h | h); (· exact hx'.2.1 h); (· exact hx'.2.2.1 h); (· exact hx'.2.2.2.1 h); (· exact hx'.2.2.2.2 h))]
          rfl
        have : exeMain env (named args) w = (.error, w) := by
          unfold exeMain
          exact bind_error e1
        rw [this] at h
        cases h
        exact ⟨fun e => (by cases e), fun _ => ⟨_, [], (Fault.kind i (by rw [hl]; simp) (by rw [accepts_iff, hm]; exact hx)).failed, by simp, fun _ _ => rfl⟩⟩
      · refine exeMain_honest hm (named_inputs args) (named_save args) (Props.named_temp hm (Props.named_output hm hi ?_)) w h
        intro a ha
        by_cases hx : ext a ∈ accepts .executable
        · exact hx
        · exact absurd ⟨a, ha, hx⟩ hfirst
  · rw [compile_dispatch env args hm] at h
    split at h
    · rename_i hall
      have hx : ∀ i ∈ args.inputFiles, i ∈ args.inputFiles ∧ ext i ∈ accepts args.outputType :=
        fun i hi => ⟨hi, by simpa using List.all_eq_true.1 hall i hi⟩
      unfold dispatch at h
      split at h
      · rename_i ho
        rcases hi : args.inputFiles with _ | ⟨i, _ | ⟨j, is⟩⟩
        rotate_left
        · simp only [hi] at h
          rw [← hi]
          have hii : i ∈ args.inputFiles := by simp [hi]
          obtain ⟨k1, k2⟩ := process_honest hm hii (hx i hii).2 _ (by unfold Props.IsOutput; rw [if_pos ho]) w h
          refine ⟨fun e => ⟨fun j hj => ?_, (k1 e).2⟩, fun e => (k2 e).elim fun c ⟨es, q1, q2, q3, q4⟩ => ⟨c, es, q2, q3, fun a b => (q4 a b).trans (leaves_any q1 _)⟩⟩
          rw [hi] at hj
          obtain rfl := List.mem_singleton.1 hj
          exact ⟨(hx _ hii).2, (k1 e).1⟩
        all_goals
          simp only [hi] at h
          cases h
          exact ⟨fun e => (by cases e), fun _ => ⟨_, [], (Fault.several hm ho (by simp [hi])).failed, by simp, fun _ _ => rfl⟩⟩
      · rename_i ho
        obtain ⟨k1, k2⟩ := forEach_honest hm _ args.inputFiles (fun i hi => ⟨hi, (hx i hi).2, by
          unfold Props.IsOutput
          rw [if_neg ho, if_neg hm]
          exact ⟨i, hi, (outName_iff (accepts_ext _ _ (hx i hi).2) rfl).2 rfl⟩⟩) w h
        exact ⟨fun e => ⟨fun i hi => ⟨(hx i hi).2, (k1 e).1 i hi⟩, (k1 e).2⟩, fun e => (k2 e).elim fun c ⟨es, q1, q2, q3, q4⟩ => ⟨c, es, q2, q3, fun a b => (q4 a b).trans (leaves_any q1 _)⟩⟩
    · rename_i hall
      cases h
      refine ⟨fun e => (by cases e), fun _ => ?_⟩
      have : ∃ i ∈ args.inputFiles, ¬ ext i ∈ accepts args.outputType := by
        simpa [List.all_eq_true] using hall
      obtain ⟨i, hi, hb⟩ := this
      exact ⟨_, [], (Fault.kind i hi (by rw [accepts_iff]; exact hb)).failed, by simp, fun _ _ => rfl⟩

end
end Blang.Driver

namespace Blang.Props
open Blang.Driver

/-- C76, success. When compilation reports success, every input is of an accepted kind and was served - a source was read
to its end, accepted and its IR written completely; outside the IR mode it or the input was given to a clang that
succeeded - and nothing on the way failed. -/
theorem C76_success {env : Env} {args : Options} {w w' : World} (h : compile env args w = (.ok (), w')) :
    (∀ i ∈ args.inputFiles, ExtIn i (accepts args.outputType) ∧ Served env args w w' i) ∧ Smooth env w w' := by
  obtain ⟨h1, h2, _⟩ := (compile_honest h).1 rfl
  exact ⟨fun i hi => ⟨(accepts_iff _ _).2 (h1 i hi).1, (h1 i hi).2⟩, h2⟩

/-- C76, failure. When compilation reports an error, something did fail, everything before it had succeeded, and
afterwards nothing but temporary files was touched. -/
theorem C76_failure {env : Env} {args : Options} {w w' : World} (h : compile env args w = (.error, w')) : Failed env args w w' :=
  ((compile_honest h).2 rfl).elim fun c ⟨_, q, _⟩ => ⟨c, q⟩

theorem main_cases (env : Env) (sys : Sys) (f : Flags) (w : World) (hh : f.showHelp = false) (hv : f.showVersion = false) :
    (Driver.main env sys f w = (1, w) ∧ (f.nargs = 1 ∨ f.files = [] ∨ (∀ d ∈ ['0', '1', '2', '3'], f.optimize ≠ [d]) ∨
      ∃ p ∈ f.files, ¬ ExtIn p (accepts .executable) ∨ sys.stat p = none)) ∨
    ∃ level, f.files ≠ [] ∧ Driver.main env sys f w =
      ((match (compile env (optionsOf sys f level) w).1 with | .ok _ => 0 | .error => 1 | .panic => 2), (compile env (optionsOf sys f level) w).2) := by
  unfold Driver.main
  simp only [hh, hv, Bool.false_eq_true, if_false]
  split
  · exact .inl ⟨rfl, .inl ‹_›⟩
  split
  · exact .inl ⟨rfl, .inr (.inl ‹_›)⟩
  rename_i hf
  split
  · rename_i hl
    refine .inl ⟨rfl, .inr (.inr (.inl fun d hd e => ?_))⟩
    rw [e] at hl
    simp only [List.mem_cons, List.not_mem_nil, or_false] at hd
    rcases hd with rfl | rfl | rfl | rfl <;> simp [optLevelOf] at hl
  rename_i level hl
  split
  · rename_i ha
    refine .inl ⟨rfl, .inr (.inr (.inr ?_))⟩
    obtain ⟨p, hp, h⟩ := List.any_eq_true.1 ha
    refine ⟨p, hp, ?_⟩
    rw [accepts_iff]
    rcases Bool.or_eq_true_iff.1 h with h | h
    · left
      simpa [allowedExt, accepts, and_assoc] using h
    · right
      simpa using h
  refine .inr ⟨level, hf, ?_⟩
  split <;> rename_i e <;> rw [e]

/-- C76, the program. Asked neither for help nor for its version, `blang` exits with status 0 only if there is at least one
input, all of them were served and nothing failed; with status 1 only if the request was refused before anything was done
or something failed. -/
theorem C76_main (env : Env) (sys : Sys) (f : Flags) (w : World) (hh : f.showHelp = false) (hv : f.showVersion = false)
    {status : Nat} {w' : World} (h : Driver.main env sys f w = (status, w')) :
    ∃ args : Options, args.inputFiles = f.files ∧ args.outputFile = f.output ∧
      args.outputType = (if f.assemblyOnly then .assembly else if f.compileOnly then .object else if f.emitLLVM then .ir else .executable) ∧
      (status = 0 → f.files ≠ [] ∧ (∀ i ∈ f.files, ExtIn i (accepts args.outputType) ∧ Served env args w w' i) ∧ Smooth env w w') ∧
      (status = 1 → Failed env args w w' ∨ (w' = w ∧ (f.nargs = 1 ∨ f.files = [] ∨ (∀ d ∈ ['0', '1', '2', '3'], f.optimize ≠ [d]) ∨
        ∃ p ∈ f.files, ¬ ExtIn p (accepts .executable) ∨ sys.stat p = none))) := by
  rcases main_cases env sys f w hh hv with ⟨e, why⟩ | ⟨level, hf, e⟩
  · rw [e] at h
    cases h
    exact ⟨optionsOf sys f 0, rfl, rfl, rfl, fun e => (by cases e), fun _ => .inr ⟨rfl, why⟩⟩
  · refine ⟨optionsOf sys f level, rfl, rfl, rfl, ?_⟩
    obtain ⟨r, u, hc⟩ : ∃ r u, compile env (optionsOf sys f level) w = (r, u) := ⟨_, _, rfl⟩
    rw [hc] at e
    rw [e] at h
    cases r with
    | ok a => cases h; exact ⟨fun _ => ⟨hf, C76_success hc⟩, fun e => (by cases e)⟩
    | error => cases h; exact ⟨fun e => (by cases e), fun _ => .inl (C76_failure hc)⟩
    | panic => cases h; exact ⟨fun e => (by cases e), fun e => (by cases e)⟩

/-- Two sources linked: success. -/
example : (compile calm (opts .executable "x" ["a.b", "d/b.b", "c.o"] false) ⟨someFiles ["a.b", "d/b.b"], []⟩).1 matches .ok () := by
  decide +kernel

/-- A second source that is rejected after the first was translated, and a disk that is full: errors. -/
example : (compile calm (opts .executable "x" ["a.b", "bad.b"] false) ⟨someFiles ["a.b"], []⟩).1 matches .error := by
  decide +kernel

example : (compile { calm with writeErr := fun _ _ => some 0 } (opts .assembly "x.s" ["a.b"] false) ⟨someFiles ["a.b"], []⟩).1 matches .error := by
  decide +kernel

/-! ### C36, exactly -/

/-- C36, exactly. Without `--save-temps`, when `Compile` returns in the assembly, object and executable modes: after success
no file that it created is left. After an error there was a first failure; if a file could not be written or closed, this
file is left; if the failure is an input of the wrong kind, all files created so far are left; otherwise none is.
(`leftover`: created and not asked to be removed since.) -/
theorem C36_exact {env : Env} {args : Options} {w w' : World} {r : Res Unit} (hir : args.outputType ≠ .ir)
    (hs : args.saveTemps = false) (h : compile env args w = (r, w')) :
    ∃ es, w'.events = w.events ++ es ∧ (r = .ok () → leftover es = []) ∧
      (r = .error → ∃ c, FailedBy env args c w w' ∧
        leftover es = match c with | .file p => [p] | .kind => created es | _ => []) := by
  obtain ⟨h1, h2⟩ := compile_honest h
  cases r with
  | ok a =>
    obtain ⟨_, _, es, h3, h4⟩ := h1 rfl
    exact ⟨es, h3, fun _ => h4 hs hir, fun e => (by cases e)⟩
  | error =>
    obtain ⟨c, es, h3, h4, h5⟩ := h2 rfl
    refine ⟨es, h4, fun e => (by cases e), fun _ => ⟨c, h3, ?_⟩⟩
    rw [h5 hs hir]
    cases c <;> rfl
  | panic =>
    obtain ⟨es, h3, _⟩ := C70_permitted h
    exact ⟨es, h3, fun e => (by cases e), fun e => (by cases e)⟩

/-- The three cases: a full disk, an input of the wrong kind behind a source, and a source that is rejected behind another. -/
example : leftover (compile { calm with writeErr := fun _ _ => some 0 } (opts .assembly "x.s" ["a.b"] false) ⟨someFiles ["a.b"], []⟩).2.events =
      ["x.s.tmp.ll".toList] ∧
    leftover (compile calm (opts .executable "x" ["a.b", "b.txt"] false) ⟨someFiles ["a.b"], []⟩).2.events = ["a.tmp.0.ll".toList] ∧
    leftover (compile calm (opts .executable "x" ["a.b", "bad.b"] false) ⟨someFiles ["a.b"], []⟩).2.events = [] ∧
    created (compile calm (opts .executable "x" ["a.b", "bad.b"] false) ⟨someFiles ["a.b"], []⟩).2.events = ["a.tmp.0.ll".toList] := by
  decide +kernel

/-! ### C42, the library in executable mode -/

/-- C42, what `Compile` does in executable mode with an input of the wrong kind: it does not succeed, `clang` is not run, and no
file but temporaries, which are `.ll` files, is different afterwards. -/
theorem C42_link {env : Env} {args : Options} {w w' : World} {r : Res Unit} {i : Path}
    (hm : args.outputType = .executable) (hi : i ∈ args.inputFiles) (hx : ¬ ExtIn i (accepts .executable))
    (h : compile env args w = (r, w')) :
    r ≠ .ok () ∧ ∃ es, w'.events = w.events ++ es ∧ runs es = [] ∧ ∀ p, ¬ ExtIn p [".ll".toList] → w'.fs p = w.fs p := by
  have hne : args.inputFiles ≠ [] := fun e => by rw [e] at hi; cases hi
  have ho : compile env args = exeMain env (named args) := by
    unfold compile; rw [hm]; exact compileToExecutable_eq env args hne
  have hx' := hx
  rw [accepts_iff] at hx'
  rw [ho] at h
  rcases exeMain_cases env (named args) w with ⟨w1, fs, h1, _, _, h4, _⟩ | ⟨r', w1, h1, hr, es, e1, e2, _, e4, _⟩
  · rw [named_inputs] at h4
    exact absurd (h4 i hi) hx'
  · rw [h] at h1
    cases h1
    refine ⟨hr (), es, e1, e2, fun p hp => e4 p fun ht => hp ?_⟩
    obtain ⟨k, j, _, _, e⟩ := mem_tempsOf ht
    refine ⟨_, List.mem_singleton.2 rfl, ?_⟩
    have he : ∃ r, ".ll".toList = '.' :: r ∧ '.' ∉ r ∧ '/' ∉ r := ⟨"ll".toList, rfl, by decide, by decide⟩
    obtain ⟨stem, hs⟩ := (ext_iff he).1 (ext_exeTemp (named args) (0 + k) j)
    exact ⟨stem, by rw [e]; exact hs, he⟩

example : (compile calm (opts .executable "x" ["a.b", "b.txt"] false) ⟨someFiles ["a.b"], []⟩).1 matches .error := by
  decide +kernel

end Blang.Props
