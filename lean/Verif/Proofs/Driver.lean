import Verif.Spec.Driver
import Verif.Proofs.SymNames
import Verif.Props.Comments
/-
Facts about the driver model.
-/
namespace Blang.Driver

section
variable {α β : Type}

theorem bind_ok {x : D α} {f : α → D β} {w w' : World} {a : α} (h : x w = (.ok a, w')) : (x >>= f) w = f a w' := by
  show (match x w with | (.ok a, w') => f a w' | (.error, w') => (.error, w') | (.panic, w') => (.panic, w')) = _
  rw [h]
theorem bind_error {x : D α} {f : α → D β} {w w' : World} (h : x w = (.error, w')) : (x >>= f) w = (.error, w') := by
  show (match x w with | (.ok a, w') => f a w' | (.error, w') => (.error, w') | (.panic, w') => (.panic, w')) = _
  rw [h]
theorem bind_panic {x : D α} {f : α → D β} {w w' : World} (h : x w = (.panic, w')) : (x >>= f) w = (.panic, w') := by
  show (match x w with | (.ok a, w') => f a w' | (.error, w') => (.error, w') | (.panic, w') => (.panic, w')) = _
  rw [h]
theorem pure_run (a : α) (w : World) : (pure a : D α) w = (.ok a, w) := rfl
end

theorem World.ext' {w : World} {f : FS} {e : List Event} (h1 : w.fs = f) (h2 : w.events = e) : w = ⟨f, e⟩ := by
  cases w; simp_all

theorem set_set (fs : FS) (p : Path) (a b : Option Content) : (fs.set p a).set p b = fs.set p b := by
  funext q; unfold FS.set; split <;> rfl

/-! ### one file through the front end -/

/-- the world after the IR was (partly) written -/
def written (w : World) (o : Path) (c : Content) : World := ⟨w.fs.set o (some c), w.events ++ [.create o, .write o]⟩

/-- All outcomes of compiling one file to IR. -/
theorem compileSingleTo_cases (env : Env) (i o : Path) (w : World) :
    (∃ text, Translates env w i text ∧ compileSingleTo env i o w = (.ok (), written w o text))
    ∨ (∃ text, Translates env w i text ∧ ∃ c, ((∃ w1, env.writeErr w1 o ≠ none) ∨ (∃ w1, env.closeOk w1 o = false)) ∧
        compileSingleTo env i o w = (.error, written w o c))
    ∨ compileSingleTo env i o w = (.error, w)
    ∨ ((∃ m, env.print m = none) ∧ compileSingleTo env i o w = (.panic, ⟨w.fs.set o (some []), w.events ++ [.create o]⟩)) := by
  unfold compileSingleTo
  cases hf : w.fs i with
  | none =>
    right; right; left
    have : openRead env i w = (.error, w) := by unfold openRead; rw [hf]
    exact bind_error this
  | some c =>
  cases ho : env.openOk w i with
  | false =>
    right; right; left
    have : openRead env i w = (.error, w) := by unfold openRead; rw [hf]; simp [ho]
    exact bind_error this
  | true =>
  cases hr : env.readErr w i with
  | some k =>
    have e : openRead env i w = (.ok (c.take k, .io), w) := by unfold openRead; rw [hf]; simp [ho, hr]
    rw [bind_ok e]
    dsimp only
    obtain ⟨er, he⟩ := Props.C09_read_error (c.take k)
    rw [he]
    exact .inr (.inr (.inl rfl))
  | none =>
    have e : openRead env i w = (.ok (c, .eof), w) := by unfold openRead; rw [hf]; simp [ho, hr]
    rw [bind_ok e]
    dsimp only
    cases hm : compileFile c .eof with
    | error er => exact .inr (.inr (.inl rfl))
    | ok m =>
      dsimp only
      cases hc : env.createOk w o with
      | false =>
        have : create env o w = (.error, w) := by unfold create; simp [hc]
        rw [bind_error this]
        exact .inr (.inr (.inl rfl))
      | true =>
        have : create env o w = (.ok (), ⟨w.fs.set o (some []), w.events ++ [.create o]⟩) := by unfold create; simp [hc]
        rw [bind_ok this]
        cases hp : env.print m with
        | none => exact .inr (.inr (.inr ⟨⟨m, hp⟩, rfl⟩))
        | some text =>
          dsimp only
          have tr : Translates env w i text := ⟨c, m, hf, ho, hr, hm, hp⟩
          generalize hw1 : (⟨w.fs.set o (some []), w.events ++ [.create o]⟩ : World) = w1
          cases hwr : env.writeErr w1 o with
          | some k =>
            have : writeString env o text w1 = (.error, written w o (text.take k)) := by
              unfold writeString; rw [hwr]; subst hw1; simp [written, set_set]
            rw [bind_error this]
            exact .inr (.inl ⟨text, tr, _, .inl ⟨w1, by simp [hwr]⟩, rfl⟩)
          | none =>
            have : writeString env o text w1 = (.ok (), written w o text) := by
              unfold writeString; rw [hwr]; subst hw1; simp [written, set_set]
            rw [bind_ok this]
            unfold close
            cases hcl : env.closeOk (written w o text) o with
            | true => exact .inl ⟨text, tr, rfl⟩
            | false => exact .inr (.inl ⟨text, tr, _, .inr ⟨_, hcl⟩, rfl⟩)

theorem compileSingleTo_feFails {env : Env} {i : Path} {w : World} (h : FrontEndFails env w i) (o : Path) :
    compileSingleTo env i o w = (.error, w) := by
  obtain ⟨c, hf, ho, h⟩ := h
  unfold compileSingleTo
  rcases h with ⟨hr, e, he⟩ | ⟨k, hr, e, he⟩
  · have e : openRead env i w = (.ok (c, .eof), w) := by unfold openRead; rw [hf]; simp [ho, hr]
    rw [bind_ok e]; dsimp only; rw [he]; rfl
  · have e : openRead env i w = (.ok (c.take k, .io), w) := by unfold openRead; rw [hf]; simp [ho, hr]
    rw [bind_ok e]; dsimp only; rw [he]; rfl

/-! ### extensions -/

theorem suffix_b_iff (p : Path) : hasSuffix p ['.', 'b'] = true ↔ ext p = ".b".toList := by
  unfold hasSuffix ext
  generalize p.reverse = r
  show List.isPrefixOf ['b', '.'] r = true ↔ _
  have e : ".b".toList = ['.', 'b'] := rfl
  rw [e]
  have len : ∀ r acc, extRev r acc = ['.', 'b'] → (acc = [] ∧ ['b', '.'] <+: r) ∨ (acc = ['b'] ∧ ['.'] <+: r) := by
    intro r
    induction r with
    | nil => intro acc h; cases h
    | cons c r ih =>
      intro acc h
      unfold extRev at h
      split at h
      · cases h
      · split at h
        · rename_i hc; subst hc
          simp at h; subst h
          exact .inr ⟨rfl, by simp⟩
        · rcases ih _ h with ⟨h1, _⟩ | ⟨h1, h2⟩
          · cases h1
          · simp at h1; obtain ⟨rfl, rfl⟩ := h1
            exact .inl ⟨rfl, by obtain ⟨t, ht⟩ := h2; exact ⟨t, by simp [← ht]⟩⟩
  constructor
  · intro h
    obtain ⟨t, rfl⟩ := List.isPrefixOf_iff_prefix.1 h
    simp [extRev]
  · intro h
    rcases len _ _ h with ⟨_, h⟩ | ⟨h, _⟩
    · exact List.isPrefixOf_iff_prefix.2 h
    · cases h

/-- the extension as the user sees it -/
theorem ext_iff {p e : Path} (he : ∃ r, e = '.' :: r ∧ '.' ∉ r ∧ '/' ∉ r) : ext p = e ↔ ∃ stem, p = stem ++ e := by
  obtain ⟨r, rfl, h1, h2⟩ := he
  have fwd : ∀ (q acc : List Char), '.' ∉ acc → ∀ x, extRev q acc = '.' :: x → '.' ∉ x ∧ ∃ s, q.reverse ++ acc = s ++ '.' :: x := by
    intro q
    induction q with
    | nil => intro acc _ x h; cases h
    | cons c q ih =>
      intro acc ha x h
      unfold extRev at h
      split at h
      · cases h
      · split at h
        · rename_i hc; subst hc
          simp at h; subst h
          exact ⟨ha, q.reverse, by simp⟩
        · rename_i hne
          obtain ⟨a, s, b⟩ := ih (c :: acc) (by simp; exact ⟨fun e => hne e.symm, ha⟩) x h
          exact ⟨a, s, by simpa using b⟩
  have bwd : ∀ (y q acc : List Char), '.' ∉ y → '/' ∉ y → extRev (y ++ '.' :: q) acc = '.' :: (y.reverse ++ acc) := by
    intro y
    induction y with
    | nil => intro q acc _ _; simp [extRev]
    | cons c y ih =>
      intro q acc hd hs
      simp only [List.mem_cons, not_or] at hd hs
      simp only [List.cons_append, extRev]
      rw [if_neg (fun e => hs.1 e.symm), if_neg (fun e => hd.1 e.symm), ih _ _ hd.2 hs.2]
      simp
  unfold ext
  constructor
  · intro h
    obtain ⟨_, s, hs⟩ := fwd _ _ (by simp) _ h
    exact ⟨s, by simpa using hs⟩
  · rintro ⟨stem, rfl⟩
    have := bwd r.reverse stem.reverse [] (by simpa using h1) (by simpa using h2)
    simpa using this

theorem extIn_iff {p : Path} {es : List Path} (hes : ∀ e ∈ es, ∃ r, e = '.' :: r ∧ '.' ∉ r ∧ '/' ∉ r) :
    ExtIn p es ↔ ext p ∈ es := by
  constructor
  · rintro ⟨e, he, stem, h1, _⟩
    rw [(ext_iff (hes e he)).2 ⟨stem, h1⟩]; exact he
  · intro h
    obtain ⟨stem, hs⟩ := (ext_iff (hes _ h)).1 rfl
    exact ⟨_, h, stem, hs, hes _ h⟩

theorem accepts_ext (o : OutputType) : ∀ e ∈ accepts o, ∃ r, e = '.' :: r ∧ '.' ∉ r ∧ '/' ∉ r := by
  intro e he
  have : ∀ e ∈ accepts .executable, ∃ r, e = '.' :: r ∧ '.' ∉ r ∧ '/' ∉ r := by
    intro e he
    simp only [accepts, List.mem_cons, List.not_mem_nil, or_false] at he
    rcases he with rfl | rfl | rfl | rfl | rfl
    · exact ⟨"b".toList, rfl, by decide, by decide⟩
    · exact ⟨"ll".toList, rfl, by decide, by decide⟩
    · exact ⟨"s".toList, rfl, by decide, by decide⟩
    · exact ⟨"o".toList, rfl, by decide, by decide⟩
    · exact ⟨"a".toList, rfl, by decide, by decide⟩
  have sub : ∀ e ∈ accepts o, e ∈ accepts .executable := by cases o <;> decide
  exact this e (sub e he)

theorem accepts_iff (o : OutputType) (p : Path) : ExtIn p (accepts o) ↔ ext p ∈ accepts o := extIn_iff (accepts_ext o)


/-! ### default output names -/

theorem takeWhile_app {α : Type} {f : α → Bool} {a b : List α} (h : ∀ x ∈ a, f x = true) (hb : ∀ x ∈ b.head?, f x = false) :
    (a ++ b).takeWhile f = a := by
  induction a with
  | nil => cases b with
    | nil => rfl
    | cons x b => simp [hb x (by simp)]
  | cons x a ih => simp [h x (by simp), ih fun y hy => h y (by simp [hy])]

theorem base_of {p name : Path} (h : LastComponent p name) (hn : name ≠ []) : base p = name := by
  obtain ⟨h1, h2⟩ := h
  have hp : ∃ q, p.reverse = name.reverse ++ q ∧ ∀ x ∈ q.head?, x = '/' := by
    rcases h2 with rfl | ⟨dir, rfl⟩
    · exact ⟨[], by simp⟩
    · exact ⟨'/' :: dir.reverse, by simp⟩
  obtain ⟨q, hq, hq2⟩ := hp
  have hpn : p ≠ [] := by
    rcases h2 with rfl | ⟨dir, rfl⟩
    · exact hn
    · simp
  have hd : p.reverse.dropWhile (· = '/') = p.reverse := by
    rw [hq]
    have : ∃ c r, name.reverse = c :: r ∧ c ≠ '/' := by
      cases hr : name.reverse with
      | nil => simp at hr; exact absurd hr hn
      | cons c r => exact ⟨c, r, rfl, fun e => h1 (by rw [← List.mem_reverse, hr, e]; simp)⟩
    obtain ⟨c, r, hr, hc⟩ := this
    rw [hr]; simp [hc]
  unfold base
  rw [if_neg hpn, hd, hq]
  have ht : (name.reverse ++ q).takeWhile (· ≠ '/') = name.reverse := by
    refine takeWhile_app ?_ ?_
    · intro x hx
      simp only [List.mem_reverse] at hx
      simp; rintro rfl; exact h1 hx
    · intro x hx
      simp [hq2 x hx]
  simp only [ht]
  rw [if_neg (by simpa using hn)]
  simp

theorem hasSuffix_append (a b : Path) : hasSuffix (a ++ b) b = true := by
  unfold hasSuffix
  rw [List.isPrefixOf_iff_prefix, List.reverse_append]
  exact ⟨_, rfl⟩

theorem trimSuffix_append (a b : Path) : trimSuffix (a ++ b) b = a := by
  unfold trimSuffix
  rw [hasSuffix_append]
  simp

theorem defaultOut_of {p stem e e' : Path} (h : LastComponent p (stem ++ e)) (he : HasExt (stem ++ e) stem e) :
    defaultOut p e' = stem ++ e' := by
  obtain ⟨_, he⟩ := he
  have hn : stem ++ e ≠ [] := by obtain ⟨r, rfl, _⟩ := he; simp
  have hx : ext (stem ++ e) = e := (ext_iff he).2 ⟨stem, rfl⟩
  unfold defaultOut
  rw [base_of h hn, hx, trimSuffix_append]

/-! ### the three modes with one output per input -/

/-- what one input of an IR, assembly or object compilation goes through -/
def process (env : Env) (args : Options) (i o : Path) : D Unit :=
  match args.outputType with
  | .ir => compileSingleTo env i o
  | .assembly => processOne env args ['-', 'S'] i o
  | .object => processOne env args ['-', 'c'] i o
  | .executable => fail

theorem compile_dispatch (env : Env) (args : Options) (hm : args.outputType ≠ .executable) :
    compile env args = if args.inputFiles.all (fun i => ext i ∈ accepts args.outputType) then
      dispatch args (process env args) (outExt args.outputType) else fail := by
  have key : ∀ (l : List Path) (f g : Path → Bool), (∀ i, f i = !g i) → l.any f = !l.all g := by
    intro l f g h
    induction l with
    | nil => rfl
    | cons a l ih => simp [h, ih, Bool.not_and]
  have swap : ∀ (b : Bool) (x y : D Unit), (if (!b) = true then x else y) = if b = true then y else x := by
    intro b x y; cases b <;> rfl
  unfold compile process
  cases ht : args.outputType with
  | executable => exact absurd ht hm
  | ir =>
    dsimp only [compileToIR]
    rw [key _ _ (fun i => ext i ∈ accepts .ir), swap]; rfl
    intro i
    have := suffix_b_iff i
    simp only [accepts, List.mem_singleton]
    cases h : hasSuffix i ['.', 'b'] with
    | true => simp [this.1 h]
    | false =>
      have hne : ext i ≠ ".b".toList := fun e => by rw [this.2 e] at h; cases h
      simp only [hne, decide_false]
  | assembly =>
    dsimp only [compileToAssembly]
    rw [key _ _ (fun i => ext i ∈ accepts .assembly), swap]; rfl
    intro i
    simp [accepts]
  | object =>
    dsimp only [compileToObject]
    rw [key _ _ (fun i => ext i ∈ accepts .object), swap]; rfl
    intro i
    simp [accepts]

theorem forEach_cons (p : Path → Path → D Unit) (e i : Path) (is : List Path) (w : World) :
    forEach p e (i :: is) w = match p i (defaultOut i e) w with
      | (.ok (), w') => forEach p e is w'
      | (.error, w') => (.error, w')
      | (.panic, w') => (.panic, w') := by
  show (p i (defaultOut i e) >>= fun _ => forEach p e is) w = _
  obtain ⟨r, w', h⟩ : ∃ r w', p i (defaultOut i e) w = (r, w') := ⟨_, _, rfl⟩
  rw [h]
  cases r with
  | ok a => exact bind_ok h
  | error => exact bind_error h
  | panic => exact bind_panic h

/-! ### assembly and object files -/

/-- the flag of the mode -/
def modeFlag : OutputType → List Char
  | .assembly => ['-', 'S']
  | _ => ['-', 'c']

theorem compileToIR_one (env : Env) (args : Options) {i tmp : Path} (hi : ext i = ".b".toList) (ht : tmp ≠ []) :
    compileToIR env (irArgs args i tmp) = compileSingleTo env i tmp := by
  have := (suffix_b_iff i).2 hi
  simp [compileToIR, irArgs, dispatch, this, ht]

theorem cleanup_save {env : Env} {args : Options} (h : args.saveTemps = true) (ts : List Path) (w : World) :
    cleanup env args ts w = (.ok (), w) := by
  unfold cleanup; rw [if_pos h]; rfl

theorem cleanup_go {env : Env} (ts : List Path) (w : World) :
    ∃ fs, cleanup.go env ts w = (.ok (), ⟨fs, w.events ++ ts.map .remove⟩) ∧
      (∀ p, p ∉ ts → fs p = w.fs p) ∧ ((∀ w p, env.removeOk w p = true) → ∀ p ∈ ts, fs p = none) := by
  induction ts generalizing w with
  | nil => exact ⟨w.fs, by simp [cleanup.go, pure_run], fun _ _ => rfl, by simp⟩
  | cons t ts ih =>
    unfold cleanup.go
    rw [bind_ok (show remove env t w = (.ok (), _) from rfl)]
    obtain ⟨fs, h1, h2, h3⟩ := ih ⟨if env.removeOk w t then w.fs.set t none else w.fs, w.events ++ [.remove t]⟩
    refine ⟨fs, by rw [h1]; simp, ?_, ?_⟩
    · intro p hp
      simp only [List.mem_cons, not_or] at hp
      rw [h2 p hp.2]
      dsimp only
      split
      · unfold FS.set; rw [if_neg hp.1]
      · rfl
    · intro hr p hp
      by_cases hpt : p ∈ ts
      · exact h3 hr p hpt
      · rw [h2 p hpt]
        simp only [List.mem_cons, hpt, or_false] at hp
        subst hp
        simp [hr, FS.set]

theorem cleanup_run {env : Env} {args : Options} (ts : List Path) (w : World) :
    ∃ fs, cleanup env args ts w = (.ok (), ⟨fs, w.events ++ if args.saveTemps then [] else ts.map .remove⟩) ∧
      (∀ p, p ∉ ts → fs p = w.fs p) ∧
      (args.saveTemps = true → fs = w.fs) ∧
      (args.saveTemps = false → (∀ w p, env.removeOk w p = true) → ∀ p ∈ ts, fs p = none) := by
  cases hs : args.saveTemps with
  | true => exact ⟨w.fs, by rw [cleanup_save hs]; simp, fun _ _ => rfl, fun _ => rfl, by simp⟩
  | false =>
    obtain ⟨fs, h1, h2, h3⟩ := cleanup_go (env := env) ts w
    refine ⟨fs, ?_, h2, by simp, fun _ => h3⟩
    unfold cleanup; rw [if_neg (by simp [hs])]
    simpa using h1


/-- All outcomes for one input of the assembly and object modes. -/
theorem processOne_cases (env : Env) (args : Options) (flag : List Char) (i o : Path) (w : World) :
    (ext i ≠ ".b".toList ∧
      processOne env args flag i o w =
        (if (env.clang w (buildClangArgs args flag i o)).2 then .ok () else .error,
         ⟨(env.clang w (buildClangArgs args flag i o)).1, w.events ++ [.run (buildClangArgs args flag i o)]⟩))
    ∨ (ext i = ".b".toList ∧ ∃ text fs, Translates env w i text ∧
        let tmp := o ++ tmpSuffix
        let r := env.clang (written w tmp text) (buildClangArgs args flag tmp o)
        processOne env args flag i o w = (if r.2 then .ok () else .error,
          ⟨fs, w.events ++ [.create tmp, .write tmp, .run (buildClangArgs args flag tmp o)] ++
            if args.saveTemps then [] else [.remove tmp]⟩) ∧
        (∀ p, p ≠ tmp → fs p = r.1 p) ∧ (args.saveTemps = true → fs = r.1) ∧
        (args.saveTemps = false → (∀ w p, env.removeOk w p = true) → fs tmp = none))
    ∨ (ext i = ".b".toList ∧ ∃ text c, Translates env w i text ∧
        ((∃ w1, env.writeErr w1 (o ++ tmpSuffix) ≠ none) ∨ (∃ w1, env.closeOk w1 (o ++ tmpSuffix) = false)) ∧
        processOne env args flag i o w = (.error, written w (o ++ tmpSuffix) c))
    ∨ (ext i = ".b".toList ∧ processOne env args flag i o w = (.error, w))
    ∨ (ext i = ".b".toList ∧ (∃ m, env.print m = none) ∧
        processOne env args flag i o w =
          (.panic, ⟨w.fs.set (o ++ tmpSuffix) (some []), w.events ++ [.create (o ++ tmpSuffix)]⟩)) := by
  have hne : o ++ tmpSuffix ≠ [] := by simp [tmpSuffix]
  have clangRun : ∀ (inp : Path) (ts : List Path) (w : World), ∃ fs,
      clangOne env args flag inp o ts w = (if (env.clang w (buildClangArgs args flag inp o)).2 then .ok () else .error,
        ⟨fs, w.events ++ [.run (buildClangArgs args flag inp o)] ++ if args.saveTemps then [] else ts.map .remove⟩) ∧
      (∀ p, p ∉ ts → fs p = (env.clang w (buildClangArgs args flag inp o)).1 p) ∧
      (args.saveTemps = true → fs = (env.clang w (buildClangArgs args flag inp o)).1) ∧
      (args.saveTemps = false → (∀ w p, env.removeOk w p = true) → ∀ p ∈ ts, fs p = none) := by
    intro inp ts w
    unfold clangOne
    rw [bind_ok (show runClang env _ w = (.ok _, _) from rfl)]
    obtain ⟨fs, h1, h2, h3, h4⟩ := cleanup_run (env := env) (args := args) ts
      ⟨(env.clang w (buildClangArgs args flag inp o)).1, w.events ++ [.run (buildClangArgs args flag inp o)]⟩
    refine ⟨fs, ?_, h2, h3, h4⟩
    rw [bind_ok h1]
    cases (env.clang w (buildClangArgs args flag inp o)).2 <;> rfl
  unfold processOne
  by_cases hb : ext i = ".b".toList
  · right
    rw [if_pos ((suffix_b_iff i).2 hb)]
    dsimp only
    rw [compileToIR_one env args hb hne]
    rcases compileSingleTo_cases env i (o ++ tmpSuffix) w with ⟨text, tr, h⟩ | ⟨text, tr, c, hc, h⟩ | h | ⟨hp, h⟩
    · left
      rw [bind_ok h]
      obtain ⟨fs, h1, h2, h3, h4⟩ := clangRun (o ++ tmpSuffix) [o ++ tmpSuffix] (written w (o ++ tmpSuffix) text)
      refine ⟨hb, text, fs, tr, ?_, fun p hp => h2 p (by simpa using hp), h3, fun a b => h4 a b _ (by simp)⟩
      rw [h1]; simp [written]
    · right; left
      exact ⟨hb, text, c, tr, hc, bind_error h⟩
    · right; right; left
      exact ⟨hb, bind_error h⟩
    · right; right; right
      exact ⟨hb, hp, bind_panic h⟩
  · left
    rw [if_neg (fun e => hb ((suffix_b_iff i).1 e))]
    obtain ⟨fs, h1, h2, h3, h4⟩ := clangRun i [] w
    refine ⟨hb, ?_⟩
    have : fs = (env.clang w (buildClangArgs args flag i o)).1 := funext fun p => h2 p (by simp)
    subst this
    rw [h1]; simp

theorem processOne_feFails {env : Env} {args : Options} {flag : List Char} {i : Path} {w : World}
    (hb : ext i = ".b".toList) (h : FrontEndFails env w i) (o : Path) : processOne env args flag i o w = (.error, w) := by
  unfold processOne
  rw [if_pos ((suffix_b_iff i).2 hb)]
  rw [compileToIR_one env args hb (by simp [tmpSuffix])]
  exact bind_error (compileSingleTo_feFails h _)

theorem process_feFails {env : Env} {args : Options} {i : Path} {w : World} (hm : args.outputType ≠ .executable)
    (hb : ext i = ".b".toList) (h : FrontEndFails env w i) (o : Path) : process env args i o w = (.error, w) := by
  unfold process
  cases ht : args.outputType with
  | executable => exact absurd ht hm
  | ir => exact compileSingleTo_feFails h o
  | assembly => exact processOne_feFails hb h o
  | object => exact processOne_feFails hb h o

/-! ### executables -/

theorem exeTemp_ne (args : Options) (i : Nat) (inp : Path) : exeTemp args i inp ≠ [] := by
  unfold exeTemp; split <;> simp [tmpSuffix]

/-- the temporaries of an executable compilation, for the inputs from number `i` on -/
def tempsOf (args : Options) : Nat → List Path → List Path
  | _, [] => []
  | i, inp :: rest =>
    if ext inp = ".b".toList then exeTemp args i inp :: tempsOf args (i + 1) rest else tempsOf args (i + 1) rest

/-- the inputs for the linker -/
def linkInputs (args : Options) : Nat → List Path → List Path
  | _, [] => []
  | i, inp :: rest =>
    (if ext inp = ".b".toList then exeTemp args i inp else inp) :: linkInputs args (i + 1) rest


theorem Translates.irOf {env : Env} {w : World} {i : Path} {text : Content} (h : Translates env w i text) :
    IrOf env w.fs i text := by
  obtain ⟨c, m, h1, _, _, h2, h3⟩ := h; exact ⟨c, m, h1, h2, h3⟩

theorem ext_append_ll (s : Path) : ext (s ++ ".ll".toList) = ".ll".toList :=
  (ext_iff ⟨"ll".toList, rfl, by decide, by decide⟩).2 ⟨s, rfl⟩

theorem ext_exeTemp (args : Options) (i : Nat) (inp : Path) : ext (exeTemp args i inp) = ".ll".toList := by
  unfold exeTemp
  split
  · have : args.outputFile ++ tmpSuffix = (args.outputFile ++ ".tmp".toList) ++ ".ll".toList := by
      rw [List.append_assoc]; rfl
    rw [this]; exact ext_append_ll _
  · exact ext_append_ll _

theorem exeTemp_ne_b (args : Options) (i : Nat) (inp : Path) {p : Path} (hp : ext p = ".b".toList) : exeTemp args i inp ≠ p := by
  intro e
  rw [← e, ext_exeTemp] at hp
  revert hp; decide

theorem mem_tempsOf {args : Options} {i : Nat} {l : List Path} {t : Path} (h : t ∈ tempsOf args i l) :
    ∃ k inp, l[k]? = some inp ∧ ext inp = ".b".toList ∧ t = exeTemp args (i + k) inp := by
  induction l generalizing i with
  | nil => cases h
  | cons a l ih =>
    have tl : t ∈ tempsOf args (i + 1) l → ∃ k inp, (a :: l)[k]? = some inp ∧ ext inp = ".b".toList ∧ t = exeTemp args (i + k) inp := by
      intro h
      obtain ⟨k, inp, h1, h2, h3⟩ := ih h
      exact ⟨k + 1, inp, by simpa using h1, h2, by rw [h3]; congr 1; omega⟩
    unfold tempsOf at h
    split at h
    · rename_i hb
      rcases List.mem_cons.1 h with rfl | h
      · exact ⟨0, a, rfl, hb, rfl⟩
      · exact tl h
    · exact tl h

theorem tempsOf_mem {args : Options} {i : Nat} {l : List Path} {k : Nat} {inp : Path} (h : l[k]? = some inp)
    (hb : ext inp = ".b".toList) : exeTemp args (i + k) inp ∈ tempsOf args i l := by
  induction l generalizing i k with
  | nil => simp at h
  | cons a l ih =>
    unfold tempsOf
    cases k with
    | zero =>
      simp at h; subst h
      rw [if_pos hb]; simp
    | succ k =>
      have := ih (i := i + 1) (by simpa using h)
      have e : i + (k + 1) = i + 1 + k := by omega
      rw [e]
      split
      · exact List.mem_cons_of_mem _ this
      · exact this

theorem digit_ne_dot (i : Nat) : '.' ∉ natDec i := fun h => by
  have := natDec_digits h
  revert this; decide

theorem exeTemp_inj {args : Options} (hl : args.inputFiles.length ≠ 1) {i j : Nat} {a b : Path}
    (h : exeTemp args i a = exeTemp args j b) : i = j := by
  unfold exeTemp at h
  rw [if_neg (fun c => hl c.1), if_neg (fun c => hl c.1)] at h
  have h := List.append_cancel_right h
  have e : ∀ s : Path, s ++ ".tmp.".toList = (s ++ ".tmp".toList) ++ ['.'] := by intro s; rw [List.append_assoc]; rfl
  rw [e, e] at h
  generalize trimSuffix (base a) (ext a) ++ ".tmp".toList = x at h
  generalize trimSuffix (base b) (ext b) ++ ".tmp".toList = y at h
  have h2 := congrArg List.reverse h
  simp only [List.reverse_append, List.reverse_cons, List.reverse_nil, List.nil_append, List.singleton_append] at h2
  have key : ∀ (u v r s : List Char), '.' ∉ u → '.' ∉ v → u ++ '.' :: r = v ++ '.' :: s → u = v := by
    intro u
    induction u with
    | nil =>
      intro v r s _ hv h
      cases v with
      | nil => rfl
      | cons c v => simp at h hv; exact absurd h.1 hv.1
    | cons c u ih =>
      intro v r s hu hv h
      cases v with
      | nil => simp at h hu; exact absurd h.1.symm hu.1
      | cons d v =>
        simp at h hu hv
        rw [h.1, ih v r s hu.2 hv.2 h.2]
  have := key _ _ _ _ (by simpa using digit_ne_dot i) (by simpa using digit_ne_dot j) h2
  exact natDec_inj (List.reverse_inj.1 this)

theorem tempsOf_nodup_aux {args : Options} (hl : args.inputFiles.length ≠ 1) (i : Nat) (l : List Path) :
    (tempsOf args i l).Nodup := by
  induction l generalizing i with
  | nil => simp [tempsOf]
  | cons a l ih =>
    unfold tempsOf
    split
    · refine List.nodup_cons.2 ⟨fun h => ?_, ih _⟩
      obtain ⟨k, inp, _, _, e⟩ := mem_tempsOf h
      have := exeTemp_inj hl e
      omega
    · exact ih _

theorem tempsOf_nodup (args : Options) : (tempsOf args 0 args.inputFiles).Nodup := by
  by_cases hl : args.inputFiles.length = 1
  · match h : args.inputFiles, hl with
    | [a], _ => unfold tempsOf; split <;> simp [tempsOf]
  · exact tempsOf_nodup_aux hl _ _

theorem exeCompile_cases (env : Env) (args : Options) (temps : List Path) {inp : Path} (tmp : Path) (w : World)
    (hb : ext inp = ".b".toList) (ht : tmp ≠ []) :
    (∃ text, Translates env w inp text ∧ exeCompile env args temps inp tmp w = (.ok (), written w tmp text))
    ∨ (∃ w0 fs, (w0 = w ∨ (∃ c, w0 = written w tmp c) ∧
          ((∃ w1, env.writeErr w1 tmp ≠ none) ∨ (∃ w1, env.closeOk w1 tmp = false))) ∧
        exeCompile env args temps inp tmp w = (.error, ⟨fs, w0.events ++ if args.saveTemps then [] else temps.map .remove⟩) ∧
        (∀ p, p ∉ temps → fs p = w0.fs p) ∧ (args.saveTemps = true → fs = w0.fs) ∧
        (args.saveTemps = false → (∀ w p, env.removeOk w p = true) → ∀ p ∈ temps, fs p = none))
    ∨ ((∃ m, env.print m = none) ∧ exeCompile env args temps inp tmp w =
        (.panic, ⟨w.fs.set tmp (some []), w.events ++ [.create tmp]⟩)) := by
  have clean : ∀ w0 : World, ∃ fs, (cleanup env args temps >>= fun _ => (fail : D Unit)) w0 =
      (.error, ⟨fs, w0.events ++ if args.saveTemps then [] else temps.map .remove⟩) ∧
      (∀ p, p ∉ temps → fs p = w0.fs p) ∧ (args.saveTemps = true → fs = w0.fs) ∧
      (args.saveTemps = false → (∀ w p, env.removeOk w p = true) → ∀ p ∈ temps, fs p = none) := by
    intro w0
    obtain ⟨fs, h1, h2, h3, h4⟩ := cleanup_run (env := env) (args := args) temps w0
    exact ⟨fs, bind_ok h1, h2, h3, h4⟩
  unfold exeCompile
  rw [compileToIR_one env args hb ht]
  rcases compileSingleTo_cases env inp tmp w with ⟨text, tr, h⟩ | ⟨text, tr, c, hc, h⟩ | h | ⟨hp, h⟩
  · exact .inl ⟨text, tr, by rw [h]⟩
  · obtain ⟨fs, h1, h2⟩ := clean (written w tmp c)
    exact .inr (.inl ⟨_, fs, .inr ⟨⟨c, rfl⟩, hc⟩, by rw [h]; exact h1, h2⟩)
  · obtain ⟨fs, h1, h2⟩ := clean w
    exact .inr (.inl ⟨_, fs, .inl rfl, by rw [h]; exact h1, h2⟩)
  · exact .inr (.inr ⟨hp, by rw [h]⟩)

theorem written_fs_ne {w : World} {o : Path} {c : Content} {p : Path} (h : p ≠ o) : (written w o c).fs p = w.fs p := by
  simp [written, FS.set, h]
theorem written_fs_eq {w : World} {o : Path} {c : Content} : (written w o c).fs o = some c := by
  simp [written, FS.set]

/-- a successful pass over the inputs of a link -/
theorem exeLoop_ok {env : Env} {args : Options} {inps : List Path} : ∀ {i : Nat} {temps ci T C : List Path} {w w' : World},
    exeLoop env args i temps ci inps w = (.ok (T, C), w') →
    T = temps ++ tempsOf args i inps ∧ C = ci ++ linkInputs args i inps ∧
    w'.events = w.events ++ (tempsOf args i inps).flatMap (fun t => [.create t, .write t]) ∧
    (∀ p, p ∉ tempsOf args i inps → w'.fs p = w.fs p) ∧ (∀ p ∈ inps, ext p ∈ accepts .executable) ∧
    ((tempsOf args i inps).Nodup → ∀ k inp, inps[k]? = some inp → ext inp = ".b".toList →
      ∃ text, IrOf env w.fs inp text ∧ w'.fs (exeTemp args (i + k) inp) = some text) := by
  induction inps with
  | nil =>
    intro i temps ci T C w w' h
    cases h
    simp [tempsOf, linkInputs]
  | cons inp rest ih =>
    intro i temps ci T C w w' h
    unfold exeLoop at h
    split at h
    · rename_i hb
      dsimp only at h
      have nb : ∀ p, ext p = ".b".toList → p ≠ exeTemp args i inp := fun p hp e => exeTemp_ne_b args i inp hp e.symm
      rcases exeCompile_cases env args temps (exeTemp args i inp) w hb (exeTemp_ne _ _ _) with
        ⟨text, tr, h1⟩ | ⟨w0, fs, _, h1, _⟩ | ⟨_, h1⟩
      · rw [bind_ok h1] at h
        obtain ⟨e1, e2, e3, e4, e5, e6⟩ := ih h
        simp only [tempsOf, if_pos hb, linkInputs]
        refine ⟨by rw [e1]; simp, by rw [e2]; simp, by rw [e3]; simp [written], ?_, ?_, ?_⟩
        · intro p hp
          simp only [List.mem_cons, not_or] at hp
          rw [e4 p hp.2, written_fs_ne hp.1]
        · intro p hp
          rcases List.mem_cons.1 hp with rfl | hp
          · rw [hb]; simp [accepts]
          · exact e5 p hp
        · intro nd k j hk hj
          rw [List.nodup_cons] at nd
          cases k with
          | zero =>
            simp at hk; subst hk
            exact ⟨text, tr.irOf, by rw [show i + 0 = i from rfl, e4 _ nd.1, written_fs_eq]⟩
          | succ k =>
            obtain ⟨tx, ⟨c, m, t1, t2⟩, t3⟩ := e6 nd.2 k j (by simpa using hk) hj
            refine ⟨tx, ⟨c, m, ?_, t2⟩, ?_⟩
            · rwa [written_fs_ne (nb j hj)] at t1
            · rw [← t3]; congr 2; omega
      · rw [bind_error h1] at h; cases h
      · rw [bind_panic h1] at h; cases h
    · rename_i hb
      split at h
      · rename_i hx
        obtain ⟨e1, e2, e3, e4, e5, e6⟩ := ih h
        simp only [tempsOf, if_neg hb, linkInputs]
        refine ⟨e1, by rw [e2]; simp, e3, e4, ?_, ?_⟩
        · intro p hp
          rcases List.mem_cons.1 hp with rfl | hp
          · simp only [accepts, List.mem_cons, List.not_mem_nil, or_false]; exact .inr hx
          · exact e5 p hp
        · intro nd k j hk hj
          cases k with
          | zero => simp at hk; subst hk; exact absurd hj hb
          | succ k =>
            obtain ⟨tx, t1, t3⟩ := e6 nd k j (by simpa using hk) hj
            exact ⟨tx, t1, by rw [← t3]; congr 2; omega⟩
      · cases h

/-- a pass over the inputs of a link that stops early -/
theorem exeLoop_err {env : Env} {args : Options} {inps : List Path} : ∀ {i : Nat} {temps ci : List Path}
    {r : Res (List Path × List Path)} {w w' : World},
    exeLoop env args i temps ci inps w = (r, w') → (∀ a, r ≠ .ok a) →
    ∃ es, w'.events = w.events ++ es ∧ runs es = [] ∧ created es <+: tempsOf args i inps ∧
    (∀ p, p ∉ temps ++ tempsOf args i inps → w'.fs p = w.fs p) ∧
    (args.saveTemps = true → ∀ p, p ∉ tempsOf args i inps → w'.fs p = w.fs p) ∧
    (NoIoErrors env → r = .error ∧ (args.saveTemps = false → (∀ p ∈ inps, ext p ∈ accepts .executable) →
      ∀ p ∈ temps ++ created es, w'.fs p = none) ∧
      (args.saveTemps = true → (tempsOf args i inps).Nodup → ∀ k inp, inps[k]? = some inp → ext inp = ".b".toList →
        exeTemp args (i + k) inp ∈ created es → ∃ text, IrOf env w.fs inp text ∧ w'.fs (exeTemp args (i + k) inp) = some text)) := by
  induction inps with
  | nil =>
    intro i temps ci r w w' h hr
    cases h
    exact absurd rfl (hr _)
  | cons inp rest ih =>
    intro i temps ci r w w' h hr
    unfold exeLoop at h
    split at h
    · rename_i hb
      dsimp only at h
      simp only [tempsOf, if_pos hb]
      rcases exeCompile_cases env args temps (exeTemp args i inp) w hb (exeTemp_ne _ _ _) with
        ⟨text, tr, h1⟩ | ⟨w0, fs, h0, h1, h2, h3, h4⟩ | ⟨⟨m, hm⟩, h1⟩
      · rw [bind_ok h1] at h
        obtain ⟨es, e1, e2, e3, e4, e4', e5⟩ := ih h hr
        refine ⟨[.create (exeTemp args i inp), .write (exeTemp args i inp)] ++ es, by rw [e1]; simp [written], ?_, ?_, ?_, ?_, ?_⟩
        · simpa [runs] using e2
        · simp only [created, List.cons_append, List.nil_append, List.filterMap_cons]
          obtain ⟨z, hz⟩ := e3
          exact ⟨z, by rw [← hz]; rfl⟩
        · intro p hp
          simp only [List.mem_append, List.mem_cons, not_or] at hp
          rw [e4 p (by simp [hp]), written_fs_ne hp.2.1]
        · intro hs p hp
          simp only [List.mem_cons, not_or] at hp
          rw [e4' hs p hp.2, written_fs_ne hp.1]
        · intro nio
          refine ⟨(e5 nio).1, fun hs hx p hp => (e5 nio).2.1 hs (fun q hq => hx q (List.mem_cons_of_mem _ hq)) p ?_, ?_⟩
          · simp only [created, List.cons_append, List.nil_append, List.filterMap_cons] at hp
            simpa [created] using hp
          · intro hs nd k j hk hj hjc
            rw [List.nodup_cons] at nd
            cases k with
            | zero =>
              simp at hk; subst hk
              exact ⟨text, tr.irOf, by rw [show i + 0 = i from rfl, e4' hs _ nd.1, written_fs_eq]⟩
            | succ k =>
              have hk' : rest[k]? = some j := by simpa using hk
              have ei : i + (k + 1) = i + 1 + k := by omega
              rw [ei] at hjc ⊢
              have hne : exeTemp args (i + 1 + k) j ≠ exeTemp args i inp := fun e =>
                nd.1 (e ▸ tempsOf_mem hk' hj)
              have hjc' : exeTemp args (i + 1 + k) j ∈ created es := by
                simp only [created, List.cons_append, List.nil_append, List.filterMap_cons] at hjc
                exact (List.mem_cons.1 hjc).resolve_left hne
              obtain ⟨tx, ⟨c, m, t1, t2⟩, t3⟩ := (e5 nio).2.2 hs nd.2 k j hk' hj hjc'
              exact ⟨tx, ⟨c, m, by rwa [written_fs_ne (fun e => exeTemp_ne_b args i inp hj e.symm)] at t1, t2⟩, t3⟩
      · rw [bind_error h1] at h
        cases h
        have hev : ∃ es0, w0.events = w.events ++ es0 ∧ runs es0 = [] ∧ created es0 <+: [exeTemp args i inp] ∧
            (NoIoErrors env → created es0 = []) ∧ (∀ p, p ≠ exeTemp args i inp → w0.fs p = w.fs p) := by
          rcases h0 with rfl | ⟨⟨c, rfl⟩, hio⟩
          · exact ⟨[], by simp, rfl, by simp [created], fun _ => rfl, fun _ _ => rfl⟩
          · refine ⟨[.create (exeTemp args i inp), .write (exeTemp args i inp)], rfl, rfl, by simp [created], ?_, fun p hp => written_fs_ne hp⟩
            rintro ⟨n1, n2, _⟩
            rcases hio with ⟨w1, h⟩ | ⟨w1, h⟩
            · exact absurd (n1 _ _) h
            · rw [n2] at h; cases h
        obtain ⟨es0, v1, v2, v3, v4, v5⟩ := hev
        have rm : ∀ l : List Path, runs (l.map .remove) = [] ∧ created (l.map .remove) = [] := by
          intro l; induction l with
          | nil => exact ⟨rfl, rfl⟩
          | cons a l ih => simpa [runs, created] using ih
        have rm' : runs (if args.saveTemps = true then [] else temps.map .remove) = [] ∧
            created (if args.saveTemps = true then [] else temps.map .remove) = [] := by
          split
          · exact ⟨rfl, rfl⟩
          · exact rm _
        have cr : created (es0 ++ if args.saveTemps then [] else temps.map .remove) = created es0 := by
          unfold created at rm' ⊢
          rw [List.filterMap_append, rm'.2, List.append_nil]
        refine ⟨es0 ++ if args.saveTemps then [] else temps.map .remove, by simp [v1], ?_, ?_, ?_, ?_, ?_⟩
        · unfold runs at v2 rm' ⊢
          rw [List.filterMap_append, v2, rm'.1]; rfl
        · rw [cr]
          obtain ⟨z, hz⟩ := v3
          exact ⟨z ++ tempsOf args (i + 1) rest, by rw [← List.append_assoc, hz]; rfl⟩
        · intro p hp
          simp only [List.mem_append, List.mem_cons, not_or] at hp
          dsimp only
          rw [h2 p hp.1, v5 p hp.2.1]
        · intro hs p hp
          simp only [List.mem_cons, not_or] at hp
          dsimp only
          rw [h3 hs, v5 p hp.1]
        · intro nio
          refine ⟨rfl, fun hs _ p hp => ?_, fun _ _ k j _ _ hjc => ?_⟩
          · rw [cr, v4 nio, List.append_nil] at hp
            exact h4 hs nio.2.2.1 p hp
          · rw [cr, v4 nio] at hjc; cases hjc
      · rw [bind_panic h1] at h
        cases h
        refine ⟨[.create (exeTemp args i inp)], rfl, rfl, by simp [created], ?_, ?_, fun nio => absurd hm (nio.2.2.2 m)⟩
        · intro p hp
          simp only [List.mem_append, List.mem_cons, not_or] at hp
          simp [FS.set, hp.2.1]
        · intro hs p hp
          simp only [List.mem_cons, not_or] at hp
          simp [FS.set, hp.1]
    · rename_i hb
      simp only [tempsOf, if_neg hb]
      split at h
      · obtain ⟨es, e1, e2, e3, e4, e4', e5⟩ := ih h hr
        refine ⟨es, e1, e2, e3, e4, e4', fun nio => ⟨(e5 nio).1, fun hs hx => (e5 nio).2.1 hs (fun q hq => hx q (List.mem_cons_of_mem _ hq)), ?_⟩⟩
        intro hs nd k j hk hj hjc
        cases k with
        | zero => simp at hk; subst hk; exact absurd hj hb
        | succ k =>
          have ei : i + (k + 1) = i + 1 + k := by omega
          rw [ei] at hjc ⊢
          exact (e5 nio).2.2 hs nd k j (by simpa using hk) hj hjc
      · rename_i hx
        cases h
        refine ⟨[], by simp, rfl, by simp [created], fun _ _ => rfl, fun _ _ _ => rfl, fun _ => ⟨rfl, fun _ hx2 => ?_, by simp [created]⟩⟩
        have := hx2 inp (by simp)
        simp only [accepts, List.mem_cons, List.not_mem_nil, or_false] at this
        exact absurd (this.resolve_left hb) hx

/-- All outcomes of a link. -/
theorem exeMain_cases (env : Env) (args : Options) (w : World) :
    (∃ w1 fs, let T := tempsOf args 0 args.inputFiles
        let cmd := linkArgs args (linkInputs args 0 args.inputFiles)
        exeMain env args w = (if (env.clang w1 cmd).2 then .ok () else .error,
          ⟨fs, w.events ++ T.flatMap (fun t => [.create t, .write t]) ++ [.run cmd] ++
            if args.saveTemps then [] else T.map .remove⟩) ∧
        w1.events = w.events ++ T.flatMap (fun t => [.create t, .write t]) ∧
        (∀ p, p ∉ T → w1.fs p = w.fs p) ∧ (∀ p ∈ args.inputFiles, ext p ∈ accepts .executable) ∧
        (∀ k inp, args.inputFiles[k]? = some inp → ext inp = ".b".toList →
          ∃ text, IrOf env w.fs inp text ∧ w1.fs (exeTemp args k inp) = some text) ∧
        (∀ p, p ∉ T → fs p = (env.clang w1 cmd).1 p) ∧ (args.saveTemps = true → fs = (env.clang w1 cmd).1) ∧
        (args.saveTemps = false → (∀ w p, env.removeOk w p = true) → ∀ p ∈ T, fs p = none))
    ∨ (∃ r w', exeMain env args w = (r, w') ∧ (∀ a, r ≠ .ok a) ∧
        ∃ es, w'.events = w.events ++ es ∧ runs es = [] ∧ created es <+: tempsOf args 0 args.inputFiles ∧
        (∀ p, p ∉ tempsOf args 0 args.inputFiles → w'.fs p = w.fs p) ∧
        (NoIoErrors env → r = .error ∧ (args.saveTemps = false → (∀ p ∈ args.inputFiles, ext p ∈ accepts .executable) →
          ∀ p ∈ created es, w'.fs p = none) ∧
          (args.saveTemps = true → ∀ k inp, args.inputFiles[k]? = some inp → ext inp = ".b".toList →
            exeTemp args k inp ∈ created es → ∃ text, IrOf env w.fs inp text ∧ w'.fs (exeTemp args k inp) = some text))) := by
  unfold exeMain
  obtain ⟨r, w1, h⟩ : ∃ r w1, exeLoop env args 0 [] [] args.inputFiles w = (r, w1) := ⟨_, _, rfl⟩
  have err : (∀ a, r ≠ .ok a) → ∃ es, w1.events = w.events ++ es ∧ runs es = [] ∧ created es <+: tempsOf args 0 args.inputFiles ∧
        (∀ p, p ∉ tempsOf args 0 args.inputFiles → w1.fs p = w.fs p) ∧
        (NoIoErrors env → r = .error ∧ (args.saveTemps = false → (∀ p ∈ args.inputFiles, ext p ∈ accepts .executable) →
          ∀ p ∈ created es, w1.fs p = none) ∧
          (args.saveTemps = true → ∀ k inp, args.inputFiles[k]? = some inp → ext inp = ".b".toList →
            exeTemp args k inp ∈ created es → ∃ text, IrOf env w.fs inp text ∧ w1.fs (exeTemp args k inp) = some text)) := by
    intro hr
    obtain ⟨es, e1, e2, e3, e4, _, e6⟩ := exeLoop_err h hr
    exact ⟨es, e1, e2, e3, fun p hp => e4 p (by simpa using hp), fun nio => ⟨(e6 nio).1, fun hs hx p hp => (e6 nio).2.1 hs hx p (by simpa using hp),
      fun hs k inp hk hb hc => by
        have := (e6 nio).2.2 hs (tempsOf_nodup args) k inp hk hb
        rw [Nat.zero_add] at this
        exact this hc⟩⟩
  cases r with
  | ok TC =>
    obtain ⟨T, C⟩ := TC
    obtain ⟨e1, e2, e3, e4, e5, e6⟩ := exeLoop_ok h
    simp only [List.nil_append] at e1 e2
    subst e1 e2
    left
    rw [bind_ok h]
    dsimp only
    rw [bind_ok (show runClang env _ w1 = (.ok _, _) from rfl)]
    obtain ⟨fs, h1, h2, h3, h4⟩ := cleanup_run (env := env) (args := args) (tempsOf args 0 args.inputFiles)
      ⟨(env.clang w1 (linkArgs args (linkInputs args 0 args.inputFiles))).1,
        w1.events ++ [.run (linkArgs args (linkInputs args 0 args.inputFiles))]⟩
    refine ⟨w1, fs, ?_, e3, e4, e5, ?_, h2, h3, h4⟩
    · rw [bind_ok h1]
      dsimp only
      rw [e3]
      cases (env.clang w1 (linkArgs args (linkInputs args 0 args.inputFiles))).2 <;> rfl
    · intro k inp hk hb
      have := e6 (tempsOf_nodup args) k inp hk hb
      simpa using this
  | error => exact .inr ⟨.error, w1, bind_error h, by simp, by
      obtain ⟨es, e1, e2, e3, e4, e5⟩ := err (by simp)
      exact ⟨es, e1, e2, e3, e4, fun nio => ⟨rfl, (e5 nio).2⟩⟩⟩
  | panic => exact .inr ⟨.panic, w1, bind_panic h, by simp, by
      obtain ⟨es, e1, e2, e3, e4, e5⟩ := err (by simp)
      exact ⟨es, e1, e2, e3, e4, fun nio => absurd (e5 nio).1 (by simp)⟩⟩

/-- the options once the output name is known -/
def named (args : Options) : Options :=
  if args.outputFile = [] then
    match args.inputFiles with
    | [] => args
    | i :: _ => { args with outputFile := defaultOut i [] }
  else args

theorem compileToExecutable_eq (env : Env) (args : Options) (h : args.inputFiles ≠ []) :
    compileToExecutable env args = exeMain env (named args) := by
  unfold compileToExecutable named
  split
  · cases hi : args.inputFiles with
    | nil => exact absurd hi h
    | cons i is => rfl
  · rfl

theorem named_inputs (args : Options) : (named args).inputFiles = args.inputFiles := by
  unfold named
  split
  · split <;> rfl
  · rfl
theorem named_save (args : Options) : (named args).saveTemps = args.saveTemps := by
  unfold named
  split
  · split <;> rfl
  · rfl

theorem created_append (a b : List Event) : created (a ++ b) = created a ++ created b := by
  unfold created; exact List.filterMap_append
theorem runs_append (a b : List Event) : runs (a ++ b) = runs a ++ runs b := by
  unfold runs; exact List.filterMap_append
theorem created_flat (T : List Path) : created (T.flatMap fun t => [.create t, .write t]) = T := by
  induction T with
  | nil => rfl
  | cons t T ih => simp only [List.flatMap_cons, created_append, ih]; rfl
theorem runs_flat (T : List Path) : runs (T.flatMap fun t => [.create t, .write t]) = [] := by
  induction T with
  | nil => rfl
  | cons t T ih => simp only [List.flatMap_cons, runs_append, ih]; rfl
theorem created_remove (T : List Path) : created (T.map .remove) = [] := by
  induction T with
  | nil => rfl
  | cons t T ih => simpa [created] using ih
theorem runs_remove (T : List Path) : runs (T.map .remove) = [] := by
  induction T with
  | nil => rfl
  | cons t T ih => simpa [runs] using ih
theorem created_if (b : Bool) (T : List Path) : created (if b then [] else T.map .remove) = [] := by
  cases b
  · exact created_remove T
  · rfl
theorem runs_if (b : Bool) (T : List Path) : runs (if b then [] else T.map .remove) = [] := by
  cases b
  · exact runs_remove T
  · rfl

/-- What one input of the assembly and object modes does to the world. -/
theorem processOne_effect {env : Env} {args : Options} {flag : List Char} {i o : Path} {w w' : World} {r : Res Unit}
    (h : processOne env args flag i o w = (r, w')) :
    ∃ es, w'.events = w.events ++ es ∧ (created es = [] ∨ created es = [o ++ tmpSuffix]) ∧
      (ClangPolite env → ∀ p, p ≠ o → p ∉ created es → w'.fs p = w.fs p) ∧
      (NoIoErrors env → args.saveTemps = false → ∀ p ∈ created es, w'.fs p = none) ∧
      (NoIoErrors env → ClangPolite env → args.saveTemps = true → o ++ tmpSuffix ∈ created es →
        ∃ text, IrOf env w.fs i text ∧ w'.fs (o ++ tmpSuffix) = some text) ∧
      (∀ c ∈ runs es, ∃ pre j, c = pre ++ [['-', 'o'], o, j]) ∧
      (r = .ok () → runs es ≠ [] ∧ (ext i = ".b".toList → o ++ tmpSuffix ∈ created es)) := by
  have shape : ∀ j : Path, buildClangArgs args flag j o = (optFlags args ++ [flag]) ++ ['-', 'o'] :: o :: [j] := by
    intro j; simp [buildClangArgs]
  have shape' : ∀ j : Path, ∃ pre j', buildClangArgs args flag j o = pre ++ [['-', 'o'], o, j'] := fun j => ⟨_, j, shape j⟩
  have tne : o ++ tmpSuffix ≠ o := by
    intro e
    have := congrArg List.length e
    simp [tmpSuffix] at this
  rcases processOne_cases env args flag i o w with ⟨hb, h1⟩ | ⟨hb, text, fs, tr, h1, h2, h3, h4⟩ | ⟨hb, text, c, tr, hio, h1⟩ | ⟨hb, h1⟩ | ⟨hb, ⟨m, hm⟩, h1⟩
  · rw [h] at h1; cases h1
    refine ⟨_, rfl, .inl rfl, fun hp p hne _ => hp w _ _ o _ p (shape i) hne, by simp [created], by simp [created],
      by simpa [runs] using shape' i, ?_⟩
    intro _
    exact ⟨by simp [runs], fun e => absurd e hb⟩
  · rw [h] at h1
    simp only [Prod.mk.injEq] at h1
    obtain ⟨hr, rfl⟩ := h1
    have cr : created ([Event.create (o ++ tmpSuffix), .write (o ++ tmpSuffix), .run (buildClangArgs args flag (o ++ tmpSuffix) o)] ++
        if args.saveTemps then [] else [.remove (o ++ tmpSuffix)]) = [o ++ tmpSuffix] := by
      have := created_if args.saveTemps [o ++ tmpSuffix]
      rw [List.map_singleton] at this
      rw [created_append, this]; rfl
    have rn : runs ([Event.create (o ++ tmpSuffix), .write (o ++ tmpSuffix), .run (buildClangArgs args flag (o ++ tmpSuffix) o)] ++
        if args.saveTemps then [] else [.remove (o ++ tmpSuffix)]) = [buildClangArgs args flag (o ++ tmpSuffix) o] := by
      have := runs_if args.saveTemps [o ++ tmpSuffix]
      rw [List.map_singleton] at this
      rw [runs_append, this]; rfl
    refine ⟨_, by rw [List.append_assoc], .inr cr, ?_, ?_, ?_, ?_, ?_⟩
    · intro hp p hne hnt
      rw [cr, List.mem_singleton] at hnt
      show fs p = _
      rw [h2 p hnt, hp _ _ _ o _ p (shape _) hne, written_fs_ne hnt]
    · intro nio hs p hp
      rw [cr, List.mem_singleton] at hp
      subst hp
      exact h4 hs nio.2.2.1
    · intro nio hp hs _
      refine ⟨text, tr.irOf, ?_⟩
      show fs _ = _
      rw [h3 hs, hp _ _ _ o _ _ (shape _) tne, written_fs_eq]
    · rw [rn]; simpa using shape' _
    · intro _
      rw [rn, cr]; simp
  · rw [h] at h1; cases h1
    refine ⟨_, rfl, .inr rfl, fun hp p _ hnt => written_fs_ne (by simpa [created] using hnt), ?_, ?_, by simp [runs], by simp⟩
    · rintro ⟨n1, n2, _⟩
      rcases hio with ⟨w1, h⟩ | ⟨w1, h⟩
      · exact absurd (n1 _ _) h
      · rw [n2] at h; cases h
    · rintro ⟨n1, n2, _⟩
      rcases hio with ⟨w1, h⟩ | ⟨w1, h⟩
      · exact absurd (n1 _ _) h
      · rw [n2] at h; cases h
  · rw [h] at h1; cases h1
    exact ⟨[], by simp, .inl rfl, fun _ _ _ _ => rfl, by simp [created], by simp [created], by simp [runs], by simp⟩
  · rw [h] at h1; cases h1
    refine ⟨_, rfl, .inr rfl, ?_, fun nio => absurd hm (nio.2.2.2 m), fun nio => absurd hm (nio.2.2.2 m), by simp [runs], by simp⟩
    intro _ p _ hnt
    have : p ≠ o ++ tmpSuffix := by simpa [created] using hnt
    simp [FS.set, this]

/-- The effect of a whole list of inputs in the assembly and object modes. -/
theorem forEach_effect {env : Env} {args : Options} {flag e : List Char} (he : ∃ r, e = '.' :: r ∧ '.' ∉ r ∧ '/' ∉ r)
    (hell : e ≠ ".ll".toList) (heb : e ≠ ".b".toList) :
    ∀ {is : List Path} {w w' : World} {r : Res Unit}, forEach (processOne env args flag) e is w = (r, w') →
    ∃ es, w'.events = w.events ++ es ∧ (∀ p ∈ created es, ∃ i ∈ is, p = defaultOut i e ++ tmpSuffix) ∧
      (ClangPolite env → ∀ p, (∀ i ∈ is, p ≠ defaultOut i e) → p ∉ created es → w'.fs p = w.fs p) ∧
      (NoIoErrors env → ClangPolite env → args.saveTemps = false → ∀ p ∈ created es, w'.fs p = none) ∧
      (NoIoErrors env → ClangPolite env → args.saveTemps = true → (is.map (defaultOut · e)).Nodup →
        ∀ i ∈ is, ext i = ".b".toList → defaultOut i e ++ tmpSuffix ∈ created es →
        ∃ text, IrOf env w.fs i text ∧ w'.fs (defaultOut i e ++ tmpSuffix) = some text) ∧
      (r = .ok () → ∀ i ∈ is, ext i = ".b".toList → defaultOut i e ++ tmpSuffix ∈ created es) := by
  have extT : ∀ o : Path, ext (o ++ tmpSuffix) = ".ll".toList := by
    intro o
    have : o ++ tmpSuffix = (o ++ ".tmp".toList) ++ ".ll".toList := by rw [List.append_assoc]; rfl
    rw [this]; exact ext_append_ll _
  have extO : ∀ i : Path, ext (defaultOut i e) = e := fun i => (ext_iff he).2 ⟨_, rfl⟩
  have tneO : ∀ o i : Path, o ++ tmpSuffix ≠ defaultOut i e := by
    intro o i h
    have := congrArg ext h
    rw [extT, extO] at this
    exact hell this.symm
  have bneO : ∀ j i : Path, ext j = ".b".toList → j ≠ defaultOut i e := by
    intro j i hj h
    rw [h, extO] at hj
    exact heb hj
  have bneT : ∀ j o : Path, ext j = ".b".toList → j ≠ o ++ tmpSuffix := by
    intro j o hj h
    rw [h, extT] at hj
    revert hj; decide
  intro is
  induction is with
  | nil =>
    intro w w' r h
    cases h
    exact ⟨[], by simp, by simp [created], fun _ _ _ _ => rfl, by simp [created], by simp, by simp⟩
  | cons i is ih =>
    intro w w' r h
    rw [forEach_cons] at h
    obtain ⟨r1, w1, h1⟩ : ∃ r1 w1, processOne env args flag i (defaultOut i e) w = (r1, w1) := ⟨_, _, rfl⟩
    obtain ⟨es1, a1, a2, a3, a4, a5, a6, a7⟩ := processOne_effect h1
    have stop : w1 = w' → (∀ a, r ≠ .ok a) → ∃ es, w'.events = w.events ++ es ∧ (∀ p ∈ created es, ∃ i' ∈ i :: is, p = defaultOut i' e ++ tmpSuffix) ∧
      (ClangPolite env → ∀ p, (∀ i' ∈ i :: is, p ≠ defaultOut i' e) → p ∉ created es → w'.fs p = w.fs p) ∧
      (NoIoErrors env → ClangPolite env → args.saveTemps = false → ∀ p ∈ created es, w'.fs p = none) ∧
      (NoIoErrors env → ClangPolite env → args.saveTemps = true → ((i :: is).map (defaultOut · e)).Nodup →
        ∀ i' ∈ i :: is, ext i' = ".b".toList → defaultOut i' e ++ tmpSuffix ∈ created es →
        ∃ text, IrOf env w.fs i' text ∧ w'.fs (defaultOut i' e ++ tmpSuffix) = some text) ∧
      (r = .ok () → ∀ i' ∈ i :: is, ext i' = ".b".toList → defaultOut i' e ++ tmpSuffix ∈ created es) := by
      rintro rfl hr
      refine ⟨es1, a1, ?_, fun hp p hne => a3 hp p (hne i (by simp)), fun nio _ => a4 nio, ?_, fun e => absurd e (hr _)⟩
      · intro p hp
        rcases a2 with a2 | a2 <;> rw [a2] at hp
        · cases hp
        · exact ⟨i, by simp, by simpa using hp⟩
      · intro nio hpol hs nd j hj hjb hjc
        have : j = i := by
          rcases List.mem_cons.1 hj with rfl | hj
          · rfl
          · exfalso
            rcases a2 with a2 | a2 <;> rw [a2] at hjc
            · cases hjc
            · simp only [List.mem_singleton, List.append_cancel_right_eq] at hjc
              rw [List.map_cons, List.nodup_cons] at nd
              exact nd.1 (by rw [← hjc]; exact List.mem_map.2 ⟨j, hj, rfl⟩)
        subst this
        exact a5 nio hpol hs hjc
    rw [h1] at h
    cases r1 with
    | error => cases h; exact stop rfl (by simp)
    | panic => cases h; exact stop rfl (by simp)
    | ok u =>
      dsimp only at h
      obtain ⟨es2, b1, b2, b3, b4, b5, b6⟩ := ih h
      refine ⟨es1 ++ es2, by rw [b1, a1]; simp, ?_, ?_, ?_, ?_, ?_⟩
      · intro p hp
        rw [created_append, List.mem_append] at hp
        rcases hp with hp | hp
        · rcases a2 with a2 | a2 <;> rw [a2] at hp
          · cases hp
          · exact ⟨i, by simp, by simpa using hp⟩
        · obtain ⟨j, hj, e⟩ := b2 p hp
          exact ⟨j, by simp [hj], e⟩
      · intro hp p hne hnc
        rw [created_append, List.mem_append, not_or] at hnc
        rw [b3 hp p (fun j hj => hne j (by simp [hj])) hnc.2, a3 hp p (hne i (by simp)) hnc.1]
      · intro nio hpol hs p hp
        rw [created_append, List.mem_append] at hp
        by_cases hp2 : p ∈ created es2
        · exact b4 nio hpol hs p hp2
        · have hp1 := hp.resolve_right hp2
          rw [b3 hpol p ?_ hp2]
          · exact a4 nio hs p hp1
          · intro j _
            rcases a2 with a2 | a2 <;> rw [a2] at hp1
            · cases hp1
            · rw [List.mem_singleton] at hp1; subst hp1; exact tneO _ _
      · intro nio hpol hs nd j hj hjb hjc
        rw [List.map_cons, List.nodup_cons] at nd
        rcases List.mem_cons.1 hj with rfl | hj
        · have nt : defaultOut j e ++ tmpSuffix ∉ created es2 := by
            intro h2
            obtain ⟨j', hj', e'⟩ := b2 _ h2
            exact nd.1 (by rw [List.append_cancel_right e']; exact List.mem_map.2 ⟨j', hj', rfl⟩)
          rw [created_append, List.mem_append] at hjc
          obtain ⟨text, t1, t2⟩ := a5 nio hpol hs (hjc.resolve_right nt)
          exact ⟨text, t1, by rw [b3 hpol _ (fun j' _ => tneO _ _) nt, t2]⟩
        · have nt : defaultOut j e ++ tmpSuffix ∉ created es1 := by
            intro h1
            rcases a2 with a2 | a2 <;> rw [a2] at h1
            · cases h1
            · simp only [List.mem_singleton, List.append_cancel_right_eq] at h1
              exact nd.1 (by rw [← h1]; exact List.mem_map.2 ⟨j, hj, rfl⟩)
          rw [created_append, List.mem_append] at hjc
          obtain ⟨text, ⟨c, m, t1, t1'⟩, t2⟩ := b5 nio hpol hs nd.2 j hj hjb (hjc.resolve_left nt)
          refine ⟨text, ⟨c, m, ?_, t1'⟩, t2⟩
          rw [← t1]
          symm
          refine a3 hpol j (bneO _ _ hjb) ?_
          intro hc
          rcases a2 with a2 | a2 <;> rw [a2] at hc
          · cases hc
          · exact bneT j _ hjb (by simpa using hc)
      · intro hr j hj hjb
        rw [created_append, List.mem_append]
        rcases List.mem_cons.1 hj with rfl | hj
        · exact .inl ((a7 rfl).2 hjb)
        · exact .inr (b6 hr j hj hjb)

/-! ### the documented names -/

theorem lastComponent_exists (p : Path) : ∃ name, LastComponent p name := by
  induction p with
  | nil => exact ⟨[], by simp, .inl rfl⟩
  | cons c p ih =>
    obtain ⟨name, h1, h2⟩ := ih
    rcases h2 with rfl | ⟨dir, rfl⟩
    · by_cases hc : c = '/'
      · subst hc; exact ⟨p, h1, .inr ⟨[], rfl⟩⟩
      · exact ⟨c :: p, by simp [h1, Ne.symm hc], .inl rfl⟩
    · exact ⟨name, h1, .inr ⟨c :: dir, rfl⟩⟩

theorem lastComponent_append {p name e : Path} (h : LastComponent p name) (he : '/' ∉ e) :
    LastComponent (p ++ e) (name ++ e) := by
  obtain ⟨h1, h2⟩ := h
  refine ⟨by simp [h1, he], ?_⟩
  rcases h2 with rfl | ⟨dir, rfl⟩
  · exact .inl rfl
  · exact .inr ⟨dir, by simp⟩

theorem outName_iff {m : OutputType} {i o e : Path} (he : ∃ r, e = '.' :: r ∧ '.' ∉ r ∧ '/' ∉ r) (hi : ext i = e) :
    OutName m i o ↔ o = defaultOut i (outExt m) := by
  constructor
  · rintro ⟨stem, e', h1, h2, rfl⟩
    rw [defaultOut_of h1 h2]
  · rintro rfl
    obtain ⟨s, hs⟩ := (ext_iff he).1 hi
    obtain ⟨stem, h⟩ := lastComponent_exists s
    have he' : '/' ∉ e := by
      obtain ⟨r, rfl, _, h⟩ := he
      simp [h]
    have h3 : LastComponent i (stem ++ e) := by rw [hs]; exact lastComponent_append h he'
    exact ⟨stem, e, h3, ⟨rfl, he⟩, defaultOut_of h3 ⟨rfl, he⟩⟩

theorem linkTemp_iff {args : Options} {k : Nat} {i t : Path} (ho : args.outputFile ≠ []) (hi : ext i = ".b".toList) :
    LinkTemp args.inputFiles.length args.outputFile k i t ↔ t = exeTemp args k i := by
  have he : ∃ r, ".b".toList = '.' :: r ∧ '.' ∉ r ∧ '/' ∉ r := ⟨"b".toList, rfl, by decide, by decide⟩
  unfold LinkTemp exeTemp
  by_cases hl : args.inputFiles.length = 1
  · simp [hl, ho, tmpSuffix]
  · simp only [hl, false_and, false_or, ne_eq, not_false_eq_true, true_and, if_false]
    have key : ∀ stem, LastComponent i (stem ++ ".b".toList) → trimSuffix (base i) (ext i) = stem := by
      intro stem h
      rw [base_of h (by simp), hi, trimSuffix_append]
    constructor
    · rintro ⟨stem, h, rfl⟩
      rw [key stem h]
    · rintro rfl
      obtain ⟨s, hs⟩ := (ext_iff he).1 hi
      obtain ⟨stem, h⟩ := lastComponent_exists s
      have h3 : LastComponent i (stem ++ ".b".toList) := by rw [hs]; exact lastComponent_append h (by decide)
      exact ⟨stem, h3, by rw [key stem h3]⟩

theorem named_of {args : Options} (h : args.outputFile ≠ []) : named args = args := by
  unfold named; rw [if_neg h]

end Blang.Driver
