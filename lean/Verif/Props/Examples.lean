import Verif.Props.Copy
import Verif.Spec.Room
import Verif.Proofs.Text
/-
C74: the example programs of the repository, from their text to the bytes that the process writes.  First `hello.b` and `helloworld.b`.
-/
namespace Blang.Props
open Blang Blang.Spec

/-! ### writing -/

/-- the store after something was written; nothing else has changed -/
def Out (C : Computer) (σ : Store C.machine.World) (bs : List (BitVec 8)) (σ' : Store C.machine.World) : Prop :=
  Wrote (C.see σ) bs (C.see σ') ∧ σ'.world.1 = σ.world.1

theorem Out.mem {C : Computer} {σ σ' : Store C.machine.World} {bs : List (BitVec 8)} (h : Out C σ bs σ') : σ'.mem = σ.mem := by
  obtain ⟨⟨ws, e, _⟩, _⟩ := h
  exact congrArg RTState.mem e

theorem Out.fout {C : Computer} {σ σ' : Store C.machine.World} {bs : List (BitVec 8)} (h : Out C σ bs σ') :
    (C.see σ').fout = (C.see σ).fout := by
  obtain ⟨⟨ws, e, _⟩, _⟩ := h
  rw [e]

theorem Out.input {C : Computer} {σ σ' : Store C.machine.World} {bs : List (BitVec 8)} (h : Out C σ bs σ') :
    (C.see σ').input = (C.see σ).input := by
  obtain ⟨⟨ws, e, _⟩, _⟩ := h
  rw [e]

theorem wrote_nil (s : RTState) : Wrote s [] s := ⟨[], by simp, by simp, rfl⟩

theorem wrote_trans {s t u : RTState} {a b : List (BitVec 8)} (h1 : Wrote s a t) (h2 : Wrote t b u) : Wrote s (a ++ b) u := by
  obtain ⟨ws, rfl, h3, rfl⟩ := h1
  obtain ⟨vs, rfl, h4, rfl⟩ := h2
  refine ⟨ws ++ vs, by simp, ?_, by simp⟩
  intro w hw
  rcases List.mem_append.1 hw with h | h
  · exact h3 w h
  · exact h4 w h

theorem Out.trans {C : Computer} {σ σ1 σ2 : Store C.machine.World} {a b : List (BitVec 8)} (h1 : Out C σ a σ1) (h2 : Out C σ1 b σ2) :
    Out C σ (a ++ b) σ2 := ⟨wrote_trans h1.1 h2.1, h2.2.trans h1.2⟩

theorem Out.refl {C : Computer} (σ : Store C.machine.World) : Out C σ [] σ := ⟨wrote_nil _, rfl⟩

theorem bsteps_app {M : BMachine} {R : Calls M.World} {P : Place} {b : St} {x y z : BState M.World} (h1 : BSteps M R P b x y)
    (h2 : BSteps M R P b y z) : BSteps M R P b x z := by
  induction h1 with
  | refl => exact h2
  | head h _ ih => exact .head h (ih h2)

section
variable {C : Computer} {L : Library}

theorem out_put {σ : Store C.machine.World} {s : RTState} {bs : List (BitVec 8)} (h : Wrote (C.see σ) bs s) : Out C σ bs (C.put σ s) := ⟨h, rfl⟩

/-- `write` of a constant -/
theorem call_write (σ : Store C.machine.World) {w : Word} {bs : List (BitVec 8)} (hp : PackedChars w bs) :
    ∃ v σ', C.calls L.Runs (C.addr (symbolOf "write".toList)) [w] σ v σ' ∧ Out C σ bs σ' := by
  obtain ⟨v, s', hr⟩ := library_returns L .write [w] (C.see σ) (by simp [LibFn.arity]) (fun h => by cases h)
  refine ⟨v, C.put σ s', ⟨.write, rfl, s', hr, rfl⟩, out_put ?_⟩
  generalize hg : [w] = args at hr
  cases library_documented hr with
  | write h1 h2 =>
    cases hg
    rw [C48_unique h1 hp] at h2
    exact h2

theorem strAt_unique {mem : Mem} {a : Word} {f g : List (BitVec 8)} (h1 : StrAt mem a f) (h2 : StrAt mem a g) : f = g := by
  have key : ∀ {f g : List (BitVec 8)}, StrAt mem a f → StrAt mem a g → f.length ≤ g.length := by
    intro f g h1 h2
    refine Nat.le_of_not_lt fun hl => ?_
    exact (h1.1 _ hl).2 ((h1.1 _ hl).1 ▸ h2.2)
  refine List.ext_getElem (Nat.le_antisymm (key h1 h2) (key h2 h1)) fun i hi hj => ?_
  rw [← (h1.1 i hi).1, (h2.1 i hj).1]

/-- `printf` of a format that leaves no choice -/
theorem call_printf (σ : Store C.machine.World) {fmt : Word} {as : List Word} {f out : List (BitVec 8)} (hf : StrAt σ.mem fmt f)
    (hp : Printed L.signedChar (StrAt σ.mem) f as out)
    (hu : ∀ more o, Printed L.signedChar (StrAt σ.mem) f (as ++ more) o → o = out) :
    ∃ v σ', C.calls L.Runs (C.addr (symbolOf "printf".toList)) (fmt :: as) σ v σ' ∧ Out C σ out σ' := by
  obtain ⟨v, s', hr⟩ := library_returns L .printf (fmt :: as) (C.see σ) (by simp [LibFn.arity]) (fun _ => ⟨_, _, f, out, rfl, hf, hp⟩)
  refine ⟨v, C.put σ s', ⟨.printf, rfl, s', hr, rfl⟩, out_put ?_⟩
  generalize hg : fmt :: as = args at hr
  cases library_documented hr with
  | printf h1 h2 h3 =>
    cases hg
    have e := strAt_unique h1 hf
    subst e
    rw [hu _ _ h2] at h3
    exact h3

end

instance (w : Word) (bs : List (BitVec 8)) : Decidable (PackedChars w bs) := by unfold PackedChars; infer_instance

theorem outputs_of {text : List Char} {p : Program} {m : Module} (h : TreeOf text p m) (ht : p.Tame) {C : Computer} (L : Library)
    (hk : Module.Links m C.addr) {ps : List Ident} {body : St} (hf : Decl.func "main".toList ps body ∈ p) {σ σ' σ'' : Store C.machine.World}
    {bs : List (BitVec 8)} (hr : p.Returns C.machine.toB (C.calls L.Runs) (C.machine.toB.global "main".toList) [] σ 0 σ')
    (e1 : σ'.world.2 = σ''.world.2) {σ0 : Store C.machine.World} (e2 : σ0.world.2 = σ.world.2)
    (ho : Wrote (C.see σ0) bs (C.see σ'')) (h0 : (C.see σ).fout = 0) : Module.Outputs m C (C.calls L.Runs) σ bs := by
  have key : ∀ fd, writtenTo fd (C.see σ').trace = writtenTo fd (C.see σ).trace ++ if fd = 1 then bs else [] := by
    intro fd
    have := wrote_files ho fd
    have t1 : (C.see σ').trace = (C.see σ'').trace := by show σ'.world.2.trace = _; rw [e1]; rfl
    have t2 : (C.see σ0).trace = (C.see σ).trace := by show σ0.world.2.trace = _; rw [e2]; rfl
    have t3 : (C.see σ0).fout = 0 := by
      rw [← h0]; show σ0.world.2.fout = _; rw [e2]; rfl
    rw [t1, this, t2, t3]; rfl
  refine ⟨σ', C71_prescribed h ht L hk hf (.inl hr), ?_, fun fd hne => ?_, ?_⟩
  · rw [key, if_pos rfl]
  · rw [key, if_neg hne, List.append_nil]
  · obtain ⟨ws, e, _⟩ := ho
    have t1 : (C.see σ').input = (C.see σ'').input := by show σ'.world.2.input = _; rw [e1]; rfl
    have t2 : (C.see σ0).input = (C.see σ).input := by show σ0.world.2.input = _; rw [e2]; rfl
    rw [t1, e]; exact t2

/-! ### hello.b -/

/-- examples/hello.b -/
def helloBText : List Char := "/* The following program will print 'Hello World' to stdout. */

main() {
    write('Hello,');
    write(' World');
    write('!*n');
}
".toList

/-- characters packed in a word -/
def packed (s : List Char) : Word := BitVec.ofNat 64 (beValue (codes s))

def helloBBody : St := .seq (.expr (.callName "write".toList [.num (packed "Hello,".toList)]))
  (.seq (.expr (.callName "write".toList [.num (packed " World".toList)]))
  (.seq (.expr (.callName "write".toList [.num (packed "!\n".toList)])) .skip))

def helloBProg : Program := [.func "main".toList [] helloBBody]

set_option maxRecDepth 20000 in
theorem helloB_checks : Program.isSame helloBProg (refParse prec helloBText) = true ∧ helloBProg.Tame ∧ helloBProg.Clear ∧
    (Program.Scoped Env.empty helloBProg ∧ ∀ d ∈ helloBProg, d.CasesOk) := by
  decide_text helloBText

attribute [irreducible] helloBText

theorem helloB_module : ∃ m, compileText helloBText .eof = .ok m ∧ TreeOf helloBText helloBProg m :=
  careful_module (refParse_sound (Program.eq_of_same helloB_checks.1)) helloB_checks.2.2.1 helloB_checks.2.2.2

/-- a statement that writes a constant -/
theorem write_step {C : Computer} {R : Calls C.machine.World} {P P0 : Place} {ρ : Frame} {body : St} {k : Cont} {w v : Word}
    (h1 : "write".toList ∉ P.env.locals) (h2 : "write".toList ∉ P.env.exts) {σ σ' : Store C.machine.World}
    (hc : R (C.addr (symbolOf "write".toList)) [w] σ v σ') :
    BStep C.machine.toB R P0 body (.run P (.expr (.callName "write".toList [.num w])) k ρ σ) (.run P .skip k ρ σ') := by
  refine .expr (v := v) ⟨.val v, ⟨.val (C.machine.toB.global "write".toList), [w], σ, v, ?_, ⟨.val w, _, [], ⟨rfl, rfl⟩, ⟨rfl, rfl⟩, rfl⟩, hc, rfl⟩, rfl⟩
  rw [nameRes, if_neg h1, if_neg h2]

/-- a statement that calls a function -/
theorem call_step {C : Computer} {R : Calls C.machine.World} {P P0 : Place} {ρ : Frame} {body : St} {k : Cont} {f : Ident} {as : List Ex}
    {vs : List Word} {v : Word} (h1 : f ∉ P.env.locals) (h2 : f ∉ P.env.exts) {σ σ1 σ' : Store C.machine.World}
    (ha : Ex.EvalArgs C.machine.toB R P.env ρ as P.lits σ vs σ1) (hc : R (C.addr (symbolOf f)) vs σ1 v σ') :
    BStep C.machine.toB R P0 body (.run P (.expr (.callName f as)) k ρ σ) (.run P .skip k ρ σ') := by
  refine .expr (v := v) ⟨.val v, ⟨.val (C.machine.toB.global f), vs, σ1, v, ?_, ha, hc, rfl⟩, rfl⟩
  rw [nameRes, if_neg h1, if_neg h2]

/-- C74. `examples/hello.b` is accepted, and on every machine the process writes `Hello, World!` and a newline and ends with status 0. -/
theorem C74_hello : ∃ m, compileText helloBText .eof = .ok m ∧ ∀ (C : Computer) (L : Library), Module.Links m C.addr →
    ∀ σ : Store C.machine.World, (C.see σ).fout = 0 → Module.Outputs m C (C.calls L.Runs) σ (codes "Hello, World!\n".toList) := by
  obtain ⟨m, hm, ht⟩ := helloB_module
  refine ⟨m, hm, fun C L hk σ hf => ?_⟩
  let P : Place := ⟨(Program.place []).env.enter "main".toList [], (Program.place []).lits⟩
  have hd : helloBProg.Defines "main".toList [] helloBBody P := ⟨[], [], rfl, by simp, rfl⟩
  let σ0 : Store C.machine.World := ⟨storeArgs (C.machine.toB.params σ.world 0).1 [] σ.mem, (C.machine.toB.params σ.world 0).2⟩
  obtain ⟨v1, σ1, c1, o1⟩ := call_write (L := L) σ0 (w := packed "Hello,".toList) (bs := codes "Hello,".toList) (by decide +kernel)
  obtain ⟨v2, σ2, c2, o2⟩ := call_write (L := L) σ1 (w := packed " World".toList) (bs := codes " World".toList) (by decide +kernel)
  obtain ⟨v3, σ3, c3, o3⟩ := call_write (L := L) σ2 (w := packed "!\n".toList) (bs := codes "!\n".toList) (by decide +kernel)
  refine outputs_of ht helloB_checks.2.1 L hk (ps := []) (body := helloBBody) (by simp [helloBProg])
    (σ' := ⟨σ3.mem, C.machine.toB.leave σ.world σ3.world⟩) (σ'' := σ3) (σ0 := σ0)
    ⟨1, .inr ⟨_, _, _, P, hd, rfl, Nat.le_refl _, σ3, ?_, rfl⟩⟩ rfl rfl ((o1.trans o2).trans o3).1 hf
  exact .head .seq (.head (write_step (by decide) (by decide) c1) (.head .endSeq (.head .seq (.head (write_step (by decide) (by decide) c2) (.head .endSeq
    (.head .seq (.head (write_step (by decide) (by decide) c3) (.head .endSeq (.head .endFun .refl)))))))))

/-- the module of the text has a global of that name and size -/
def hasGlobal (text : List Char) (sym : List Char) (size : Nat) : Bool := match compileText text .eof with
  | .ok m => m.globals.any fun g => g.sym == sym && globalSize g.init == size
  | .error _ => false

theorem hasGlobal_sound {text sym : List Char} {size : Nat} {m : Module} (hm : compileText text .eof = .ok m) (h : hasGlobal text sym size = true) :
    ∃ g ∈ m.globals, g.sym = sym ∧ globalSize g.init = size := by
  rw [hasGlobal, hm] at h
  simpa using h

/-! ### helloworld.b -/

/-- a string literal of ASCII characters in memory -/
theorem strAt_of {mem : Mem} {a : Word} {vs : List Nat} (h : StringAt mem a vs) (hv : ∀ v ∈ vs, v < 128 ∧ v ≠ 0) :
    StrAt mem a (vs.map (BitVec.ofNat 8)) := by
  have h1 := h fun v hv' => by have := (hv v hv').1; omega
  have h2 : vs.flatMap utf8Code = vs := by
    clear h h1
    induction vs with
    | nil => rfl
    | cons v vs ih =>
      rw [List.flatMap_cons, ih fun w hw => hv w (by simp [hw]), utf8Code, if_pos (hv v (by simp)).1]
      rfl
  rw [h2] at h1
  constructor
  · intro i hi
    have hi' : i < vs.length := by simpa using hi
    have := h1 i (by simp [cString]; omega)
    rw [show (cString vs)[i]'(by simp [cString]; omega) = BitVec.ofNat 8 vs[i] by
      simp only [cString]; rw [List.getElem_append_left (by simpa using hi')]; simp] at this
    rw [List.getElem_map]
    refine ⟨this, fun e => ?_⟩
    have h3 := hv vs[i] (List.getElem_mem _)
    have := congrArg BitVec.toNat e
    simp at this
    omega
  · have := h1 vs.length (by simp [cString])
    simpa [cString] using this

theorem printed_plain {sc : Bool} {str : Word → List (BitVec 8) → Prop} {f : List (BitVec 8)} (hf : ∀ c ∈ f, c ≠ 37#8 ∧ c.toNat < 128)
    (as : List Word) : Printed sc str f as f := by
  induction f with
  | nil => exact .done
  | cons c f ih =>
    have := Printed.plain (sc := sc) (str := str) (hf c (by simp)).1 (ih fun d hd => hf d (by simp [hd]))
    rw [charOut, if_neg (by have := (hf c (by simp)).2; omega)] at this
    exact this

theorem printed_plain_only {sc : Bool} {str : Word → List (BitVec 8) → Prop} {f : List (BitVec 8)} (hf : ∀ c ∈ f, c ≠ 37#8 ∧ c.toNat < 128)
    {as : List Word} {o : List (BitVec 8)} (h : Printed sc str f as o) : o = f := by
  induction f generalizing as o with
  | nil => cases h; rfl
  | cons c f ih =>
    have h1 := hf c (by simp)
    cases h with
    | plain _ h2 =>
      rw [charOut, if_neg (by omega), ih (fun d hd => hf d (by simp [hd])) h2]; rfl
    | decimal => exact absurd rfl h1.1
    | smallest => exact absurd rfl h1.1
    | octal => exact absurd rfl h1.1
    | char => exact absurd rfl h1.1
    | string => exact absurd rfl h1.1
    | percent => exact absurd rfl h1.1
    | unknown => exact absurd rfl h1.1

/-- examples/helloworld.b -/
def helloWText : List Char := "/* The following program will print 'Hello World' to stdout. */

main() {
    printf(\"Hello, World!*n\");
}
".toList

def helloWLit : List Nat := "Hello, World!\n".toList.map Char.toNat

def helloWBody : St := .seq (.expr (.callName "printf".toList [.str helloWLit])) .skip

def helloWProg : Program := [.func "main".toList [] helloWBody]

set_option maxRecDepth 20000 in
theorem helloW_checks : Program.isSame helloWProg (refParse prec helloWText) = true ∧ helloWProg.Tame ∧ helloWProg.Clear ∧
    (Program.Scoped Env.empty helloWProg ∧ ∀ d ∈ helloWProg, d.CasesOk) := by
  decide_text helloWText

attribute [irreducible] helloWText

theorem helloW_module : ∃ m, compileText helloWText .eof = .ok m ∧ TreeOf helloWText helloWProg m :=
  careful_module (refParse_sound (Program.eq_of_same helloW_checks.1)) helloW_checks.2.2.1 helloW_checks.2.2.2

/-- C74. `examples/helloworld.b` is accepted, and on every machine the process, its data loaded, writes `Hello, World!` and a newline
and ends with status 0. -/
theorem C74_helloworld : ∃ m, compileText helloWText .eof = .ok m ∧ ∀ (C : Computer) (L : Library), Module.Links m C.addr →
    ∀ σ : Store C.machine.World, (C.see σ).fout = 0 → Module.DataIn m C.addr σ.mem →
    Module.Outputs m C (C.calls L.Runs) σ (codes "Hello, World!\n".toList) := by
  obtain ⟨m, hm, ht⟩ := helloW_module
  refine ⟨m, hm, fun C L hk σ hf hd => ?_⟩
  have hI := initial_of_tree ht (M := C.machine) hd
  have hlit : StrAt σ.mem (C.machine.toB.literal 0) (codes "Hello, World!\n".toList) := by
    have := strAt_of (hI.literal 0 helloWLit rfl) (by decide)
    have e : helloWLit.map (BitVec.ofNat 8) = codes "Hello, World!\n".toList := by decide
    rwa [e] at this
  let P : Place := ⟨(Program.place []).env.enter "main".toList [], (Program.place []).lits⟩
  have hd : helloWProg.Defines "main".toList [] helloWBody P := ⟨[], [], rfl, by simp, rfl⟩
  let σ0 : Store C.machine.World := ⟨storeArgs (C.machine.toB.params σ.world 0).1 [] σ.mem, (C.machine.toB.params σ.world 0).2⟩
  have hfm : ∀ c ∈ codes "Hello, World!\n".toList, c ≠ 37#8 ∧ c.toNat < 128 := by decide
  obtain ⟨v1, σ1, c1, o1⟩ := call_printf (L := L) σ0 (as := []) hlit (printed_plain hfm _) (fun _ _ h => printed_plain_only hfm h)
  refine outputs_of ht helloW_checks.2.1 L hk (ps := []) (body := helloWBody) (by simp [helloWProg])
    (σ' := ⟨σ1.mem, C.machine.toB.leave σ.world σ1.world⟩) (σ'' := σ1) (σ0 := σ0)
    ⟨1, .inr ⟨_, _, _, P, hd, rfl, Nat.le_refl _, σ1, ?_, rfl⟩⟩ rfl rfl o1.1 hf
  exact .head .seq (.head (call_step (by decide) (by decide) (vs := [C.machine.toB.literal 0]) (σ1 := σ0) ⟨.val _, _, [], ⟨rfl, rfl⟩, ⟨rfl, rfl⟩, rfl⟩ c1)
    (.head .endSeq (.head .endFun .refl)))

end Blang.Props
