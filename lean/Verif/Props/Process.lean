import Verif.Proofs.Library
import Verif.Props.Exact
import Verif.Props.Image
/-
Property C71: whole programs, compiled, linked with the runtime library and run.
-/
namespace Blang.Props
open Blang Blang.Spec

/-! ### the library and the module -/

theorem calls_functional {C : Computer} {L : Library} {m : Module} (hk : Module.Links m C.addr) : Functional (C.calls L.Runs) := by
  rintro a vs s v1 s1 v2 s2 ⟨f, rfl, t1, r1, rfl⟩ ⟨g, e, t2, r2, rfl⟩
  cases hk.names f g e
  obtain ⟨rfl, rfl⟩ := library_functional r1 r2
  exact ⟨rfl, rfl⟩

theorem loaded_of_links {C : Computer} {L : Library} {m : Module} (hk : Module.Links m C.addr) : Loaded m C.machine (C.calls L.Runs) where
  functional := calls_functional hk
  external := by
    rintro f hf hb args σ v σ' ⟨g, e, _⟩
    exact hk.library f hf hb g e
  apart := hk.apart

theorem calls_documented {C : Computer} {L : Library} {a : Word} {vs : List Word} {s s' : Store C.machine.World} {v : Word}
    (h : C.calls L.Runs a vs s v s') : C.calls (Documented L.signedChar) a vs s v s' := by
  obtain ⟨f, e, t, r, e'⟩ := h
  exact ⟨f, e, t, library_documented r, e'⟩

/-! ### more can happen if the external functions can do more -/

theorem returns_mono {p : Program} {M : BMachine} {X Y : Calls M.World} (h : ∀ a vs s v s', X a vs s v s' → Y a vs s v s') :
    ∀ a vs s v s', p.Returns M X a vs s v s' → p.Returns M Y a vs s v s' := by
  have key : ∀ n a vs s v s', p.Call M X n a vs s v s' → p.Call M Y n a vs s v s' := by
    intro n
    induction n with
    | zero => exact h
    | succ n ih =>
      rintro a vs s v s' (hx | ⟨f, ps, b, P, h1, h2, h3, σ1, h4, h5⟩)
      · exact .inl (h _ _ _ _ _ hx)
      · exact .inr ⟨f, ps, b, P, h1, h2, h3, σ1, bsteps_mono ih h4, h5⟩
  rintro a vs s v s' ⟨n, hn⟩
  exact ⟨n, key n _ _ _ _ _ hn⟩

theorem makes_mono {p : Program} {M : BMachine} {X Y : Calls M.World} (h : ∀ a vs s v s', X a vs s v s' → Y a vs s v s') {f : Ident}
    {args : List Word} {σ σ' : Store M.World} {a : Word} {vs : List Word} (hm : p.Makes M X f args σ a vs σ') : p.Makes M Y f args σ a vs σ' := by
  have hr := returns_mono (p := p) h
  induction hm with
  | own hg he =>
    obtain ⟨ps, b, P, h1, h2, h3⟩ := hg
    exact .own ⟨ps, b, P, h1, h2, bsteps_mono hr h3⟩ (state_mono hr he)
  | inner _ _ ih1 ih2 => exact .inner ih1 ih2

theorem ends_mono {p : Program} {M : BMachine} {X Y : Calls M.World} (h : ∀ a vs s v s', X a vs s v s' → Y a vs s v s') {σ σ' : Store M.World}
    {v : Word} (he : p.Ends M X σ v σ') : p.Ends M Y σ v σ' := by
  rcases he with h1 | ⟨h1, vs, h2⟩
  · exact .inl (returns_mono h _ _ _ _ _ h1)
  · exact .inr ⟨h1, vs, makes_mono h h2⟩

/-! ### a call that does not return is the last thing that happens -/

section
variable {p : Program} {M : BMachine} {X : Calls M.World} (hp : p.Placed M X)
include hp

theorem own_blocks {f : Ident} {args : List Word} {σ σ' : Store M.World} {x : BState M.World} {a : Word} {vs : List Word}
    (hg : p.Gets M X f args σ x) (he : x.Enters M (p.Returns M X) a vs σ') (ha : ∀ v s, ¬ p.Returns M X a vs σ' v s) :
    ∀ v s, ¬ p.Returns M X (M.global f) args σ v s := by
  have hR := C65_unique hp
  rintro v s ⟨n, hn⟩
  obtain ⟨ps, b, P, hd, hl, hx⟩ := hg
  obtain ⟨k, ps', b', P', σ1, rfl, hd', hl', hs⟩ := call_run hp (defines_mem hd) hn
  obtain ⟨rfl, rfl, rfl⟩ := defines_unique hd hd'
  have hs := bsteps_mono (R' := p.Returns M X) (fun a vs s v s' h => ⟨k, h⟩) hs
  cases bsteps_through hR (fun _ _ _ _ _ h => h) (fun _ h => done_end h) hx hs with
  | refl => obtain ⟨_, _, _, _, _, _, e, _⟩ := he; cases e
  | head h1 _ =>
    obtain ⟨w, s', hr⟩ := bstep_enters hR (fun _ _ _ _ _ h => h) h1 he
    exact ha _ _ hr

theorem makes_blocks {f : Ident} {args : List Word} {σ σ' : Store M.World} {a : Word} {vs : List Word}
    (h : p.Makes M X f args σ a vs σ') : (∀ v s, ¬ p.Returns M X a vs σ' v s) → ∀ v s, ¬ p.Returns M X (M.global f) args σ v s := by
  induction h with
  | own hg he => exact own_blocks hp hg he
  | inner _ _ ih1 ih2 => exact fun ha => ih1 (ih2 ha)
end

/-- `Makes`, from the outside to the inside -/
inductive Chain (p : Program) (M : BMachine) (X : Calls M.World) :
    Ident → List Word → Store M.World → Word → List Word → Store M.World → Prop where
  | own {f args σ x a vs σ'} : p.Gets M X f args σ x → x.Enters M (p.Returns M X) a vs σ' → Chain p M X f args σ a vs σ'
  | step {f args σ x g ws σ1 a vs σ'} : p.Gets M X f args σ x → x.Enters M (p.Returns M X) (M.global g) ws σ1 →
      Chain p M X g ws σ1 a vs σ' → Chain p M X f args σ a vs σ'

theorem Chain.append {p : Program} {M : BMachine} {X : Calls M.World} {f : Ident} {args : List Word} {σ σ1 σ' : Store M.World} {b a : Word}
    {ws vs : List Word} (h : Chain p M X f args σ b ws σ1) : ∀ {g}, b = M.global g → Chain p M X g ws σ1 a vs σ' → Chain p M X f args σ a vs σ' := by
  induction h with
  | own h1 h2 => rintro g rfl h; exact .step h1 h2 h
  | step h1 h2 _ ih => intro g e h; exact .step h1 h2 (ih e h)

theorem chain_of_makes {p : Program} {M : BMachine} {X : Calls M.World} {f : Ident} {args : List Word} {σ σ' : Store M.World} {a : Word}
    {vs : List Word} (h : p.Makes M X f args σ a vs σ') : Chain p M X f args σ a vs σ' := by
  induction h with
  | own h1 h2 => exact .own h1 h2
  | inner _ _ ih1 ih2 => exact ih1.append rfl ih2

theorem Chain.makes {p : Program} {M : BMachine} {X : Calls M.World} {f : Ident} {args : List Word} {σ σ' : Store M.World} {a : Word}
    {vs : List Word} (h : Chain p M X f args σ a vs σ') : p.Makes M X f args σ a vs σ' := by
  induction h with
  | own h1 h2 => exact .own h1 h2
  | step h1 h2 _ ih => exact .inner (.own h1 h2) ih

theorem Chain.defined {p : Program} {M : BMachine} {X : Calls M.World} {f : Ident} {args : List Word} {σ σ' : Store M.World} {a : Word}
    {vs : List Word} (h : Chain p M X f args σ a vs σ') : ∃ ps b, Decl.func f ps b ∈ p := by
  cases h with
  | own h1 _ => obtain ⟨ps, b, P, hd, _⟩ := h1; exact ⟨ps, b, defines_mem hd⟩
  | step h1 _ _ => obtain ⟨ps, b, P, hd, _⟩ := h1; exact ⟨ps, b, defines_mem hd⟩

/-- Of the calls of functions outside of the program that do not return at most one is made. -/
theorem last_call {p : Program} {M : BMachine} {X : Calls M.World} (hp : p.Placed M X) {f : Ident} {args : List Word} {σ σ1 σ2 : Store M.World}
    {a b : Word} {vs ws : List Word} (h1 : Chain p M X f args σ a vs σ1) (ha : ∀ v s, ¬ p.Returns M X a vs σ1 v s)
    (ea : ∀ g ps d, Decl.func g ps d ∈ p → a ≠ M.global g) (h2 : Chain p M X f args σ b ws σ2) (hb : ∀ v s, ¬ p.Returns M X b ws σ2 v s)
    (eb : ∀ g ps d, Decl.func g ps d ∈ p → b ≠ M.global g) : a = b ∧ vs = ws ∧ σ1 = σ2 := by
  have hR := C65_unique hp
  -- the function is stuck where it makes such a call
  have same : ∀ {f : Ident} {args : List Word} {σ τ1 τ2 : Store M.World} {x y : BState M.World} {c d : Word} {us ts : List Word},
      p.Gets M X f args σ x → x.Enters M (p.Returns M X) c us τ1 → (∀ v s, ¬ p.Returns M X c us τ1 v s) →
      p.Gets M X f args σ y → y.Enters M (p.Returns M X) d ts τ2 → (∀ v s, ¬ p.Returns M X d ts τ2 v s) → c = d ∧ us = ts ∧ τ1 = τ2 := by
    rintro f args σ τ1 τ2 x y c d us ts ⟨ps, b, P, hd, hl, hx⟩ ex nx ⟨ps', b', P', hd', hl', hy⟩ ey ny
    obtain ⟨rfl, rfl, rfl⟩ := defines_unique hd hd'
    have no : ∀ u, ¬ BStep M (p.Returns M X) P b x u := by
      intro u hu
      obtain ⟨w, s', hr⟩ := bstep_enters hR (fun _ _ _ _ _ h => h) hu ex
      exact nx _ _ hr
    have no' : ∀ u, ¬ BStep M (p.Returns M X) P b y u := by
      intro u hu
      obtain ⟨w, s', hr⟩ := bstep_enters hR (fun _ _ _ _ _ h => h) hu ey
      exact ny _ _ hr
    have e := bends_eq hR hx hy no no'
    subst e
    exact state_enters_det hR nx ny ex ey
  induction h1 with
  | own g1 e1 =>
    cases h2 with
    | own g2 e2 => exact same g1 e1 ha g2 e2 hb
    | step g2 e2 c2 =>
      obtain ⟨ps, d, hm⟩ := c2.defined
      exact absurd (same g1 e1 ha g2 e2 (makes_blocks hp c2.makes hb)).1 (ea _ _ _ hm)
  | step g1 e1 c1 ih =>
    have n1 := makes_blocks hp c1.makes ha
    obtain ⟨ps, d, hm⟩ := c1.defined
    cases h2 with
    | own g2 e2 => exact absurd (same g1 e1 n1 g2 e2 hb).1.symm (eb _ _ _ hm)
    | step g2 e2 c2 =>
      obtain ⟨ps', d', hm'⟩ := c2.defined
      obtain ⟨q1, rfl, rfl⟩ := same g1 e1 n1 g2 e2 (makes_blocks hp c2.makes hb)
      have q2 := hp.apart _ _ _ _ _ _ hm hm' q1
      subst q2
      exact ih ha ea c2

/-- A program that gets to such a call does not go wrong. -/
theorem chain_right {p : Program} {M : BMachine} {X : Calls M.World} (hp : p.Placed M X) {f : Ident} {args : List Word} {σ σ' : Store M.World}
    {a : Word} {vs : List Word} (h : Chain p M X f args σ a vs σ') (ha : ∀ v s, ¬ p.Returns M X a vs σ' v s)
    (ea : ∀ g ps d, Decl.func g ps d ∈ p → a ≠ M.global g) : ¬ p.Wrong M X f args σ := by
  have hR := C65_unique hp
  have key : ∀ {f : Ident} {args : List Word} {σ τ : Store M.World} {x : BState M.World} {c : Word} {us : List Word},
      p.Gets M X f args σ x → x.Enters M (p.Returns M X) c us τ → (∀ v s, ¬ p.Returns M X c us τ v s) → p.Wrong M X f args σ →
      ∃ g, c = M.global g ∧ p.Wrong M X g us τ := by
    rintro f args σ τ x c us ⟨ps, b, P, hd, hl, hx⟩ ex nx hw
    have no : ∀ u, ¬ BStep M (p.Returns M X) P b x u := by
      intro u hu
      obtain ⟨w, s', hr⟩ := bstep_enters hR (fun _ _ _ _ _ h => h) hu ex
      exact nx _ _ hr
    cases hw with
    | few hd' hl' =>
      obtain ⟨rfl, rfl, rfl⟩ := defines_unique hd hd'
      omega
    | stuck hd' hl' hy hst =>
      obtain ⟨rfl, rfl, rfl⟩ := defines_unique hd hd'
      have e := bends_eq hR hx hy no hst.2.1
      subst e
      obtain ⟨v, s, hr⟩ := hst.2.2 _ _ _ ex
      exact absurd hr (nx v s)
    | @inner _ _ _ y g ws τ' hg he hw' =>
      obtain ⟨ps', b', P', hd', hl', hy⟩ := hg
      obtain ⟨rfl, rfl, rfl⟩ := defines_unique hd hd'
      have ny : ∀ v s, ¬ p.Returns M X (M.global g) ws τ' v s := fun v s hr => C65_returns_right hp hr hw'
      have no' : ∀ u, ¬ BStep M (p.Returns M X) P b y u := by
        intro u hu
        obtain ⟨w, s', hr⟩ := bstep_enters hR (fun _ _ _ _ _ h => h) hu he
        exact ny _ _ hr
      have e := bends_eq hR hx hy no no'
      subst e
      obtain ⟨rfl, rfl, rfl⟩ := state_enters_det hR nx ny ex he
      exact ⟨_, rfl, hw'⟩
  induction h with
  | own g1 e1 =>
    intro hw
    obtain ⟨g, e, hw'⟩ := key g1 e1 ha hw
    obtain ⟨ps, b, hm⟩ := wrong_defined hw'
    exact ea _ _ _ hm e
  | step g1 e1 c1 ih =>
    intro hw
    obtain ⟨g, e, hw'⟩ := key g1 e1 (makes_blocks hp c1.makes ha) hw
    obtain ⟨ps, b, hm⟩ := wrong_defined hw'
    obtain ⟨ps', b', hm'⟩ := c1.defined
    cases hp.apart _ _ _ _ _ _ hm' hm e
    exact ih ha ea hw'

/-! ### C71 -/

/-- C71. The process that runs the compiled program, linked with the library, comes to an end exactly as the program prescribes, with the
same status, output, input consumed and memory: when `main` returns or `exit` is called. -/
theorem C71_process {text : List Char} {p : Program} {m : Module} (h : TreeOf text p m) (ht : p.Tame) {C : Computer} (L : Library)
    (hk : Module.Links m C.addr) {ps : List Ident} {body : St} (hf : Decl.func "main".toList ps body ∈ p) {σ : Store C.machine.World}
    (hw : ¬ p.Wrong C.machine.toB (C.calls L.Runs) "main".toList [] σ) (status : Word) (σ' : Store C.machine.World) :
    Module.Ends m C.machine (C.calls L.Runs) σ status σ' ↔ p.Ends C.machine.toB (C.calls L.Runs) σ status σ' := by
  have hl : Loaded m C.machine (C.calls L.Runs) := loaded_of_links hk
  unfold Module.Ends Program.Ends
  rw [C65_exact_results h ht hl hf hw]
  simp only [C66_exact_calls h ht hl hf hw]

/-- C71. The library does what it is documented to do, so the process does what the program prescribes if library functions are taken to be
as documented. -/
theorem C71_documented {text : List Char} {p : Program} {m : Module} (h : TreeOf text p m) (ht : p.Tame) {C : Computer} (L : Library)
    (hk : Module.Links m C.addr) {ps : List Ident} {body : St} (hf : Decl.func "main".toList ps body ∈ p) {σ : Store C.machine.World}
    (hw : ¬ p.Wrong C.machine.toB (C.calls L.Runs) "main".toList [] σ) {status : Word} {σ' : Store C.machine.World}
    (he : Module.Ends m C.machine (C.calls L.Runs) σ status σ') :
    p.Ends C.machine.toB (C.calls (Documented L.signedChar)) σ status σ' :=
  ends_mono (fun _ _ _ _ _ h => calls_documented h) ((C71_process h ht L hk hf hw status σ').1 he)

/-- C71. The same at every moment of a run, whether it comes to an end or not: what the process has written, read and stored whenever it calls a
function is what the program prescribes. -/
theorem C71_meanwhile {text : List Char} {p : Program} {m : Module} (h : TreeOf text p m) (ht : p.Tame) {C : Computer} (L : Library)
    (hk : Module.Links m C.addr) {ps : List Ident} {body : St} (hf : Decl.func "main".toList ps body ∈ p) {σ : Store C.machine.World}
    (hw : ¬ p.Wrong C.machine.toB (C.calls L.Runs) "main".toList [] σ) {a : Word} {vs : List Word} {σ' : Store C.machine.World}
    (he : Module.Makes m C.machine (C.calls L.Runs) (C.addr (symbolOf "main".toList)) [] σ a vs σ') :
    p.Makes C.machine.toB (C.calls (Documented L.signedChar)) "main".toList [] σ a vs σ' :=
  makes_mono (fun _ _ _ _ _ h => calls_documented h) ((C66_exact_calls h ht (loaded_of_links hk) hf hw a vs σ').1 he)

/-- `exit` is not a function of the program, nor does it return -/
theorem exit_outside {text : List Char} {p : Program} {m : Module} (h : TreeOf text p m) {C : Computer} (L : Library) (hk : Module.Links m C.addr) :
    (∀ g ps d, Decl.func g ps d ∈ p → C.machine.toB.global "exit".toList ≠ C.machine.toB.global g) ∧
    ∀ vs s v s', ¬ p.Returns C.machine.toB (C.calls L.Runs) (C.machine.toB.global "exit".toList) vs s v s' := by
  have out : ∀ g ps d, Decl.func g ps d ∈ p → C.machine.toB.global "exit".toList ≠ C.machine.toB.global g := by
    intro g ps d hm e
    obtain ⟨c, hb, rfl⟩ := tree_between h
    have hn := reads_names h.1
    obtain ⟨ps', b', P, hd⟩ := defines_exists p ⟨ps, d, hm⟩
    obtain ⟨E, c1, ss, F, hK, hI, ⟨r⟩, hF, hs, rfl, hT, hnf⟩ := hb.defines hn hd
    have hok := (hn _ (defines_mem hd)).2
    exact hk.exit.1 F hF (r.ne hok.1 hok.2) (by rw [hs]; exact e.symm)
  refine ⟨out, ?_⟩
  rintro vs s v s' ⟨n, hn⟩
  have ext : ∀ vs s v s', ¬ C.calls L.Runs (C.machine.toB.global "exit".toList) vs s v s' := by
    rintro vs s v s' ⟨g, e, _⟩
    exact hk.exit.2 g e
  cases n with
  | zero => exact ext _ _ _ _ hn
  | succ n =>
    rcases hn with hn | ⟨g, ps, b, P, hd, e, _⟩
    · exact ext _ _ _ _ hn
    · exact out g ps b (defines_mem hd) e

/-- C71. A process ends in one way at most. -/
theorem C71_unique {text : List Char} {p : Program} {m : Module} (h : TreeOf text p m) (ht : p.Tame) {C : Computer} (L : Library)
    (hk : Module.Links m C.addr) {ps : List Ident} {body : St} (hf : Decl.func "main".toList ps body ∈ p) {σ : Store C.machine.World}
    (hw : ¬ p.Wrong C.machine.toB (C.calls L.Runs) "main".toList [] σ) {v1 v2 : Word} {σ1 σ2 : Store C.machine.World}
    (h1 : Module.Ends m C.machine (C.calls L.Runs) σ v1 σ1) (h2 : Module.Ends m C.machine (C.calls L.Runs) σ v2 σ2) : v1 = v2 ∧ σ1 = σ2 := by
  have hl : Loaded m C.machine (C.calls L.Runs) := loaded_of_links hk
  have hp := placed_of_loaded h ht hl
  obtain ⟨out, no⟩ := exit_outside h L hk
  rcases (C71_process h ht L hk hf hw v1 σ1).1 h1 with r1 | ⟨rfl, vs1, m1⟩
  · rcases (C71_process h ht L hk hf hw v2 σ2).1 h2 with r2 | ⟨rfl, vs2, m2⟩
    · exact C65_unique hp _ _ _ _ _ _ _ r1 r2
    · exact absurd r1 (makes_blocks hp m2 (no _ _) _ _)
  · rcases (C71_process h ht L hk hf hw v2 σ2).1 h2 with r2 | ⟨rfl, vs2, m2⟩
    · exact absurd r2 (makes_blocks hp m1 (no _ _) _ _)
    · exact ⟨rfl, (last_call hp (chain_of_makes m1) (no _ _) out (chain_of_makes m2) (no _ _) out).2.2⟩

/-- C71. If the program prescribes an end, the process ends that way and in no other. -/
theorem C71_prescribed {text : List Char} {p : Program} {m : Module} (h : TreeOf text p m) (ht : p.Tame) {C : Computer} (L : Library)
    (hk : Module.Links m C.addr) {ps : List Ident} {body : St} (hf : Decl.func "main".toList ps body ∈ p) {σ σ' : Store C.machine.World}
    {status : Word} (he : p.Ends C.machine.toB (C.calls L.Runs) σ status σ') (v : Word) (σ1 : Store C.machine.World) :
    Module.Ends m C.machine (C.calls L.Runs) σ v σ1 ↔ v = status ∧ σ1 = σ' := by
  have hp := placed_of_loaded h ht (loaded_of_links (L := L) hk)
  obtain ⟨out, no⟩ := exit_outside h L hk
  have hw : ¬ p.Wrong C.machine.toB (C.calls L.Runs) "main".toList [] σ := by
    rcases he with h1 | ⟨_, vs, h2⟩
    · exact C65_returns_right hp h1
    · exact chain_right hp (chain_of_makes h2) (no _ _) out
  have hend := (C71_process h ht L hk hf hw status σ').2 he
  exact ⟨fun h' => C71_unique h ht L hk hf hw h' hend, fun ⟨h1, h2⟩ => by rw [h1, h2]; exact hend⟩

/-- C71. Each function of the library does what it is documented to do, ... -/
theorem C71_library {L : Library} {f : LibFn} {args : List Word} {s s' : RTState} {v : Word} (h : L.Runs f args s v s') :
    Documented L.signedChar f args s v s' := library_documented h

/-- ... and returns, if it is called with enough arguments and, for `printf`, the format and the strings to be printed have an end. -/
theorem C71_library_returns (L : Library) (f : LibFn) (args : List Word) (s : RTState) (hn : f.arity ≤ args.length)
    (hp : f = .printf → ∃ fmt as g out, args = fmt :: as ∧ StrAt s.mem fmt g ∧ Printed L.signedChar (StrAt s.mem) g as out) :
    ∃ v s', L.Runs f args s v s' := library_returns L f args s hn hp

end Blang.Props
