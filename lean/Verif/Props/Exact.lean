import Verif.Proofs.DetB
import Verif.Proofs.Origin
import Verif.Proofs.Owns
import Verif.Props.Endless
import Verif.Props.Files
/-
Properties C65 and C66: the module does nothing that the program does not prescribe, provided that the program
does not go wrong.
-/
namespace Blang.Props
open Blang Blang.Spec

/-- an address at which the module has code is that of a function of the program -/
theorem code_origin {p : Program} {c : CState} (h : Between p newCompiler c) (hn : ∀ d ∈ p, d.All NameOk) {F : Func} (hF : F ∈ c.funcs)
    (hb : F.blocks ≠ []) : ∃ g ps b P, F.sym = symbolOf g ∧ p.Defines g ps b P := by
  rcases h.origin [] .init hn hF hb with h0 | ⟨g, ps, b, hm, hs⟩
  · cases h0
  · obtain ⟨ps', b', P, hd⟩ := defines_exists p ⟨ps, b, hm⟩
    exact ⟨g, ps', b', P, hs.sym, hd⟩

/-- what a function that does not go wrong returns in the module, it returns in the program -/
theorem returns_only {p : Program} {c : CState} (hb : Between p newCompiler c) (hn : ∀ d ∈ p, d.All NameOk) (ht : p.Tame) {M : IRMachine}
    {X : Calls M.World} (hl : Loaded ⟨c.globals, c.funcs⟩ M X) : ∀ n f args σ v σ' ps body P, p.Defines f ps body P →
    ¬ p.Wrong M.toB X f args σ → Module.Call ⟨c.globals, c.funcs⟩ M X n (M.addr (symbolOf f)) args σ v σ' →
    p.Returns M.toB X (M.addr (symbolOf f)) args σ v σ' := by
  have hfun := module_returns_functional hb hn hl
  have hret := returns_sim hb hn ht (M := M) (X := X)
  have sub : ∀ k, ∀ a vs s v s', Module.Call ⟨c.globals, c.funcs⟩ M X k a vs s v s' →
      Module.Returns ⟨c.globals, c.funcs⟩ M X a vs s v s' := fun k a vs s v s' h => ⟨k, h⟩
  intro n
  induction n with
  | zero =>
    intro f args σ v σ' ps body P hdef hw hc
    exact ⟨0, hc⟩
  | succ n ih =>
    intro f args σ v σ' ps body P hdef hw hc
    have hlen : ps.length ≤ args.length := by
      apply Nat.le_of_not_lt
      intro hlt
      exact hw (.few hdef hlt)
    obtain ⟨F, Ei, fin, g0, k⟩ := funCode hb hn ht (p.Returns M.toB X) σ hdef hlen
    rcases hc with hc | ⟨F', f1, f2, f3, f4⟩
    · exact ⟨0, hc⟩
    rw [← k.sym] at f3
    have e := same_func hb hn k.mem f1 (hl.apart F k.mem F' f1 k.ne f2 f3)
    subst e
    obtain ⟨g1, q1, q2, rfl⟩ := f4
    rcases end_or_endless (S := BStep M.toB (p.Returns M.toB X) P body) (T := BSteps M.toB (p.Returns M.toB X) P body)
      (fun _ => .refl) (fun h1 h2 => .head h1 h2) (.entry M.toB P ps body args σ) with ⟨x, hx, hend⟩ | ⟨xs, hx0, hx⟩
    · by_cases hd : ∃ w σ1, x = .done w σ1
      · obtain ⟨w, σ1, rfl⟩ := hd
        obtain ⟨g2, r1, r2, rfl⟩ := k.gets hx
        rw [k.blocks] at r2
        have e := steps_det hfun (steps_mono (sub n) q1) (steps_mono hret r1) q2 r2
        subst e
        rw [returns_det q2 r2]
        exact returns_of_done hdef hlen hx
      · exfalso
        apply hw
        refine .stuck hdef hlen hx ⟨fun w σ1 e => hd ⟨w, σ1, e⟩, hend, fun a vs σ1 he => ?_⟩
        have hg : p.Gets M.toB X f args σ x := ⟨ps, body, P, hdef, hlen, hx⟩
        obtain ⟨F2, m1, m2, m3, g2, rfl, r1, r2⟩ := enters_run hb hn ht hg he
        have e := same_func hb hn k.mem m1 (k.sym.trans m2.symm)
        subst e
        have r3 := ends_through hfun (sub n) r1 q1 q2
        cases r3 with
        | refl => exact absurd q2 (calling_not_returns r2)
        | head s1 _ =>
          obtain ⟨w, σ2, hw'⟩ := calling_step r2 s1
          cases n with
          | zero => exact ⟨w, σ2, 0, hw'⟩
          | succ n =>
            rcases hw' with hw' | ⟨F3, t1, t2, t3, t4⟩
            · exact ⟨w, σ2, 0, hw'⟩
            · obtain ⟨g, ps', b', P', o1, o2⟩ := code_origin hb hn t1 t2
              subst t3
              have ho : M.addr F3.sym = M.addr (symbolOf g) := by rw [o1]
              have hc3 : Module.Call ⟨c.globals, c.funcs⟩ M X (n + 1) (M.addr (symbolOf g)) vs g2.st w σ2 := .inr ⟨F3, t1, t2, ho.symm, t4⟩
              have hw3 : ¬ p.Wrong M.toB X g vs g2.st := fun h => hw (.inner hg (g := g) (by rw [ho] at he; exact he) h)
              have := ih g vs g2.st w σ2 ps' b' P' o2 hw3 hc3
              exact ⟨w, σ2, by rw [ho]; exact this⟩
    · obtain ⟨cs, cs', c0, c0', hG⟩ := k.hbody
      obtain ⟨N, hN⟩ := ends_not_long hfun (steps_mono (sub n) q1) q2
      exfalso
      apply hN
      have hlong := endless_long k.apart hG hx N _ 0 g0 (Nat.le_refl _) (by rw [hx0]; exact k.hm)
      rw [k.blocks] at hlong
      exact Long.mono hret (.before k.start hlong)

/-- C65. A function that does not go wrong returns in the module exactly what the program prescribes: the same
values and stores, and none if the program prescribes none. -/
theorem C65_exact_results {text : List Char} {p : Program} {m : Module} (h : TreeOf text p m) (ht : p.Tame) {M : IRMachine}
    {X : Calls M.World} (hl : Loaded m M X) {f : Ident} {ps : List Ident} {body : St} (hf : Decl.func f ps body ∈ p) {args : List Word}
    {σ : Store M.World} (hw : ¬ p.Wrong M.toB X f args σ) (v : Word) (σ' : Store M.World) :
    Module.Returns m M X (M.addr (symbolOf f)) args σ v σ' ↔ p.Returns M.toB X (M.toB.global f) args σ v σ' := by
  have hn := reads_names h.1
  obtain ⟨c, hb, rfl⟩ := tree_between h
  constructor
  · rintro ⟨n, hc⟩
    obtain ⟨ps', b', P, hd⟩ := defines_exists p ⟨ps, body, hf⟩
    exact returns_only hb hn ht hl n f args σ v σ' ps' b' P hd hw hc
  · exact returns_sim hb hn ht _ _ _ _ _

/-- C65. What can become of a call: every function of a program, called with any arguments in any store, goes wrong, or returns, or does not
come to an end, or makes a call of something that is no function of the program and does not return. -/
theorem C65_outcomes (p : Program) (M : BMachine) (X : Calls M.World) {f : Ident} {ps : List Ident} {body : St} (hf : Decl.func f ps body ∈ p)
    (args : List Word) (σ : Store M.World) :
    p.Wrong M X f args σ ∨ (∃ v σ', p.Returns M X (M.global f) args σ v σ') ∨ p.RunsForever M X f args σ ∨
      ∃ a vs σ', p.Makes M X f args σ a vs σ' ∧ (∀ g ps body, Decl.func g ps body ∈ p → a ≠ M.global g) ∧ ∀ v σ2, ¬ X a vs σ' v σ2 := by
  apply Classical.byContradiction
  intro hno
  have hw : ¬ p.Wrong M X f args σ := fun h => hno (.inl h)
  have hr : ∀ v σ', ¬ p.Returns M X (M.global f) args σ v σ' := fun v σ' h => hno (.inr (.inl ⟨v, σ', h⟩))
  have ho : ¬ ∃ a vs σ', p.Makes M X f args σ a vs σ' ∧ (∀ g ps body, Decl.func g ps body ∈ p → a ≠ M.global g) ∧ ∀ v σ2, ¬ X a vs σ' v σ2 :=
    fun h => hno (.inr (.inr (.inr h)))
  refine hno (.inr (.inr (.inl ⟨fun f args σ => (∃ ps body, Decl.func f ps body ∈ p) ∧ ¬ p.Wrong M X f args σ ∧
    (∀ v σ', ¬ p.Returns M X (M.global f) args σ v σ') ∧ ¬ ∃ a vs σ', p.Makes M X f args σ a vs σ' ∧
      (∀ g ps body, Decl.func g ps body ∈ p → a ≠ M.global g) ∧ ∀ v σ2, ¬ X a vs σ' v σ2, ⟨⟨ps, body, hf⟩, hw, hr, ho⟩, ?_⟩)))
  rintro f args σ ⟨hf, hw, hr, ho⟩
  obtain ⟨ps, body, P, hdef⟩ := defines_exists p hf
  have hlen : ps.length ≤ args.length := by
    apply Nat.le_of_not_lt
    intro hlt
    exact hw (.few hdef hlt)
  rcases end_or_endless (S := BStep M (p.Returns M X) P body) (T := BSteps M (p.Returns M X) P body)
      (fun _ => .refl) (fun h1 h2 => .head h1 h2) (.entry M P ps body args σ) with ⟨x, hx, hend⟩ | h
  · by_cases hd : ∃ w σ1, x = .done w σ1
    · obtain ⟨w, σ1, rfl⟩ := hd
      exact absurd (returns_of_done hdef hlen hx) (hr _ _)
    · have hg : p.Gets M X f args σ x := ⟨ps, body, P, hdef, hlen, hx⟩
      have : ∃ a vs s, x.Enters M (p.Returns M X) a vs s ∧ ∀ v s', ¬ p.Returns M X a vs s v s' := by
        apply Classical.byContradiction
        intro hno
        refine hw (.stuck hdef hlen hx ⟨fun w σ1 e => hd ⟨w, σ1, e⟩, hend, fun b ws s he => ?_⟩)
        apply Classical.byContradiction
        intro hr
        exact hno ⟨b, ws, s, he, fun v s' h => hr ⟨v, s', h⟩⟩
      obtain ⟨a, vs, s, he, hnr⟩ := this
      have : ∃ g ps body, Decl.func g ps body ∈ p ∧ a = M.global g := by
        apply Classical.byContradiction
        intro hno
        exact ho ⟨a, vs, s, .own hg he, fun g ps body h1 h2 => hno ⟨g, ps, body, h1, h2⟩, fun v s' h => hnr v s' ⟨0, h⟩⟩
      obtain ⟨g, ps', body', h1, rfl⟩ := this
      refine .inr ⟨x, g, vs, s, hg, he, ⟨ps', body', h1⟩, fun h => hw (.inner hg he h), hnr, ?_⟩
      rintro ⟨b, ws, s', h2, h3⟩
      exact ho ⟨b, ws, s', .inner (.own hg he) h2, h3⟩
  · exact .inl ⟨ps, body, P, hdef, hlen, h⟩

theorem done_end {M : BMachine} {R : Calls M.World} {P : Place} {body : St} {v : Word} {σ : Store M.World} {y : BState M.World}
    (h : BStep M R P body (.done v σ) y) : False := by cases h

theorem defines_mem {p : Program} {f : Ident} {ps : List Ident} {b : St} {P : Place} (h : p.Defines f ps b P) : Decl.func f ps b ∈ p := by
  obtain ⟨pre, post, e, _⟩ := h
  rw [e]; simp

/-- C65. What a call returns, as the program prescribes, is unique. -/
theorem C65_unique {p : Program} {M : BMachine} {X : Calls M.World} (h : p.Placed M X) : Functional (p.Returns M X) := by
  have key : ∀ n, Functional (p.Call M X n) := by
    intro n
    induction n with
    | zero => exact h.functional
    | succ n ih =>
      intro a vs s v1 s1 v2 s2 h1 h2
      rcases h1 with h1 | ⟨f, ps, b, P, f1, rfl, f3, σ1, f4, rfl⟩
      · rcases h2 with h2 | ⟨g, qs, d, Q, g1, rfl, g3, σ2, g4, rfl⟩
        · exact h.functional _ _ _ _ _ _ _ h1 h2
        · exact absurd h1 (h.external g qs d (defines_mem g1) _ _ _ _)
      · rcases h2 with h2 | ⟨g, qs, d, Q, g1, g2, g3, σ2, g4, rfl⟩
        · exact absurd h2 (h.external f ps b (defines_mem f1) _ _ _ _)
        · have e := h.apart f ps b g qs d (defines_mem f1) (defines_mem g1) g2
          subst e
          obtain ⟨rfl, rfl, rfl⟩ := defines_unique f1 g1
          have := bends_eq ih f4 g4 (fun _ h => done_end h) (fun _ h => done_end h)
          cases this
          exact ⟨rfl, rfl⟩
  intro a vs s v1 s1 v2 s2 ⟨n, h1⟩ ⟨k, h2⟩
  exact key (max n k) _ _ _ _ _ _ _ (programCall_le (Nat.le_max_left n k) h1) (programCall_le (Nat.le_max_right n k) h2)

theorem wrong_defined {p : Program} {M : BMachine} {X : Calls M.World} {f : Ident} {args : List Word} {σ : Store M.World}
    (h : p.Wrong M X f args σ) : ∃ ps b, Decl.func f ps b ∈ p := by
  cases h with
  | few hd _ => exact ⟨_, _, defines_mem hd⟩
  | stuck hd _ _ _ => exact ⟨_, _, defines_mem hd⟩
  | inner hg _ _ =>
    obtain ⟨ps, b, P, hd, _⟩ := hg
    exact ⟨_, _, defines_mem hd⟩

/-- a call that returns is a run of the function to its end -/
theorem call_run {p : Program} {M : BMachine} {X : Calls M.World} (hp : p.Placed M X) {n : Nat} {f : Ident} {args : List Word}
    {σ σ' : Store M.World} {v : Word} {ps : List Ident} {b : St} (hf : Decl.func f ps b ∈ p) (h : p.Call M X n (M.global f) args σ v σ') :
    ∃ k ps body P σ1, n = k + 1 ∧ p.Defines f ps body P ∧ ps.length ≤ args.length ∧
      BSteps M (p.Call M X k) P body (.entry M P ps body args σ) (.done v σ1) := by
  cases n with
  | zero => exact absurd h (hp.external f ps b hf _ _ _ _)
  | succ n =>
    rcases h with h | ⟨f', ps', b', P', h1, h2, h3, σ1, h4, h5⟩
    · exact absurd h (hp.external f ps b hf _ _ _ _)
    · have e := hp.apart f ps b f' ps' b' hf (defines_mem h1) h2
      subst e
      exact ⟨n, ps', b', P', σ1, rfl, h1, h3, h4⟩

/-- C65. A call that returns does not go wrong. -/
theorem C65_returns_right {p : Program} {M : BMachine} {X : Calls M.World} (hp : p.Placed M X) {f : Ident} {args : List Word}
    {σ σ' : Store M.World} {v : Word} (h : p.Returns M X (M.global f) args σ v σ') : ¬ p.Wrong M X f args σ := by
  have hR := C65_unique hp
  have sub : ∀ k, ∀ a vs s v s', p.Call M X k a vs s v s' → p.Returns M X a vs s v s' := fun k a vs s v s' h => ⟨k, h⟩
  obtain ⟨n, h⟩ := h
  revert f args σ v σ'
  induction n with
  | zero =>
    intro f args σ σ' v h hw
    obtain ⟨ps, b, hf⟩ := wrong_defined hw
    exact hp.external f ps b hf _ _ _ _ h
  | succ n ih =>
    intro f args σ σ' v h hw
    obtain ⟨ps, b, hf⟩ := wrong_defined hw
    obtain ⟨k, ps, body, P, σ1, e, hd, hl, hs⟩ := call_run hp hf h
    cases e
    have through : ∀ x, BSteps M (p.Returns M X) P body (.entry M P ps body args σ) x → BSteps M (p.Call M X n) P body x (.done v σ1) :=
      fun x hx => bsteps_through hR (sub n) (fun _ h => done_end h) hx hs
    cases hw with
    | few hd' hl' =>
      obtain ⟨rfl, rfl, rfl⟩ := defines_unique hd hd'
      omega
    | stuck hd' hl' hx hst =>
      obtain ⟨rfl, rfl, rfl⟩ := defines_unique hd hd'
      cases through _ hx with
      | refl => exact hst.1 _ _ rfl
      | head h1 _ => exact hst.2.1 _ (bstep_mono (sub n) h1)
    | inner hg he hw' =>
      obtain ⟨ps', b', P', hd', hl', hx⟩ := hg
      obtain ⟨rfl, rfl, rfl⟩ := defines_unique hd hd'
      cases through _ hx with
      | refl => obtain ⟨_, _, _, _, _, _, e, _⟩ := he; cases e
      | head h1 _ =>
        obtain ⟨w, s', hr⟩ := bstep_enters hR (sub n) h1 he
        exact ih hr hw'

/-- C65. A call that does not come to an end does not return and does not go wrong. -/
theorem C65_forever_right {p : Program} {M : BMachine} {X : Calls M.World} (hp : p.Placed M X) {f : Ident} {args : List Word}
    {σ : Store M.World} (h : p.RunsForever M X f args σ) :
    (∀ v σ', ¬ p.Returns M X (M.global f) args σ v σ') ∧ ¬ p.Wrong M X f args σ := by
  have hR := C65_unique hp
  have sub : ∀ k, ∀ a vs s v s', p.Call M X k a vs s v s' → p.Returns M X a vs s v s' := fun k a vs s v s' h => ⟨k, h⟩
  obtain ⟨D, h0, hD⟩ := h
  have hdef : ∀ f args σ, D f args σ → ∃ ps b, Decl.func f ps b ∈ p := by
    intro f args σ h
    rcases hD f args σ h with ⟨ps, b, P, hd, _⟩ | ⟨_, _, _, _, ⟨ps, b, P, hd, _⟩, _⟩
    · exact ⟨ps, b, defines_mem hd⟩
    · exact ⟨ps, b, defines_mem hd⟩
  have nr : ∀ n f args σ, D f args σ → ∀ v σ', ¬ p.Call M X n (M.global f) args σ v σ' := by
    intro n
    induction n with
    | zero =>
      intro f args σ h v σ' hc
      obtain ⟨ps, b, hf⟩ := hdef f args σ h
      exact hp.external f ps b hf _ _ _ _ hc
    | succ n ih =>
      intro f args σ h v σ' hc
      obtain ⟨_, _, hf⟩ := hdef f args σ h
      obtain ⟨k, ps, body, P, σ1, e, hd, hl, hs⟩ := call_run hp hf hc
      cases e
      rcases hD f args σ h with ⟨ps', b', P', hd', hl', xs, hx0, hx⟩ | ⟨x, g, ws, σ2, ⟨ps', b', P', hd', hl', hx⟩, he, hg⟩
      · obtain ⟨rfl, rfl, rfl⟩ := defines_unique hd hd'
        obtain ⟨j, hj⟩ := on_endless hR (bsteps_mono (sub n) hs) hx 0 hx0.symm
        have := hx j
        rw [← hj] at this
        exact done_end this
      · obtain ⟨rfl, rfl, rfl⟩ := defines_unique hd hd'
        cases bsteps_through hR (sub n) (fun _ h => done_end h) hx hs with
        | refl => obtain ⟨_, _, _, _, _, _, e, _⟩ := he; cases e
        | head h1 _ =>
          obtain ⟨w, s', hr⟩ := bstep_enters hR (sub n) h1 he
          exact ih g ws σ2 hg w s' hr
  have nr' : ∀ f args σ, D f args σ → ∀ v σ', ¬ p.Returns M X (M.global f) args σ v σ' := fun f args σ h v σ' ⟨n, hn⟩ => nr n f args σ h v σ' hn
  refine ⟨nr' f args σ h0, fun hw => ?_⟩
  clear hdef nr
  revert h0
  induction hw with
  | few hd hl =>
    intro h0
    rcases hD _ _ _ h0 with ⟨ps', b', P', hd', hl', _⟩ | ⟨_, _, _, _, ⟨ps', b', P', hd', hl', _⟩, _⟩
    · obtain ⟨rfl, rfl, rfl⟩ := defines_unique hd hd'
      omega
    · obtain ⟨rfl, rfl, rfl⟩ := defines_unique hd hd'
      omega
  | @stuck f args σ ps body P x hd hl hx hst =>
    intro h0
    rcases hD _ _ _ h0 with ⟨ps', b', P', hd', hl', xs, hx0, hxs⟩ | ⟨x', g, ws, σ2, ⟨ps', b', P', hd', hl', hx'⟩, he, hg⟩
    · obtain ⟨rfl, rfl, rfl⟩ := defines_unique hd hd'
      obtain ⟨j, rfl⟩ := on_endless hR hx hxs 0 hx0.symm
      exact hst.2.1 _ (hxs j)
    · obtain ⟨rfl, rfl, rfl⟩ := defines_unique hd hd'
      have no : ∀ u, ¬ BStep M (p.Returns M X) P body x' u := by
        intro u hu
        obtain ⟨w, s', hr⟩ := bstep_enters hR (fun _ _ _ _ _ h => h) hu he
        exact nr' _ _ _ hg _ _ hr
      have e := bends_eq hR hx hx' hst.2.1 no
      subst e
      obtain ⟨w, s', hr⟩ := hst.2.2 _ _ _ he
      exact nr' _ _ _ hg _ _ hr
  | @inner f args σ x g ws σ1 hg he hw ih =>
    intro h0
    obtain ⟨ps, b, P, hd, hl, hx⟩ := hg
    have nret : ∀ v s', ¬ p.Returns M X (M.global g) ws σ1 v s' := fun v s' hr => C65_returns_right hp hr hw
    have no : ∀ u, ¬ BStep M (p.Returns M X) P b x u := by
      intro u hu
      obtain ⟨w, s', hr⟩ := bstep_enters hR (fun _ _ _ _ _ h => h) hu he
      exact nret _ _ hr
    rcases hD _ _ _ h0 with ⟨ps', b', P', hd', hl', xs, hx0, hxs⟩ | ⟨x', g', ws', σ2, ⟨ps', b', P', hd', hl', hx'⟩, he', hg'⟩
    · obtain ⟨rfl, rfl, rfl⟩ := defines_unique hd hd'
      obtain ⟨j, rfl⟩ := on_endless hR hx hxs 0 hx0.symm
      exact no _ (hxs j)
    · obtain ⟨rfl, rfl, rfl⟩ := defines_unique hd hd'
      have no' : ∀ u, ¬ BStep M (p.Returns M X) P b x' u := by
        intro u hu
        obtain ⟨w, s', hr⟩ := bstep_enters hR (fun _ _ _ _ _ h => h) hu he'
        exact nr' _ _ _ hg' _ _ hr
      have e := bends_eq hR hx hx' no no'
      subst e
      obtain ⟨e1, rfl, rfl⟩ := state_enters_det hR nret (nr' _ _ _ hg') he he'
      obtain ⟨qs, d, hgm⟩ := wrong_defined hw
      have hgm' : ∃ ps b, Decl.func g' ps b ∈ p := by
        rcases hD _ _ _ hg' with ⟨ps, b, P, hd, _⟩ | ⟨_, _, _, _, ⟨ps, b, P, hd, _⟩, _⟩
        · exact ⟨ps, b, defines_mem hd⟩
        · exact ⟨ps, b, defines_mem hd⟩
      obtain ⟨qs', d', hgm'⟩ := hgm'
      have e2 := hp.apart _ _ _ _ _ _ hgm hgm' e1
      subst e2
      exact ih hg'

/-- the functions of the program are apart if the module is loaded -/
theorem placed_between {p : Program} {c : CState} (hb : Between p newCompiler c) (hn : ∀ d ∈ p, d.All NameOk) {M : IRMachine} {X : Calls M.World}
    (hl : Loaded ⟨c.globals, c.funcs⟩ M X) : p.Placed M.toB X := by
  have code : ∀ f ps b, Decl.func f ps b ∈ p → ∃ F ∈ c.funcs, F.sym = symbolOf f ∧ F.blocks ≠ [] := by
    intro f ps b hf
    obtain ⟨ps', b', P, hd⟩ := defines_exists p ⟨ps, b, hf⟩
    obtain ⟨E, c1, ss, F, hK, hI, ⟨r⟩, hF, hs, rfl, hT, hnf⟩ := hb.defines hn hd
    refine ⟨F, hF, hs, ?_⟩
    have hok := (hn _ (defines_mem hd)).2
    exact r.ne hok.1 hok.2
  refine ⟨hl.functional, fun f ps b hf args σ v σ' hx => ?_, fun f ps b g qs d hf hg e => ?_⟩
  · obtain ⟨F, h1, h2, h3⟩ := code f ps b hf
    refine hl.external F h1 h3 args σ v σ' ?_
    rw [h2]; exact hx
  · obtain ⟨F, h1, h2, h3⟩ := code f ps b hf
    obtain ⟨G, k1, k2, k3⟩ := code g qs d hg
    have := hl.apart F h1 G k1 h3 k3 (by rw [h2, k2]; exact e)
    rw [h2, k2] at this
    exact globalName_inj this

/-- a program whose module is loaded properly is placed properly -/
theorem placed_of_loaded {text : List Char} {p : Program} {m : Module} (h : TreeOf text p m) (ht : p.Tame) {M : IRMachine} {X : Calls M.World}
    (hl : Loaded m M X) : p.Placed M.toB X := by
  have hn := reads_names h.1
  obtain ⟨c, hb, rfl⟩ := tree_between h
  exact placed_between hb hn hl

/-! ## C66 -/

/-- a function that makes a call that goes wrong goes wrong -/
theorem wrong_of_makes {p : Program} {M : BMachine} {X : Calls M.World} {f : Ident} {args : List Word} {σ : Store M.World} {a : Word}
    {ws : List Word} {σ1 : Store M.World} (h : p.Makes M X f args σ a ws σ1) :
    ∀ g, a = M.global g → p.Wrong M X g ws σ1 → p.Wrong M X f args σ := by
  induction h with
  | own hg he =>
    rintro g rfl hw
    exact .inner hg he hw
  | inner _ _ ih1 ih2 =>
    intro g e hw
    exact ih1 _ rfl (ih2 g e hw)

/-- a call that the code of a function itself makes is made by the function in the program -/
theorem own_only {p : Program} {c : CState} (hb : Between p newCompiler c) (hn : ∀ d ∈ p, d.All NameOk) (ht : p.Tame) {M : IRMachine}
    {X : Calls M.World} (hl : Loaded ⟨c.globals, c.funcs⟩ M X) {f : Ident} {args : List Word} {σ : Store M.World} {ps : List Ident} {body : St}
    {P : Place} (hdef : p.Defines f ps body P) (hw : ¬ p.Wrong M.toB X f args σ) {F : Func} (hF : F ∈ c.funcs) (hs : F.sym = symbolOf f)
    {g : Cfg M.World} (hg : IRSteps M (Module.Returns ⟨c.globals, c.funcs⟩ M X) F.blocks args (.start σ) g) {a : Word} {vs : List Word}
    (hc : g.Calling M F.blocks args a vs) : p.Makes M.toB X f args σ a vs g.st := by
  have hlen : ps.length ≤ args.length := by
    apply Nat.le_of_not_lt
    intro hlt
    exact hw (.few hdef hlt)
  -- calls other than this one
  let Q : Word → List Word → Store M.World → Prop := fun b ws s => b = a ∧ ws = vs ∧ s = g.st
  let RI : Calls M.World := fun b ws s v s' => Module.Returns ⟨c.globals, c.funcs⟩ M X b ws s v s' ∧ ¬ Q b ws s
  let RB : Calls M.World := fun b ws s v s' => p.Returns M.toB X b ws s v s' ∧ ¬ Q b ws s
  have orI : ∀ b ws s v s', Module.Returns ⟨c.globals, c.funcs⟩ M X b ws s v s' → RI b ws s v s' ∨ Q b ws s := by
    intro b ws s v s' h
    by_cases q : Q b ws s
    · exact .inr q
    · exact .inl ⟨h, q⟩
  have orB : ∀ b ws s v s', p.Returns M.toB X b ws s v s' → RB b ws s v s' ∨ Q b ws s := by
    intro b ws s v s' h
    by_cases q : Q b ws s
    · exact .inr q
    · exact .inl ⟨h, q⟩
  have subB : ∀ b ws s v s', RB b ws s v s' → p.Returns M.toB X b ws s v s' := fun b ws s v s' h => h.1
  have subI : ∀ b ws s v s', RB b ws s v s' → RI b ws s v s' := fun b ws s v s' h => ⟨returns_sim hb hn ht _ _ _ _ _ h.1, h.2⟩
  have hfun : Functional RI := by
    intro b ws s v1 s1 v2 s2 h1 h2
    exact module_returns_functional hb hn hl _ _ _ _ _ _ _ h1.1 h2.1
  -- the first time that it is made
  have first : ∃ g0, IRSteps M RI F.blocks args (.start σ) g0 ∧ g0.st = g.st ∧ g0.Calling M F.blocks args a vs := by
    rcases irsteps_first orI hg with h | ⟨b, ws, g1, h1, ⟨rfl, rfl, h2⟩, h3⟩
    · exact ⟨g, h, rfl, hc⟩
    · exact ⟨g1, h1, h2, h3⟩
  obtain ⟨g0, i1, i2, i3⟩ := first
  have i4 : AtEnd M RI F.blocks args g0 := by
    intro g' hs'
    obtain ⟨v, σ', _, hq⟩ := calling_step i3 hs'
    exact hq ⟨rfl, rfl, i2⟩
  obtain ⟨F', Ei, fin, g1, k⟩ := funCode hb hn ht RB σ hdef hlen
  have e := same_func hb hn hF k.mem (hs.trans k.sym.symm)
  subst e
  -- it is made in this state
  have found : ∀ x, BSteps M.toB RB P body (.entry M.toB P ps body args σ) x → x.Enters M.toB RB a vs g.st → p.Makes M.toB X f args σ a vs g.st :=
    fun x hx he => .own ⟨ps, body, P, hdef, hlen, bsteps_mono subB hx⟩ (state_mono subB he)
  rcases end_or_endless (S := BStep M.toB RB P body) (T := BSteps M.toB RB P body)
      (fun _ => .refl) (fun h1 h2 => .head h1 h2) (.entry M.toB P ps body args σ) with ⟨x, hx, hend⟩ | ⟨xs, hx0, hx⟩
  · by_cases hd : ∃ w σ1, x = .done w σ1
    · exfalso
      obtain ⟨w, σ1, rfl⟩ := hd
      obtain ⟨g2, r1, r2, rfl⟩ := k.gets hx
      rw [k.blocks] at r2
      have e := atEnd_eq hfun i1 (steps_mono subI r1) i4 fun g' h => returns_stuck r2 h
      subst e
      exact calling_not_returns i3 r2
    · by_cases hst : x.Stuck M.toB (p.Returns M.toB X) P body
      · exact absurd (.stuck hdef hlen (bsteps_mono subB hx) hst) hw
      · by_cases hstep : ∃ y, BStep M.toB (p.Returns M.toB X) P body x y
        · obtain ⟨y, hy⟩ := hstep
          rcases bstep_or orB hy with hy | ⟨b, ws, s, ⟨rfl, rfl, rfl⟩, he⟩
          · exact absurd hy (hend y)
          · exact found x hx he
        · have : ∃ b ws s, x.Enters M.toB (p.Returns M.toB X) b ws s ∧ ∀ v s', ¬ p.Returns M.toB X b ws s v s' := by
            apply Classical.byContradiction
            intro hno
            apply hst
            refine ⟨fun w σ1 e => hd ⟨w, σ1, e⟩, fun y hy => hstep ⟨y, hy⟩, fun b ws s he => ?_⟩
            apply Classical.byContradiction
            intro hr
            exact hno ⟨b, ws, s, he, fun v s' h => hr ⟨v, s', h⟩⟩
          obtain ⟨b, ws, s, he, hr⟩ := this
          rcases state_or orB he with he' | ⟨b, ws, s, ⟨rfl, rfl, rfl⟩, he'⟩
          · obtain ⟨g2, r1, r2⟩ := k.gets hx
            obtain ⟨g3, t1, rfl, t3⟩ := state_enters k.apart he' r2
            rw [k.blocks] at t1 t3
            have i5 : AtEnd M RI F.blocks args g3 := by
              intro g' hs'
              obtain ⟨v, σ', ⟨n, hc'⟩, _⟩ := calling_step t3 hs'
              cases n with
              | zero => exact hr v σ' ⟨0, hc'⟩
              | succ n =>
                rcases hc' with hc' | ⟨F3, u1, u2, u3, u4⟩
                · exact hr v σ' ⟨0, hc'⟩
                · obtain ⟨f3, ps', b', P', o1, o2⟩ := code_origin hb hn u1 u2
                  subst u3
                  have ho : M.addr F3.sym = M.addr (symbolOf f3) := by rw [o1]
                  have hc3 : Module.Call ⟨c.globals, c.funcs⟩ M X (n + 1) (M.addr (symbolOf f3)) ws g3.st v σ' := .inr ⟨F3, u1, u2, ho.symm, u4⟩
                  have hw3 : ¬ p.Wrong M.toB X f3 ws g3.st := fun h =>
                    hw (.inner ⟨ps, body, P, hdef, hlen, bsteps_mono subB hx⟩ (g := f3) (by rw [ho] at he; exact he) h)
                  have := returns_only hb hn ht hl _ f3 ws g3.st v σ' ps' b' P' o2 hw3 hc3
                  rw [ho] at hr
                  exact hr v σ' this
            have e := atEnd_eq hfun i1 (steps_trans (steps_mono subI r1) (steps_mono subI t1)) i4 i5
            subst e
            obtain ⟨rfl, rfl⟩ := calling_eq i3 t3
            rw [← i2]
            exact .own ⟨ps, body, P, hdef, hlen, bsteps_mono subB hx⟩ he
          · exact found x hx he'
  · exfalso
    obtain ⟨cs, cs', c0, c0', hG⟩ := k.hbody
    obtain ⟨N, hN⟩ := atEnd_not_long hfun i1 i4
    apply hN
    have hlong := endless_long k.apart hG hx N _ 0 g1 (Nat.le_refl _) (by rw [hx0]; exact k.hm)
    rw [k.blocks] at hlong
    exact Long.mono subI (.before k.start hlong)

/-- a function that does not go wrong makes no other calls than those that the program prescribes -/
theorem calls_only {p : Program} {c : CState} (hb : Between p newCompiler c) (hn : ∀ d ∈ p, d.All NameOk) (ht : p.Tame) {M : IRMachine}
    {X : Calls M.World} (hl : Loaded ⟨c.globals, c.funcs⟩ M X) {f : Ident} {ps : List Ident} {body : St} (hf : Decl.func f ps body ∈ p) {args : List Word}
    {σ : Store M.World} (hw : ¬ p.Wrong M.toB X f args σ) (a : Word) (vs : List Word) (σ' : Store M.World) :
    Module.Makes ⟨c.globals, c.funcs⟩ M X (M.addr (symbolOf f)) args σ a vs σ' → p.Makes M.toB X f args σ a vs σ' := by
  have start : ∀ b args σ a vs σ', Module.Makes ⟨c.globals, c.funcs⟩ M X b args σ a vs σ' →
      ∃ g ps body, Decl.func g ps body ∈ p ∧ b = M.addr (symbolOf g) := by
    intro b args σ a vs σ' h
    induction h with
    | own h1 h2 _ _ =>
      obtain ⟨g, ps, b, P, e, pre, post, rfl, _⟩ := code_origin hb hn h1 h2
      exact ⟨g, ps, b, by simp, by rw [e]⟩
    | inner _ _ ih _ => exact ih
  have key : ∀ b args σ a vs σ', Module.Makes ⟨c.globals, c.funcs⟩ M X b args σ a vs σ' → ∀ f ps body, Decl.func f ps body ∈ p →
      b = M.addr (symbolOf f) → ¬ p.Wrong M.toB X f args σ → p.Makes M.toB X f args σ a vs σ' := by
    intro b args σ a vs σ' h
    induction h with
    | @own F args σ g a vs h1 h2 h3 h4 =>
      intro f ps body hf e hw
      obtain ⟨ps', b', P, hd⟩ := defines_exists p ⟨ps, body, hf⟩
      have hlen : ps'.length ≤ args.length := by
        apply Nat.le_of_not_lt
        intro hlt
        exact hw (.few hd hlt)
      obtain ⟨F', Ei, fin, g1, k⟩ := funCode hb hn ht X σ hd hlen
      have e1 := same_func hb hn h1 k.mem (hl.apart F h1 F' k.mem h2 k.ne (by rw [e, k.sym]))
      subst e1
      exact own_only hb hn ht hl hd hw h1 k.sym h3 h4
    | inner h1 h2 ih1 ih2 =>
      intro f ps body hf e hw
      obtain ⟨g, ps', body', hg, rfl⟩ := start _ _ _ _ _ _ h2
      have m1 := ih1 f ps body hf e hw
      exact .inner (g := g) m1 (ih2 g ps' body' hg rfl fun hw' => hw (wrong_of_makes m1 g rfl hw'))
  intro hm
  exact key _ _ _ _ _ _ hm f ps body hf rfl hw

/-- C66. A function that does not go wrong makes in the module, itself or in functions that it calls, exactly the calls that
the program prescribes: of the same functions, with the same arguments and in the same stores. -/
theorem C66_exact_calls {text : List Char} {p : Program} {m : Module} (h : TreeOf text p m) (ht : p.Tame) {M : IRMachine}
    {X : Calls M.World} (hl : Loaded m M X) {f : Ident} {ps : List Ident} {body : St} (hf : Decl.func f ps body ∈ p) {args : List Word}
    {σ : Store M.World} (hw : ¬ p.Wrong M.toB X f args σ) (a : Word) (vs : List Word) (σ' : Store M.World) :
    Module.Makes m M X (M.addr (symbolOf f)) args σ a vs σ' ↔ p.Makes M.toB X f args σ a vs σ' := by
  refine ⟨?_, C61_calls_made h ht⟩
  have hn := reads_names h.1
  obtain ⟨c, hb, rfl⟩ := tree_between h
  exact calls_only hb hn ht hl hf hw a vs σ'

end Blang.Props
