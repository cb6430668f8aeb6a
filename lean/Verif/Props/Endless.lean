import Verif.Proofs.Events
import Verif.Props.Semantics
/-
Properties C61 and C62: the calls that are made, in runs that end or not, and runs that do not end.
-/
namespace Blang.Props
open Blang Blang.Spec

theorem returns_sim {p : Program} {c : CState} (h : Between p newCompiler c) (hn : ∀ d ∈ p, d.All NameOk) (ht : p.Tame) {M : IRMachine}
    {X : Calls M.World} (a : Word) (args : List Word) (σ : Store M.World) (v : Word) (σ' : Store M.World)
    (hc : p.Returns M.toB X a args σ v σ') : Module.Returns ⟨c.globals, c.funcs⟩ M X a args σ v σ' := by
  obtain ⟨n, hc⟩ := hc
  exact ⟨n, call_sim h hn ht.1 ht.2 n _ _ _ _ _ hc⟩

/-- the code of a function of the program, called with `args` in the store `σ` -/
structure FunCode (p : Program) (c : CState) (M : IRMachine) (R : Calls M.World) (f : Ident) (ps : List Ident) (body : St) (P : Place)
    (args : List Word) (σ : Store M.World) (F : Func) (Ei : Env) (fin : CState) (g : Cfg M.World) : Prop where
  mem : F ∈ c.funcs
  sym : F.sym = symbolOf f
  blocks : fin.blocks = F.blocks
  ne : F.blocks ≠ []
  apart : ∀ x ∈ Ei.vars, x ∉ Ei.funs
  hbody : ∃ cs cs' c0 c0', G Ei fin body P .stop none true cs c0 cs' c0'
  start : IRSteps M R F.blocks args (.start σ) g
  hm : Match args Ei fin (.entry M.toB P ps body args σ) g

theorem funCode {p : Program} {c : CState} (h : Between p newCompiler c) (hn : ∀ d ∈ p, d.All NameOk) (ht : p.Tame) {M : IRMachine}
    (R : Calls M.World) {f : Ident} {ps : List Ident} {body : St} {P : Place} {args : List Word} (σ : Store M.World)
    (hdef : p.Defines f ps body P) (hl : ps.length ≤ args.length) : ∃ F Ei fin g, FunCode p c M R f ps body P args σ F Ei fin g := by
  obtain ⟨E, c1, ss, F, hK, hI, ⟨r⟩, hF, hs, rfl, hT, hnf⟩ := h.defines hn hdef
  have hmem : Decl.func f ps body ∈ p := by
    obtain ⟨pre, post, e, _⟩ := hdef
    rw [e]; simp
  obtain ⟨fin, cs, cs', c0, c0', g, e, hG, hst, hm⟩ := func_entry (R := R) r hK hI hnf (ht.1 f ps body hmem) (σ := σ) hl
  refine ⟨F, _, fin, g, hF, hs, e, ?_, fun x h1 h2 => ht.2 x (hT.vars x h1) (hT.funs x h2), ⟨cs, cs', c0, c0', hG⟩, hst, hm⟩
  obtain ⟨b, hb, _⟩ := hG.stat.st.open
  obtain ⟨b', hb', _⟩ := hG.grc.ext _ _ hb
  rw [e] at hb'
  intro e0; rw [e0] at hb'; simp at hb'

/-- a state that is reached -/
theorem FunCode.gets {p : Program} {c : CState} {M : IRMachine} {R : Calls M.World} {f : Ident} {ps : List Ident} {body : St} {P : Place}
    {args : List Word} {σ : Store M.World} {F : Func} {Ei : Env} {fin : CState} {g : Cfg M.World}
    (k : FunCode p c M R f ps body P args σ F Ei fin g) {x : BState M.World} (hs : BSteps M.toB R P body (.entry M.toB P ps body args σ) x) :
    ∃ g', IRSteps M R F.blocks args (.start σ) g' ∧ Match args Ei fin x g' := by
  obtain ⟨cs, cs', c0, c0', hG⟩ := k.hbody
  obtain ⟨g', q1, q2⟩ := steps_sim k.apart hG hs k.hm
  rw [k.blocks] at q1
  exact ⟨g', steps_trans k.start q1, q2⟩

theorem enters_run {p : Program} {c : CState} (h : Between p newCompiler c) (hn : ∀ d ∈ p, d.All NameOk) (ht : p.Tame) {M : IRMachine}
    {X : Calls M.World} {f : Ident} {args : List Word} {σ : Store M.World} {x : BState M.World} {a : Word} {vs : List Word}
    {σ' : Store M.World} (hg : p.Gets M.toB X f args σ x) (he : x.Enters M.toB (p.Returns M.toB X) a vs σ') :
    ∃ F ∈ c.funcs, F.sym = symbolOf f ∧ F.blocks ≠ [] ∧ ∃ g, g.st = σ' ∧
      IRSteps M (Module.Returns ⟨c.globals, c.funcs⟩ M X) F.blocks args (.start σ) g ∧ g.Calling M F.blocks args a vs := by
  obtain ⟨ps, body, P, hdef, hl, hs⟩ := hg
  obtain ⟨F, Ei, fin, g0, k⟩ := funCode h hn ht (p.Returns M.toB X) σ hdef hl
  obtain ⟨g1, q1, q2⟩ := k.gets hs
  obtain ⟨g2, r1, r2, r3⟩ := state_enters k.apart he q2
  rw [k.blocks] at r1 r3
  exact ⟨F, k.mem, k.sym, k.ne, g2, r2, steps_mono (returns_sim h hn ht) (steps_trans q1 r1), r3⟩

/-! ## C61 -/

/-- the calls that the program prescribes are made by its code -/
theorem calls_made {p : Program} {c : CState} (hb : Between p newCompiler c) (hn : ∀ d ∈ p, d.All NameOk) (ht : p.Tame) {M : IRMachine}
    {X : Calls M.World} {f : Ident} {args : List Word} {σ : Store M.World} {a : Word} {vs : List Word} {σ' : Store M.World}
    (hm : p.Makes M.toB X f args σ a vs σ') : Module.Makes ⟨c.globals, c.funcs⟩ M X (M.addr (symbolOf f)) args σ a vs σ' := by
  have key : ∀ (f : Ident) (args : List Word) (σ : Store M.toB.World) (a : Word) (vs : List Word) (σ' : Store M.toB.World),
      p.Makes M.toB X f args σ a vs σ' → Module.Makes ⟨c.globals, c.funcs⟩ M X (M.addr (symbolOf f)) args σ a vs σ' := by
   intro f args σ a vs σ' hm
   induction hm with
   | own hg he =>
    obtain ⟨F, h1, h2, h3, g, rfl, h4, h5⟩ := enters_run hb hn ht hg he
    rw [← h2]
    exact .own h1 h3 h4 h5
   | inner _ _ ih1 ih2 => exact .inner ih1 ih2
  exact key _ _ _ _ _ _ hm

/-- C61. Every call that the program prescribes — itself or in a function that it has called — is made by
the module, of the same function, with the same arguments and in the same store.  Whether that call or any
of those in which it is made returns does not matter. -/
theorem C61_calls_made {text : List Char} {p : Program} {m : Module} (h : TreeOf text p m) (ht : p.Tame) {M : IRMachine}
    {X : Calls M.World} {f : Ident} {args : List Word} {σ : Store M.World} {a : Word} {vs : List Word} {σ' : Store M.World}
    (hm : p.Makes M.toB X f args σ a vs σ') : Module.Makes m M X (M.addr (symbolOf f)) args σ a vs σ' := by
  have hn := reads_names h.1
  obtain ⟨c, hb, rfl⟩ := tree_between h
  exact calls_made hb hn ht hm

/-- C61. Whatever state a function of the program gets to, the code of the function gets to a configuration
with the same store (memory and world), whether the function ends later or not. -/
theorem C61_stores {text : List Char} {p : Program} {m : Module} (h : TreeOf text p m) (ht : p.Tame) {M : IRMachine}
    {X : Calls M.World} {f : Ident} {args : List Word} {σ : Store M.World} {P : Place} {s : St} {k : Cont} {ρ : Frame} {σ' : Store M.World}
    (hg : p.Gets M.toB X f args σ (.run P s k ρ σ')) :
    ∃ F ∈ m.funcs, F.sym = symbolOf f ∧ ∃ g, g.st = σ' ∧ IRSteps M (Module.Returns m M X) F.blocks args (.start σ) g := by
  have hn := reads_names h.1
  obtain ⟨c, hb, rfl⟩ := tree_between h
  obtain ⟨ps, body, P, hdef, hl, hs⟩ := hg
  obtain ⟨F, Ei, fin, g0, k⟩ := funCode hb hn ht (p.Returns M.toB X) σ hdef hl
  obtain ⟨g1, q1, q2⟩ := k.gets hs
  exact ⟨F, k.mem, k.sym, g1, q2.1, steps_mono (returns_sim hb hn ht) q1⟩

/-! ## C62 -/

theorem module_returns_functional {p : Program} {c : CState} (h : Between p newCompiler c) (hn : ∀ d ∈ p, d.All NameOk) {M : IRMachine}
    {X : Calls M.World} (hl : Loaded ⟨c.globals, c.funcs⟩ M X) : Functional (Module.Returns ⟨c.globals, c.funcs⟩ M X) := by
  intro a vs s v1 s1 v2 s2 ⟨n, h1⟩ ⟨k, h2⟩
  have hd := moduleCall_det (m := ⟨c.globals, c.funcs⟩) hl.functional (h.mid hn).nodup hl.apart hl.external (max n k)
  exact hd _ _ _ _ _ _ _ (moduleCall_le (Nat.le_max_left n k) h1) (moduleCall_le (Nat.le_max_right n k) h2)

/-- a function with that symbol is the function -/
theorem same_func {p : Program} {c : CState} (h : Between p newCompiler c) (hn : ∀ d ∈ p, d.All NameOk) {F F' : Func} (h1 : F ∈ c.funcs)
    (h2 : F' ∈ c.funcs) (e : F.sym = F'.sym) : F = F' := by
  have hp : ∀ (l : List Func), (l.map Func.sym).Nodup → F ∈ l → F' ∈ l → F = F' := by
    intro l
    induction l with
    | nil => intro _ h; cases h
    | cons x l ih =>
      intro hnd hf hg
      simp only [List.map_cons, List.nodup_cons] at hnd
      rw [List.mem_cons] at hf hg
      rcases hf with rfl | hf
      · rcases hg with rfl | hg
        · rfl
        · exact absurd (List.mem_map.2 ⟨F', hg, e.symm⟩) hnd.1
      · rcases hg with rfl | hg
        · exact absurd (List.mem_map.2 ⟨F, hf, e⟩) hnd.1
        · exact ih hnd.2 hf hg
  exact hp _ (h.mid hn).nodup h1 h2

/-- a call that is made returns -/
theorem calling_step {M : IRMachine} {R : Calls M.World} {bs : List Block} {args : List Word} {g g' : Cfg M.World} {a : Word}
    {vs : List Word} (hc : g.Calling M bs args a vs) (hs : IRStep M R bs args g g') : ∃ v σ', R a vs g.st v σ' := by
  obtain ⟨b, i, f, xs, h1, h2, h3, h4, h5⟩ := hc
  cases hs with
  | inst a1 a2 a3 =>
    rw [h1] at a1; cases a1
    rw [h2] at a2; cases a2
    cases f with
    | func s v n =>
      obtain ⟨e1, e2⟩ := h3 s v n rfl
      simp only [Inst.Sem] at a3
      rw [if_neg e1, if_neg e2] at a3
      obtain ⟨⟨ws, q1, q2⟩, _⟩ := a3
      rw [h5] at q1; cases q1
      cases h4
      exact ⟨_, _, q2⟩
    | _ =>
      obtain ⟨⟨a', ws, q0, q1, q2⟩, _⟩ := a3
      rw [h4] at q0; cases q0
      rw [h5] at q1; cases q1
      exact ⟨_, _, q2⟩
  | term a1 a2 _ _ =>
    rw [h1] at a1; cases a1
    rw [a2, List.getElem?_eq_none (Nat.le_refl _)] at h2; cases h2

theorem calling_not_returns {M : IRMachine} {bs : List Block} {args : List Word} {g : Cfg M.World} {a v : Word}
    {vs : List Word} (hc : g.Calling M bs args a vs) : ¬ Blang.Spec.Returns M bs args g v := by
  obtain ⟨b, i, f, xs, h1, h2, _⟩ := hc
  rintro ⟨b', x, a1, a2, _⟩
  rw [h1] at a1; cases a1
  rw [a2, List.getElem?_eq_none (Nat.le_refl _)] at h2; cases h2

/-- C62. A function that, as the program prescribes, does not come to an end — because it makes infinitely
many steps or calls a function that does not come to an end — does not return in the module either. -/
theorem C62_no_end {text : List Char} {p : Program} {m : Module} (h : TreeOf text p m) (ht : p.Tame) {M : IRMachine}
    {X : Calls M.World} (hl : Loaded m M X) {f : Ident} {args : List Word} {σ : Store M.World} (hf : p.RunsForever M.toB X f args σ) :
    ∀ n v σ', ¬ Module.Call m M X n (M.addr (symbolOf f)) args σ v σ' := by
  have hn := reads_names h.1
  obtain ⟨c, hb, rfl⟩ := tree_between h
  obtain ⟨D, h0, hD⟩ := hf
  have hfun := module_returns_functional hb hn hl
  have hret := returns_sim hb hn ht (M := M) (X := X)
  intro n
  -- the code that is called is that of the function
  have code : ∀ n f args σ v σ' (F : Func), F ∈ c.funcs → F.sym = symbolOf f → F.blocks ≠ [] →
      Module.Call ⟨c.globals, c.funcs⟩ M X n (M.addr (symbolOf f)) args σ v σ' → ∃ k, n = k + 1 ∧
        CodeRun M (Module.Call ⟨c.globals, c.funcs⟩ M X k) F.blocks args σ v σ' := by
    intro n f args σ v σ' F h1 h2 h3 hc
    cases n with
    | zero => rw [← h2] at hc; exact absurd hc (hl.external F h1 h3 _ _ _ _)
    | succ k =>
      rcases hc with hc | ⟨F', f1, f2, f3, f4⟩
      · rw [← h2] at hc; exact absurd hc (hl.external F h1 h3 _ _ _ _)
      · rw [← h2] at f3
        have e := same_func hb hn h1 f1 (hl.apart F h1 F' f1 h3 f2 f3)
        subst e
        exact ⟨k, rfl, f4⟩
  have sub : ∀ k, ∀ a vs s v s', Module.Call ⟨c.globals, c.funcs⟩ M X k a vs s v s' →
      Module.Returns ⟨c.globals, c.funcs⟩ M X a vs s v s' := fun k a vs s v s' h => ⟨k, h⟩
  revert h0
  generalize f = f, args = args, σ = σ
  revert f args σ
  induction n with
  | zero =>
    intro f args σ h0 v σ' hc
    have : ∃ F ∈ c.funcs, F.sym = symbolOf f ∧ F.blocks ≠ [] := by
      rcases hD f args σ h0 with ⟨ps, body, P, hdef, hlen, _⟩ | ⟨x, g, ws, σ1, hg, he, _⟩
      · obtain ⟨F, Ei, fin, g0, k⟩ := funCode hb hn ht (p.Returns M.toB X) σ hdef hlen
        exact ⟨F, k.mem, k.sym, k.ne⟩
      · obtain ⟨F, h1, h2, h3, _⟩ := enters_run hb hn ht hg he
        exact ⟨F, h1, h2, h3⟩
    obtain ⟨F, h1, h2, h3⟩ := this
    obtain ⟨k, e, _⟩ := code _ _ _ _ _ _ F h1 h2 h3 hc
    cases e
  | succ n ih =>
    intro f args σ h0 v σ' hc
    rcases hD f args σ h0 with ⟨ps, body, P, hdef, hlen, xs, hx0, hx⟩ | ⟨x, g, ws, σ1, hg, he, hd⟩
    · obtain ⟨F, Ei, fin, g0, k⟩ := funCode hb hn ht (p.Returns M.toB X) σ hdef hlen
      obtain ⟨_, e, g1, q1, q2, _⟩ := code _ _ _ _ _ _ F k.mem k.sym k.ne hc
      cases e
      obtain ⟨cs, cs', c0, c0', hG⟩ := k.hbody
      obtain ⟨N, hN⟩ := ends_not_long hfun (steps_mono (sub n) q1) q2
      apply hN
      have hlong := endless_long k.apart hG hx N _ 0 g0 (Nat.le_refl _) (by rw [hx0]; exact k.hm)
      rw [k.blocks] at hlong
      exact Long.mono hret (.before k.start hlong)
    · obtain ⟨F, h1, h2, h3, g1, rfl, q1, q2⟩ := enters_run hb hn ht hg he
      obtain ⟨_, e, g2, r1, r2, _⟩ := code _ _ _ _ _ _ F h1 h2 h3 hc
      cases e
      have r3 := ends_through hfun (sub n) q1 r1 r2
      cases r3 with
      | refl => exact calling_not_returns q2 r2
      | head s1 _ =>
        obtain ⟨w, σ2, hw⟩ := calling_step q2 s1
        exact ih g ws g1.st hd w σ2 hw

end Blang.Props
