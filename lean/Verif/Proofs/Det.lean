import Verif.Proofs.SimProg
/-
Runs of the emitted code have at most one result.
-/
namespace Blang
open Spec

/-- at most one result -/
def Functional {World : Type} (R : Calls World) : Prop :=
  ∀ a vs s v1 s1 v2 s2, R a vs s v1 s1 → R a vs s v2 s2 → v1 = v2 ∧ s1 = s2

section
variable {M : IRMachine} {R : Calls M.World} {args : List Word} {bs : List Block}

theorem instSem_det (hR : Functional R) {g : Cfg M.World} {r1 r2 : Word} {va1 va2 : List Word} {st1 st2 : Store M.World} {i : Inst}
    (h1 : Inst.Sem M R args g r1 va1 st1 i) (h2 : Inst.Sem M R args g r2 va2 st2 i) : r1 = r2 ∧ va1 = va2 ∧ st1 = st2 := by
  cases i with
  | alloca ty => obtain ⟨rfl, rfl, rfl⟩ := h1; obtain ⟨rfl, rfl, rfl⟩ := h2; exact ⟨rfl, rfl, rfl⟩
  | load src =>
    obtain ⟨⟨a, e, rfl⟩, rfl, rfl⟩ := h1; obtain ⟨⟨b, e', rfl⟩, rfl, rfl⟩ := h2
    rw [e] at e'; cases e'; exact ⟨rfl, rfl, rfl⟩
  | store src dst =>
    obtain ⟨⟨v, a, e1, e2, rfl⟩, rfl, rfl⟩ := h1; obtain ⟨⟨v', a', e1', e2', rfl⟩, rfl, rfl⟩ := h2
    rw [e1] at e1'; cases e1'; rw [e2] at e2'; cases e2'; exact ⟨rfl, rfl, rfl⟩
  | bin o x y =>
    obtain ⟨⟨v, a, e1, e2, e3⟩, rfl, rfl⟩ := h1; obtain ⟨⟨v', a', e1', e2', e3'⟩, rfl, rfl⟩ := h2
    rw [e1] at e1'; cases e1'; rw [e2] at e2'; cases e2'; rw [e3] at e3'; cases e3'; exact ⟨rfl, rfl, rfl⟩
  | icmp o x y =>
    obtain ⟨⟨v, a, e1, e2, e3⟩, rfl, rfl⟩ := h1; obtain ⟨⟨v', a', e1', e2', e3'⟩, rfl, rfl⟩ := h2
    rw [e1] at e1'; cases e1'; rw [e2] at e2'; cases e2'; exact ⟨e3.trans e3'.symm, rfl, rfl⟩
  | zext x | inttoptr x | inttofn x _ | ptrtoint x | bitcast x =>
    obtain ⟨e, rfl, rfl⟩ := h1; obtain ⟨e', rfl, rfl⟩ := h2
    rw [e] at e'; cases e'; exact ⟨rfl, rfl, rfl⟩
  | gepField ty b i =>
    obtain ⟨⟨a, e, rfl⟩, rfl, rfl⟩ := h1; obtain ⟨⟨b, e', rfl⟩, rfl, rfl⟩ := h2
    rw [e] at e'; cases e'; exact ⟨rfl, rfl, rfl⟩
  | gepWord x y =>
    obtain ⟨⟨v, a, e1, e2, rfl⟩, rfl, rfl⟩ := h1; obtain ⟨⟨v', a', e1', e2', rfl⟩, rfl, rfl⟩ := h2
    rw [e1] at e1'; cases e1'; rw [e2] at e2'; cases e2'; exact ⟨rfl, rfl, rfl⟩
  | call f xs =>
    cases f with
    | func s b k =>
      simp only [Inst.Sem] at h1 h2
      split at h1
      · rename_i e; rw [if_pos e] at h2
        obtain ⟨rfl, rfl, rfl⟩ := h1; obtain ⟨rfl, rfl, rfl⟩ := h2; exact ⟨rfl, rfl, rfl⟩
      · rename_i e; rw [if_neg e] at h2
        split at h1
        · rename_i e; rw [if_pos e] at h2
          obtain ⟨rfl, rfl, rfl⟩ := h1; obtain ⟨rfl, rfl, rfl⟩ := h2; exact ⟨rfl, rfl, rfl⟩
        · rename_i e; rw [if_neg e] at h2
          obtain ⟨⟨vs, e1, e2⟩, rfl⟩ := h1; obtain ⟨⟨vs', e1', e2'⟩, rfl⟩ := h2
          rw [e1] at e1'; cases e1'
          obtain ⟨rfl, rfl⟩ := hR _ _ _ _ _ _ _ e2 e2'
          exact ⟨rfl, rfl, rfl⟩
    | _ =>
      obtain ⟨⟨a, vs, e0, e1, e2⟩, rfl⟩ := h1; obtain ⟨⟨a', vs', e0', e1', e2'⟩, rfl⟩ := h2
      rw [e0] at e0'; cases e0'
      rw [e1] at e1'; cases e1'
      obtain ⟨rfl, rfl⟩ := hR _ _ _ _ _ _ _ e2 e2'
      exact ⟨rfl, rfl, rfl⟩
  | vaarg x =>
    obtain ⟨e, rfl⟩ := h1; obtain ⟨e', rfl⟩ := h2
    rw [e] at e'; cases e'; exact ⟨rfl, rfl, rfl⟩
  | phi v1 b1 v2 b2 =>
    obtain ⟨e, rfl, rfl⟩ := h1; obtain ⟨e', rfl, rfl⟩ := h2
    split at e
    · rename_i hp; rw [if_pos hp] at e'; rw [e] at e'; cases e'; exact ⟨rfl, rfl, rfl⟩
    · rename_i hp; rw [if_neg hp] at e'
      obtain ⟨_, e⟩ := e
      obtain ⟨_, e'⟩ := e'
      rw [e] at e'; cases e'; exact ⟨rfl, rfl, rfl⟩

theorem goes_det {g : Cfg M.World} {t : Term} {a b : Nat} (h1 : Term.Goes M args g a t) (h2 : Term.Goes M args g b t) : a = b := by
  cases t with
  | ret _ => cases h1
  | br l => exact h1.trans h2.symm
  | condbr c t e =>
    obtain ⟨v, e1, rfl⟩ := h1; obtain ⟨v', e1', rfl⟩ := h2
    rw [e1] at e1'; cases e1'; rfl
  | switch x d cs =>
    obtain ⟨v, e1, rfl⟩ := h1; obtain ⟨v', e1', rfl⟩ := h2
    rw [e1] at e1'; cases e1'; rfl

theorem step_det (hR : Functional R) {g g1 g2 : Cfg M.World} (h1 : IRStep M R bs args g g1) (h2 : IRStep M R bs args g g2) : g1 = g2 := by
  cases h1 with
  | inst a1 a2 a3 =>
    cases h2 with
    | inst b1 b2 b3 =>
      rw [a1] at b1; cases b1
      rw [a2] at b2; cases b2
      obtain ⟨rfl, rfl, rfl⟩ := instSem_det hR a3 b3
      rfl
    | term b1 b2 b3 b4 =>
      rw [a1] at b1; cases b1
      rw [b2, List.getElem?_eq_none (Nat.le_refl _)] at a2; cases a2
  | term a1 a2 a3 a4 =>
    cases h2 with
    | inst b1 b2 b3 =>
      rw [a1] at b1; cases b1
      rw [a2, List.getElem?_eq_none (Nat.le_refl _)] at b2; cases b2
    | term b1 b2 b3 b4 =>
      rw [a1] at b1; cases b1
      rw [a3] at b3; cases b3
      rw [goes_det a4 b4]

theorem returns_stuck {g g' : Cfg M.World} {v : Word} (h : Returns M bs args g v) : ¬ IRStep M R bs args g g' := by
  obtain ⟨b, x, h1, h2, h3, _⟩ := h
  intro hs
  cases hs with
  | inst a1 a2 _ =>
    rw [h1] at a1; cases a1
    rw [h2, List.getElem?_eq_none (Nat.le_refl _)] at a2; cases a2
  | term a1 a2 a3 a4 =>
    rw [h1] at a1; cases a1
    rw [h3] at a3; cases a3
    exact a4

theorem returns_det {g : Cfg M.World} {v w : Word} (h1 : Returns M bs args g v) (h2 : Returns M bs args g w) : v = w := by
  obtain ⟨b, x, a1, _, a3, a4⟩ := h1
  obtain ⟨b', x', b1, _, b3, b4⟩ := h2
  rw [a1] at b1; cases b1
  rw [a3] at b3; cases b3
  rw [a4] at b4; cases b4; rfl

/-- the run to the end is unique -/
theorem steps_det (hR : Functional R) {g g1 g2 : Cfg M.World} {v w : Word} (h1 : IRSteps M R bs args g g1) (h2 : IRSteps M R bs args g g2)
    (r1 : Returns M bs args g1 v) (r2 : Returns M bs args g2 w) : g1 = g2 := by
  induction h1 with
  | refl =>
    cases h2 with
    | refl => rfl
    | head h _ => exact absurd h (returns_stuck r1)
  | head h h' ih =>
    cases h2 with
    | refl => exact absurd h (returns_stuck r2)
    | head k k' =>
      have := step_det hR h k
      subst this
      exact ih k' r1

theorem codeRun_det (hR : Functional R) {σ σ1 σ2 : Store M.World} {v w : Word} (h1 : CodeRun M R bs args σ v σ1)
    (h2 : CodeRun M R bs args σ w σ2) : v = w ∧ σ1 = σ2 := by
  obtain ⟨g1, s1, r1, rfl⟩ := h1
  obtain ⟨g2, s2, r2, rfl⟩ := h2
  have := steps_det hR s1 s2 r1 r2
  subst this
  exact ⟨returns_det r1 r2, rfl⟩
end

/-- deeper calls include shallower ones -/
theorem moduleCall_succ {m : Module} {M : IRMachine} {X : Calls M.World} : ∀ (n : Nat) (a : Word) (args : List Word) (σ : Store M.World)
    (v : Word) (σ' : Store M.World), Module.Call m M X n a args σ v σ' → Module.Call m M X (n + 1) a args σ v σ'
  | 0, _, _, _, _, _, h => .inl h
  | n + 1, a, args, σ, v, σ', h => by
    rcases h with h | ⟨f, h1, h2, h3, h4⟩
    · exact .inl h
    · exact .inr ⟨f, h1, h2, h3, codeRun_mono (moduleCall_succ n) h4⟩

theorem moduleCall_le {m : Module} {M : IRMachine} {X : Calls M.World} {n k : Nat} (hk : n ≤ k) {a : Word} {args : List Word}
    {σ : Store M.World} {v : Word} {σ' : Store M.World} (h : Module.Call m M X n a args σ v σ') : Module.Call m M X k a args σ v σ' := by
  induction hk with
  | refl => exact h
  | step _ ih => exact moduleCall_succ _ _ _ _ _ _ ih

/-- **Results are unique.** -/
theorem moduleCall_det {m : Module} {M : IRMachine} {X : Calls M.World} (hX : Functional X) (hn : (m.funcs.map Func.sym).Nodup)
    (ha : ∀ f ∈ m.funcs, ∀ g ∈ m.funcs, f.blocks ≠ [] → g.blocks ≠ [] → M.addr f.sym = M.addr g.sym → f.sym = g.sym)
    (hx : ∀ f ∈ m.funcs, f.blocks ≠ [] → ∀ args σ v σ', ¬ X (M.addr f.sym) args σ v σ') :
    ∀ n, Functional (Module.Call m M X n)
  | 0 => hX
  | n + 1 => by
    intro a vs s v1 s1 v2 s2 h1 h2
    rcases h1 with h1 | ⟨f, f1, f2, f3, f4⟩
    · rcases h2 with h2 | ⟨g, g1, g2, g3, g4⟩
      · exact hX _ _ _ _ _ _ _ h1 h2
      · rw [g3] at h1; exact absurd h1 (hx g g1 g2 _ _ _ _)
    · rcases h2 with h2 | ⟨g, g1, g2, g3, g4⟩
      · rw [f3] at h2; exact absurd h2 (hx f f1 f2 _ _ _ _)
      · have e := ha f f1 g g1 f2 g2 (f3.symm.trans g3)
        have e : f = g := by
          have hp : ∀ (l : List Func), (l.map Func.sym).Nodup → f ∈ l → g ∈ l → f = g := by
            intro l
            induction l with
            | nil => intro _ h; cases h
            | cons x l ih =>
              intro hnd hf hg
              simp only [List.map_cons, List.nodup_cons] at hnd
              rw [List.mem_cons] at hf hg
              rcases hf with rfl | hf
              · rcases hg with rfl | hg
                · rfl
                · exact absurd (List.mem_map.2 ⟨g, hg, e.symm⟩) hnd.1
              · rcases hg with rfl | hg
                · exact absurd (List.mem_map.2 ⟨f, hf, e⟩) hnd.1
                · exact ih hnd.2 hf hg
          exact hp _ hn f1 g1
        subst e
        exact codeRun_det (moduleCall_det hX hn ha hx n) f4 g4

end Blang
