import Verif.Proofs.Late
/-
The meaning of a program is unique, and calls made by an expression that has a value have returned.
-/
namespace Blang
open Spec

section
variable {B : BMachine} {R S : Calls B.World}

section
variable (hR : Functional R) {E : Env} {ρ : Frame}
include hR

mutual
theorem eval_det : ∀ (e : Ex) (n : Nat) (s : Store B.World) (r1 r2 : Res) (s1 s2 : Store B.World),
    e.Eval B R E ρ n s r1 s1 → e.Eval B R E ρ n s r2 s2 → r1 = r2 ∧ s1 = s2
  | .num v, n, s, r1, r2, s1, s2, h, h' => by
    obtain ⟨rfl, rfl⟩ := h; obtain ⟨rfl, rfl⟩ := h'; exact ⟨rfl, rfl⟩
  | .str _, n, s, r1, r2, s1, s2, h, h' => by
    obtain ⟨rfl, rfl⟩ := h; obtain ⟨rfl, rfl⟩ := h'; exact ⟨rfl, rfl⟩
  | .var x, n, s, r1, r2, s1, s2, h, h' => by
    obtain ⟨e1, rfl⟩ := h; obtain ⟨e2, rfl⟩ := h'
    rw [e1] at e2; cases e2; exact ⟨rfl, rfl⟩
  | .paren e, n, s, r1, r2, s1, s2, h, h' => by
    simp only [Ex.Eval] at h h'
    obtain ⟨d, a1, rfl⟩ := h; obtain ⟨d', b1, rfl⟩ := h'
    obtain ⟨rfl, rfl⟩ := eval_det e _ _ _ _ _ _ a1 b1
    exact ⟨rfl, rfl⟩
  | .not e, n, s, r1, r2, s1, s2, h, h' => by
    simp only [Ex.Eval] at h h'
    obtain ⟨d, a1, rfl⟩ := h; obtain ⟨d', b1, rfl⟩ := h'
    obtain ⟨rfl, rfl⟩ := eval_det e _ _ _ _ _ _ a1 b1
    exact ⟨rfl, rfl⟩
  | .neg e, n, s, r1, r2, s1, s2, h, h' => by
    simp only [Ex.Eval] at h h'
    obtain ⟨d, a1, rfl⟩ := h; obtain ⟨d', b1, rfl⟩ := h'
    obtain ⟨rfl, rfl⟩ := eval_det e _ _ _ _ _ _ a1 b1
    exact ⟨rfl, rfl⟩
  | .deref e, n, s, r1, r2, s1, s2, h, h' => by
    simp only [Ex.Eval] at h h'
    obtain ⟨d, a1, rfl⟩ := h; obtain ⟨d', b1, rfl⟩ := h'
    obtain ⟨rfl, rfl⟩ := eval_det e _ _ _ _ _ _ a1 b1
    exact ⟨rfl, rfl⟩
  | .addr e, n, s, r1, r2, s1, s2, h, h' => by
    simp only [Ex.Eval] at h h'
    obtain ⟨d, a1, rfl⟩ := h; obtain ⟨d', b1, rfl⟩ := h'
    obtain ⟨e, rfl⟩ := eval_det e _ _ _ _ _ _ a1 b1
    cases e; exact ⟨rfl, rfl⟩
  | .post _ e, n, s, r1, r2, s1, s2, h, h' => by
    simp only [Ex.Eval] at h h'
    obtain ⟨d, t, a1, rfl, rfl⟩ := h; obtain ⟨d', t', b1, rfl, rfl⟩ := h'
    obtain ⟨e, rfl⟩ := eval_det e _ _ _ _ _ _ a1 b1
    cases e; exact ⟨rfl, rfl⟩
  | .pre _ e, n, s, r1, r2, s1, s2, h, h' => by
    simp only [Ex.Eval] at h h'
    obtain ⟨d, t, a1, rfl, rfl⟩ := h; obtain ⟨d', t', b1, rfl, rfl⟩ := h'
    obtain ⟨e, rfl⟩ := eval_det e _ _ _ _ _ _ a1 b1
    cases e; exact ⟨rfl, rfl⟩
  | .index x i, n, s, r1, r2, s1, s2, h, h' => by
    simp only [Ex.Eval] at h h'
    obtain ⟨d1, t, d2, a1, a2, rfl⟩ := h; obtain ⟨d1', t', d2', b1, b2, rfl⟩ := h'
    obtain ⟨rfl, rfl⟩ := eval_det x _ _ _ _ _ _ a1 b1
    obtain ⟨rfl, rfl⟩ := eval_det i _ _ _ _ _ _ a2 b2
    exact ⟨rfl, rfl⟩
  | .callName f as, n, s, r1, r2, s1, s2, h, h' => by
    simp only [Ex.Eval] at h h'
    obtain ⟨d, ws, t, v, a1, a2, a3, rfl⟩ := h; obtain ⟨d', ws', t', v', b1, b2, b3, rfl⟩ := h'
    rw [a1] at b1; cases b1
    obtain ⟨rfl, rfl⟩ := evalArgs_det as _ _ _ _ _ _ a2 b2
    obtain ⟨rfl, rfl⟩ := hR _ _ _ _ _ _ _ a3 b3
    exact ⟨rfl, rfl⟩
  | .call f as, n, s, r1, r2, s1, s2, h, h' => by
    simp only [Ex.Eval] at h h'
    obtain ⟨d, u, ws, t, v, a1, a2, a3, rfl⟩ := h; obtain ⟨d', u', ws', t', v', b1, b2, b3, rfl⟩ := h'
    obtain ⟨rfl, rfl⟩ := eval_det f _ _ _ _ _ _ a1 b1
    obtain ⟨rfl, rfl⟩ := evalArgs_det as _ _ _ _ _ _ a2 b2
    obtain ⟨rfl, rfl⟩ := hR _ _ _ _ _ _ _ a3 b3
    exact ⟨rfl, rfl⟩
  | .bin o x y, n, s, r1, r2, s1, s2, h, h' => by
    simp only [Ex.Eval] at h h'
    obtain ⟨d1, t, d2, v, a1, a2, a3, rfl⟩ := h; obtain ⟨d1', t', d2', v', b1, b2, b3, rfl⟩ := h'
    obtain ⟨rfl, rfl⟩ := eval_det x _ _ _ _ _ _ a1 b1
    obtain ⟨rfl, rfl⟩ := eval_det y _ _ _ _ _ _ a2 b2
    rw [a3] at b3; cases b3
    exact ⟨rfl, rfl⟩
  | .cond c t e, n, s, r1, r2, s1, s2, h, h' => by
    simp only [Ex.Eval] at h h'
    obtain ⟨d, u, d1, a1, rfl, a2⟩ := h; obtain ⟨d', u', d1', b1, rfl, b2⟩ := h'
    obtain ⟨rfl, rfl⟩ := eval_det c _ _ _ _ _ _ a1 b1
    by_cases hc : d.value u.mem ≠ 0
    · rw [if_pos hc] at a2 b2
      obtain ⟨rfl, rfl⟩ := eval_det t _ _ _ _ _ _ a2 b2
      exact ⟨rfl, rfl⟩
    · rw [if_neg hc] at a2 b2
      obtain ⟨rfl, rfl⟩ := eval_det e _ _ _ _ _ _ a2 b2
      exact ⟨rfl, rfl⟩
  | .assign none x y, n, s, r1, r2, s1, s2, h, h' => by
    simp only [Ex.Eval] at h h'
    obtain ⟨a, t, d2, u, a1, a2, rfl, rfl⟩ := h; obtain ⟨a', t', d2', u', b1, b2, rfl, rfl⟩ := h'
    obtain ⟨e, rfl⟩ := eval_det x _ _ _ _ _ _ a1 b1
    cases e
    obtain ⟨rfl, rfl⟩ := eval_det y _ _ _ _ _ _ a2 b2
    exact ⟨rfl, rfl⟩
  | .assign (some o) x y, n, s, r1, r2, s1, s2, h, h' => by
    simp only [Ex.Eval] at h h'
    obtain ⟨a, t, d2, u, v, a1, a2, a3, rfl, rfl⟩ := h; obtain ⟨a', t', d2', u', v', b1, b2, b3, rfl, rfl⟩ := h'
    obtain ⟨e, rfl⟩ := eval_det x _ _ _ _ _ _ a1 b1
    cases e
    obtain ⟨rfl, rfl⟩ := eval_det y _ _ _ _ _ _ a2 b2
    rw [a3] at b3; cases b3
    exact ⟨rfl, rfl⟩

theorem evalArgs_det : ∀ (es : List Ex) (n : Nat) (s : Store B.World) (vs1 vs2 : List Word) (s1 s2 : Store B.World),
    Ex.EvalArgs B R E ρ es n s vs1 s1 → Ex.EvalArgs B R E ρ es n s vs2 s2 → vs1 = vs2 ∧ s1 = s2
  | [], n, s, vs1, vs2, s1, s2, h, h' => by
    simp only [Ex.EvalArgs] at h h'
    obtain ⟨rfl, rfl⟩ := h; obtain ⟨rfl, rfl⟩ := h'; exact ⟨rfl, rfl⟩
  | e :: es, n, s, vs1, vs2, s1, s2, h, h' => by
    simp only [Ex.EvalArgs] at h h'
    obtain ⟨d, t, ws, a1, a2, rfl⟩ := h; obtain ⟨d', t', ws', b1, b2, rfl⟩ := h'
    obtain ⟨rfl, rfl⟩ := eval_det e _ _ _ _ _ _ a1 b1
    obtain ⟨rfl, rfl⟩ := evalArgs_det es _ _ _ _ _ _ a2 b2
    exact ⟨rfl, rfl⟩
end

theorem value_det {e : Ex} {P : Place} {σ σ1 σ2 : Store B.World} {v1 v2 : Word} (h1 : e.Value B R P ρ σ v1 σ1)
    (h2 : e.Value B R P ρ σ v2 σ2) : v1 = v2 ∧ σ1 = σ2 := by
  obtain ⟨d, a1, rfl⟩ := h1
  obtain ⟨d', b1, rfl⟩ := h2
  obtain ⟨rfl, rfl⟩ := eval_det hR e _ _ _ _ _ _ a1 b1
  exact ⟨rfl, rfl⟩

theorem bstep_det {P : Place} {body : St} {x y z : BState B.World} (h1 : BStep B R P body x y) (h2 : BStep B R P body x z) : y = z := by
  have nz : ∀ {e : Ex} {P : Place} {ρ : Frame} {σ σ1 σ2 : Store B.World} {v1 v2 : Word}, e.Value B R P ρ σ v1 σ1 → e.Value B R P ρ σ v2 σ2 →
      v1 ≠ 0 → v2 = 0 → False := by
    intro e P ρ σ σ1 σ2 v1 v2 h1 h2 n z
    exact n ((value_det hR h1 h2).1.trans z)
  cases h1 with
  | endFun => cases h2; rfl
  | endSeq => cases h2; rfl
  | endLoop => cases h2; rfl
  | seq => cases h2; rfl
  | expr a => cases h2 with | expr b => obtain ⟨rfl, rfl⟩ := value_det hR a b; rfl
  | ret0 => cases h2; rfl
  | ret a => cases h2 with | ret b => obtain ⟨rfl, rfl⟩ := value_det hR a b; rfl
  | auto => cases h2; rfl
  | extrn => cases h2; rfl
  | ifTrue a a' =>
    cases h2 with
    | ifTrue b _ => obtain ⟨rfl, rfl⟩ := value_det hR a b; rfl
    | ifFalse b b' => exact (nz a b a' b').elim
  | ifFalse a a' =>
    cases h2 with
    | ifTrue b b' => exact (nz b a b' a').elim
    | ifFalse b _ => obtain ⟨rfl, rfl⟩ := value_det hR a b; rfl
  | elseTrue a a' =>
    cases h2 with
    | elseTrue b _ => obtain ⟨rfl, rfl⟩ := value_det hR a b; rfl
    | elseFalse b b' => exact (nz a b a' b').elim
  | elseFalse a a' =>
    cases h2 with
    | elseTrue b b' => exact (nz b a b' a').elim
    | elseFalse b _ => obtain ⟨rfl, rfl⟩ := value_det hR a b; rfl
  | whileTrue a a' =>
    cases h2 with
    | whileTrue b _ => obtain ⟨rfl, rfl⟩ := value_det hR a b; rfl
    | whileFalse b b' => exact (nz a b a' b').elim
  | whileFalse a a' =>
    cases h2 with
    | whileTrue b b' => exact (nz b a b' a').elim
    | whileFalse b _ => obtain ⟨rfl, rfl⟩ := value_det hR a b; rfl
  | switchCase a a' =>
    cases h2 with
    | switchCase b b' =>
      obtain ⟨rfl, rfl⟩ := value_det hR a b
      rw [a'] at b'; cases b'; rfl
    | switchNone b b' =>
      obtain ⟨rfl, rfl⟩ := value_det hR a b
      rw [a'] at b'; cases b'
  | switchNone a a' =>
    cases h2 with
    | switchCase b b' =>
      obtain ⟨rfl, rfl⟩ := value_det hR a b
      rw [a'] at b'; cases b'
    | switchNone b b' => obtain ⟨rfl, rfl⟩ := value_det hR a b; rfl
  | case => cases h2; rfl
  | label => cases h2; rfl
  | goto a => cases h2 with | goto b => rw [a] at b; cases b; rfl

/-- a run that ends passes through every state that is reached -/
theorem bsteps_through {P : Place} {body : St} {x y z : BState B.World} (hS : ∀ a vs s v s', S a vs s v s' → R a vs s v s')
    (hz : ∀ y, ¬ BStep B R P body z y) (h1 : BSteps B R P body x y) (h2 : BSteps B S P body x z) : BSteps B S P body y z := by
  induction h1 with
  | refl => exact h2
  | head a _ ih =>
    cases h2 with
    | refl => exact absurd a (hz _)
    | head b b' =>
      have e := bstep_det hR a (bstep_mono hS b)
      subst e
      exact ih b'
end

section
variable (hR : Functional R) (hS : ∀ a vs s v s', S a vs s v s' → R a vs s v s') {E : Env} {ρ : Frame}
include hR hS

theorem eval_sub {e : Ex} {n : Nat} {s s' : Store B.World} {r : Res} (h : e.Eval B S E ρ n s r s') : e.Eval B R E ρ n s r s' := by
  rcases eval_or (Q := fun _ _ _ => False) (fun a vs s v s' h => .inl (hS a vs s v s' h)) e _ _ _ _ h with h | ⟨_, _, _, h, _⟩
  · exact h
  · exact h.elim

theorem evalArgs_sub {es : List Ex} {n : Nat} {s s' : Store B.World} {vs : List Word} (h : Ex.EvalArgs B S E ρ es n s vs s') :
    Ex.EvalArgs B R E ρ es n s vs s' := by
  rcases evalArgs_or (Q := fun _ _ _ => False) (fun a vs s v s' h => .inl (hS a vs s v s' h)) es _ _ _ _ h with h | ⟨_, _, _, h, _⟩
  · exact h
  · exact h.elim

mutual
/-- a call made by an expression that has a value has returned -/
theorem eval_enters : ∀ (e : Ex) (n : Nat) (s : Store B.World) (r : Res) (s' : Store B.World) (a : Word) (vs : List Word) (σ : Store B.World),
    e.Eval B S E ρ n s r s' → e.Enters B R E ρ n s a vs σ → ∃ v σ', S a vs σ v σ'
  | .num v, n, s, r, s', a, vs, σ, h, h' => h'.elim
  | .str _, n, s, r, s', a, vs, σ, h, h' => h'.elim
  | .var x, n, s, r, s', a, vs, σ, h, h' => h'.elim
  | .paren e, n, s, r, s', a, vs, σ, h, h' => by
    simp only [Ex.Eval] at h
    simp only [Ex.Enters] at h'
    obtain ⟨d, a1, rfl⟩ := h
    exact eval_enters e _ _ _ _ _ _ _ a1 h'
  | .not e, n, s, r, s', a, vs, σ, h, h' => by
    simp only [Ex.Eval] at h
    simp only [Ex.Enters] at h'
    obtain ⟨d, a1, rfl⟩ := h
    exact eval_enters e _ _ _ _ _ _ _ a1 h'
  | .neg e, n, s, r, s', a, vs, σ, h, h' => by
    simp only [Ex.Eval] at h
    simp only [Ex.Enters] at h'
    obtain ⟨d, a1, rfl⟩ := h
    exact eval_enters e _ _ _ _ _ _ _ a1 h'
  | .deref e, n, s, r, s', a, vs, σ, h, h' => by
    simp only [Ex.Eval] at h
    simp only [Ex.Enters] at h'
    obtain ⟨d, a1, rfl⟩ := h
    exact eval_enters e _ _ _ _ _ _ _ a1 h'
  | .addr e, n, s, r, s', a, vs, σ, h, h' => by
    simp only [Ex.Eval] at h
    simp only [Ex.Enters] at h'
    obtain ⟨d, a1, rfl⟩ := h
    exact eval_enters e _ _ _ _ _ _ _ a1 h'
  | .post _ e, n, s, r, s', a, vs, σ, h, h' => by
    simp only [Ex.Eval] at h
    simp only [Ex.Enters] at h'
    obtain ⟨d, t, a1, _⟩ := h
    exact eval_enters e _ _ _ _ _ _ _ a1 h'
  | .pre _ e, n, s, r, s', a, vs, σ, h, h' => by
    simp only [Ex.Eval] at h
    simp only [Ex.Enters] at h'
    obtain ⟨d, t, a1, _⟩ := h
    exact eval_enters e _ _ _ _ _ _ _ a1 h'
  | .index x i, n, s, r, s', a, vs, σ, h, h' => by
    simp only [Ex.Eval] at h
    simp only [Ex.Enters] at h'
    obtain ⟨d1, t, d2, a1, a2, rfl⟩ := h
    rcases h' with h' | ⟨d1', t', b1, h'⟩
    · exact eval_enters x _ _ _ _ _ _ _ a1 h'
    · obtain ⟨rfl, rfl⟩ := eval_det hR x _ _ _ _ _ _ (eval_sub hR hS a1) b1
      exact eval_enters i _ _ _ _ _ _ _ a2 h'
  | .callName f as, n, s, r, s', a, vs, σ, h, h' => by
    simp only [Ex.Eval] at h
    simp only [Ex.Enters] at h'
    obtain ⟨d, ws, t, v, a1, a2, a3, rfl⟩ := h
    obtain ⟨d', b1, b2 | ⟨rfl, b2⟩⟩ := h'
    · exact evalArgs_enters as _ _ _ _ _ _ _ a2 b2
    · rw [a1] at b1; cases b1
      obtain ⟨rfl, rfl⟩ := evalArgs_det hR as _ _ _ _ _ _ (evalArgs_sub hR hS a2) b2
      exact ⟨_, _, a3⟩
  | .call f as, n, s, r, s', a, vs, σ, h, h' => by
    simp only [Ex.Eval] at h
    simp only [Ex.Enters] at h'
    obtain ⟨d, u, ws, t, v, a1, a2, a3, rfl⟩ := h
    rcases h' with h' | ⟨d', u', b1, b2⟩
    · exact eval_enters f _ _ _ _ _ _ _ a1 h'
    · obtain ⟨rfl, rfl⟩ := eval_det hR f _ _ _ _ _ _ (eval_sub hR hS a1) b1
      rcases b2 with b2 | ⟨rfl, b2⟩
      · exact evalArgs_enters as _ _ _ _ _ _ _ a2 b2
      · obtain ⟨rfl, rfl⟩ := evalArgs_det hR as _ _ _ _ _ _ (evalArgs_sub hR hS a2) b2
        exact ⟨_, _, a3⟩
  | .bin o x y, n, s, r, s', a, vs, σ, h, h' => by
    simp only [Ex.Eval] at h
    simp only [Ex.Enters] at h'
    obtain ⟨d1, t, d2, v, a1, a2, a3, rfl⟩ := h
    rcases h' with h' | ⟨d1', t', b1, h'⟩
    · exact eval_enters x _ _ _ _ _ _ _ a1 h'
    · obtain ⟨rfl, rfl⟩ := eval_det hR x _ _ _ _ _ _ (eval_sub hR hS a1) b1
      exact eval_enters y _ _ _ _ _ _ _ a2 h'
  | .cond c t e, n, s, r, s', a, vs, σ, h, h' => by
    simp only [Ex.Eval] at h
    simp only [Ex.Enters] at h'
    obtain ⟨d, u, d1, a1, rfl, a2⟩ := h
    rcases h' with h' | ⟨d', u', b1, h'⟩
    · exact eval_enters c _ _ _ _ _ _ _ a1 h'
    · obtain ⟨rfl, rfl⟩ := eval_det hR c _ _ _ _ _ _ (eval_sub hR hS a1) b1
      by_cases hc : d.value u.mem ≠ 0
      · rw [if_pos hc] at a2 h'
        exact eval_enters t _ _ _ _ _ _ _ a2 h'
      · rw [if_neg hc] at a2 h'
        exact eval_enters e _ _ _ _ _ _ _ a2 h'
  | .assign none x y, n, s, r, s', a, vs, σ, h, h' => by
    simp only [Ex.Eval] at h
    simp only [Ex.Enters] at h'
    obtain ⟨b, t, d2, u, a1, a2, rfl, rfl⟩ := h
    rcases h' with h' | ⟨b', t', b1, h'⟩
    · exact eval_enters x _ _ _ _ _ _ _ a1 h'
    · obtain ⟨e, rfl⟩ := eval_det hR x _ _ _ _ _ _ (eval_sub hR hS a1) b1
      cases e
      exact eval_enters y _ _ _ _ _ _ _ a2 h'
  | .assign (some o) x y, n, s, r, s', a, vs, σ, h, h' => by
    simp only [Ex.Eval] at h
    simp only [Ex.Enters] at h'
    obtain ⟨b, t, d2, u, v, a1, a2, a3, rfl, rfl⟩ := h
    rcases h' with h' | ⟨b', t', b1, h'⟩
    · exact eval_enters x _ _ _ _ _ _ _ a1 h'
    · obtain ⟨e, rfl⟩ := eval_det hR x _ _ _ _ _ _ (eval_sub hR hS a1) b1
      cases e
      exact eval_enters y _ _ _ _ _ _ _ a2 h'

theorem evalArgs_enters : ∀ (es : List Ex) (n : Nat) (s : Store B.World) (ws : List Word) (s' : Store B.World) (a : Word) (vs : List Word)
    (σ : Store B.World), Ex.EvalArgs B S E ρ es n s ws s' → Ex.EntersArgs B R E ρ es n s a vs σ → ∃ v σ', S a vs σ v σ'
  | [], n, s, ws, s', a, vs, σ, h, h' => by simp only [Ex.EntersArgs] at h'
  | e :: es, n, s, ws, s', a, vs, σ, h, h' => by
    simp only [Ex.EvalArgs] at h
    simp only [Ex.EntersArgs] at h'
    obtain ⟨d, t, ws', a1, a2, rfl⟩ := h
    rcases h' with h' | ⟨d', t', b1, h'⟩
    · exact eval_enters e _ _ _ _ _ _ _ a1 h'
    · obtain ⟨rfl, rfl⟩ := eval_det hR e _ _ _ _ _ _ (eval_sub hR hS a1) b1
      exact evalArgs_enters es _ _ _ _ _ _ _ a2 h'
end

/-- a call made in a state in which a step is possible has returned -/
theorem bstep_enters {P : Place} {body : St} {x y : BState B.World} {a : Word} {vs : List Word} {σ : Store B.World}
    (h : BStep B S P body x y) (h' : x.Enters B R a vs σ) : ∃ v σ', S a vs σ v σ' := by
  obtain ⟨P', s, k, ρ, σ0, e, rfl, hs, he⟩ := h'
  have val : ∀ {v : Word} {σ' : Store B.World}, e.Value B S P' ρ σ0 v σ' → ∃ v σ', S a vs σ v σ' := by
    rintro v σ' ⟨d, h1, _⟩
    exact eval_enters hR hS e _ _ _ _ _ _ _ h1 he
  cases h with
  | endFun => cases hs
  | endSeq => cases hs
  | endLoop => cases hs
  | seq => cases hs
  | ret0 => cases hs
  | auto => cases hs
  | extrn => cases hs
  | case => cases hs
  | label => cases hs
  | goto _ => cases hs
  | expr h => cases hs; exact val h
  | ret h => cases hs; exact val h
  | ifTrue h _ => cases hs; exact val h
  | ifFalse h _ => cases hs; exact val h
  | elseTrue h _ => cases hs; exact val h
  | elseFalse h _ => cases hs; exact val h
  | whileTrue h _ => cases hs; exact val h
  | whileFalse h _ => cases hs; exact val h
  | switchCase h _ => cases hs; exact val h
  | switchNone h _ => cases hs; exact val h
end
/-! ### the call in which an expression hangs is unique -/

section
variable (hR : Functional R) {E : Env} {ρ : Frame} {a b : Word} {vs ws : List Word} {σ τ : Store B.World}
  (ha : ∀ v s', ¬ R a vs σ v s') (hb : ∀ v s', ¬ R b ws τ v s')
include hR ha hb

omit hb in
theorem no_eval {e : Ex} {n : Nat} {s s' : Store B.World} {r : Res} {C : Prop} (h : e.Eval B R E ρ n s r s')
    (h' : e.Enters B R E ρ n s a vs σ) : C := by
  obtain ⟨v, s', hr⟩ := eval_enters hR (fun _ _ _ _ _ h => h) e _ _ _ _ _ _ _ h h'
  exact (ha v s' hr).elim

omit hb in
theorem no_evalArgs {es : List Ex} {n : Nat} {s s' : Store B.World} {us : List Word} {C : Prop} (h : Ex.EvalArgs B R E ρ es n s us s')
    (h' : Ex.EntersArgs B R E ρ es n s a vs σ) : C := by
  obtain ⟨v, s', hr⟩ := evalArgs_enters hR (fun _ _ _ _ _ h => h) es _ _ _ _ _ _ _ h h'
  exact (ha v s' hr).elim

mutual
theorem enters_det : ∀ (e : Ex) (n : Nat) (s : Store B.World), e.Enters B R E ρ n s a vs σ → e.Enters B R E ρ n s b ws τ →
    a = b ∧ vs = ws ∧ σ = τ
  | .num v, n, s, h, h' => h'.elim
  | .str _, n, s, h, h' => h'.elim
  | .var x, n, s, h, h' => h'.elim
  | .paren e, n, s, h, h' => by
    simp only [Ex.Enters] at h h'
    exact enters_det e _ _ h h'
  | .not e, n, s, h, h' => by
    simp only [Ex.Enters] at h h'
    exact enters_det e _ _ h h'
  | .neg e, n, s, h, h' => by
    simp only [Ex.Enters] at h h'
    exact enters_det e _ _ h h'
  | .deref e, n, s, h, h' => by
    simp only [Ex.Enters] at h h'
    exact enters_det e _ _ h h'
  | .addr e, n, s, h, h' => by
    simp only [Ex.Enters] at h h'
    exact enters_det e _ _ h h'
  | .post _ e, n, s, h, h' => by
    simp only [Ex.Enters] at h h'
    exact enters_det e _ _ h h'
  | .pre _ e, n, s, h, h' => by
    simp only [Ex.Enters] at h h'
    exact enters_det e _ _ h h'
  | .index x y, n, s, h, h' => by
    simp only [Ex.Enters] at h h'
    rcases h with h | ⟨d1, t, a1, h⟩
    · rcases h' with h' | ⟨d1', t', b1, h'⟩
      · exact enters_det x _ _ h h'
      · exact no_eval hR ha b1 h
    · rcases h' with h' | ⟨d1', t', b1, h'⟩
      · exact no_eval hR hb a1 h'
      · obtain ⟨rfl, rfl⟩ := eval_det hR x _ _ _ _ _ _ a1 b1
        exact enters_det y _ _ h h'
  | .bin _ x y, n, s, h, h' => by
    simp only [Ex.Enters] at h h'
    rcases h with h | ⟨d1, t, a1, h⟩
    · rcases h' with h' | ⟨d1', t', b1, h'⟩
      · exact enters_det x _ _ h h'
      · exact no_eval hR ha b1 h
    · rcases h' with h' | ⟨d1', t', b1, h'⟩
      · exact no_eval hR hb a1 h'
      · obtain ⟨rfl, rfl⟩ := eval_det hR x _ _ _ _ _ _ a1 b1
        exact enters_det y _ _ h h'
  | .assign _ x y, n, s, h, h' => by
    simp only [Ex.Enters] at h h'
    rcases h with h | ⟨d1, t, a1, h⟩
    · rcases h' with h' | ⟨d1', t', b1, h'⟩
      · exact enters_det x _ _ h h'
      · exact no_eval hR ha b1 h
    · rcases h' with h' | ⟨d1', t', b1, h'⟩
      · exact no_eval hR hb a1 h'
      · obtain ⟨e, rfl⟩ := eval_det hR x _ _ _ _ _ _ a1 b1
        exact enters_det y _ _ h h'
  | .callName f as, n, s, h, h' => by
    simp only [Ex.Enters] at h h'
    obtain ⟨d, a1, h⟩ := h
    obtain ⟨d', b1, h'⟩ := h'
    rw [a1] at b1; cases b1
    rcases h with h | ⟨rfl, h⟩
    · rcases h' with h' | ⟨rfl, h'⟩
      · exact entersArgs_det as _ _ h h'
      · exact no_evalArgs hR ha h' h
    · rcases h' with h' | ⟨rfl, h'⟩
      · exact no_evalArgs hR hb h h'
      · obtain ⟨rfl, rfl⟩ := evalArgs_det hR as _ _ _ _ _ _ h h'
        exact ⟨rfl, rfl, rfl⟩
  | .call f as, n, s, h, h' => by
    simp only [Ex.Enters] at h h'
    rcases h with h | ⟨d, t, a1, h⟩
    · rcases h' with h' | ⟨d', t', b1, h'⟩
      · exact enters_det f _ _ h h'
      · exact no_eval hR ha b1 h
    · rcases h' with h' | ⟨d', t', b1, h'⟩
      · exact no_eval hR hb a1 h'
      · obtain ⟨rfl, rfl⟩ := eval_det hR f _ _ _ _ _ _ a1 b1
        rcases h with h | ⟨rfl, h⟩
        · rcases h' with h' | ⟨rfl, h'⟩
          · exact entersArgs_det as _ _ h h'
          · exact no_evalArgs hR ha h' h
        · rcases h' with h' | ⟨rfl, h'⟩
          · exact no_evalArgs hR hb h h'
          · obtain ⟨rfl, rfl⟩ := evalArgs_det hR as _ _ _ _ _ _ h h'
            exact ⟨rfl, rfl, rfl⟩
  | .cond c t e, n, s, h, h' => by
    simp only [Ex.Enters] at h h'
    rcases h with h | ⟨d, u, a1, h⟩
    · rcases h' with h' | ⟨d', u', b1, h'⟩
      · exact enters_det c _ _ h h'
      · exact no_eval hR ha b1 h
    · rcases h' with h' | ⟨d', u', b1, h'⟩
      · exact no_eval hR hb a1 h'
      · obtain ⟨rfl, rfl⟩ := eval_det hR c _ _ _ _ _ _ a1 b1
        by_cases hc : d.value u.mem ≠ 0
        · rw [if_pos hc] at h h'
          exact enters_det t _ _ h h'
        · rw [if_neg hc] at h h'
          exact enters_det e _ _ h h'

theorem entersArgs_det : ∀ (es : List Ex) (n : Nat) (s : Store B.World), Ex.EntersArgs B R E ρ es n s a vs σ →
    Ex.EntersArgs B R E ρ es n s b ws τ → a = b ∧ vs = ws ∧ σ = τ
  | [], n, s, h, h' => by simp only [Ex.EntersArgs] at h'
  | e :: es, n, s, h, h' => by
    simp only [Ex.EntersArgs] at h h'
    rcases h with h | ⟨d, t, a1, h⟩
    · rcases h' with h' | ⟨d', t', b1, h'⟩
      · exact enters_det e _ _ h h'
      · exact no_eval hR ha b1 h
    · rcases h' with h' | ⟨d', t', b1, h'⟩
      · exact no_eval hR hb a1 h'
      · obtain ⟨rfl, rfl⟩ := eval_det hR e _ _ _ _ _ _ a1 b1
        exact entersArgs_det es _ _ h h'
end

theorem state_enters_det {x : BState B.World} (h : x.Enters B R a vs σ) (h' : x.Enters B R b ws τ) : a = b ∧ vs = ws ∧ σ = τ := by
  obtain ⟨P, s, k, ρ, σ0, e, rfl, hs, he⟩ := h
  obtain ⟨P', s', k', ρ', σ0', e', heq, hs', he'⟩ := h'
  cases heq
  rw [hs] at hs'; cases hs'
  exact enters_det hR ha hb e _ _ he he'
end

/-- two ends of a run are the same -/
theorem bends_eq (hR : Functional R) {P : Place} {body : St} {x y z : BState B.World} (h1 : BSteps B R P body x y) (h2 : BSteps B R P body x z)
    (e1 : ∀ u, ¬ BStep B R P body y u) (e2 : ∀ u, ¬ BStep B R P body z u) : y = z := by
  have := bsteps_through hR (fun _ _ _ _ _ h => h) e2 h1 h2
  cases this with
  | refl => rfl
  | head h _ => exact absurd h (e1 _)

/-- a state that is reached is part of an endless run -/
theorem on_endless (hR : Functional R) {P : Place} {body : St} {x y : BState B.World} (h : BSteps B R P body x y) {xs : Nat → BState B.World}
    (hx : ∀ i, BStep B R P body (xs i) (xs (i + 1))) : ∀ i, x = xs i → ∃ j, y = xs j := by
  induction h with
  | refl => exact fun i e => ⟨i, e⟩
  | head a _ ih =>
    rintro i rfl
    exact ih (i + 1) (bstep_det hR a (hx i))
end
end Blang
