import Verif.Spec.Wrong
import Verif.Proofs.Events
/-
Runs of a program in which fewer calls return, and the end of a run.
-/
namespace Blang
open Spec

/-- A run gets to a state where it cannot go on, or it is endless. -/
theorem end_or_endless {α : Type} {S T : α → α → Prop} (hr : ∀ x, T x x) (ht : ∀ {x y z}, S x y → T y z → T x z) (x : α) :
    (∃ y, T x y ∧ ∀ z, ¬ S y z) ∨ ∃ xs : Nat → α, xs 0 = x ∧ ∀ i, S (xs i) (xs (i + 1)) := by
  by_cases h : ∃ y, T x y ∧ ∀ z, ¬ S y z
  · exact .inl h
  · right
    have next : ∀ y : {y : α // ¬ ∃ z, T y z ∧ ∀ u, ¬ S z u}, ∃ z : {y : α // ¬ ∃ z, T y z ∧ ∀ u, ¬ S z u}, S y.1 z.1 := by
      rintro ⟨y, hy⟩
      by_cases hz : ∃ z, S y z
      · obtain ⟨z, hz⟩ := hz
        exact ⟨⟨z, fun ⟨u, h1, h2⟩ => hy ⟨u, ht hz h1, h2⟩⟩, hz⟩
      · exact absurd ⟨y, hr y, fun z h => hz ⟨z, h⟩⟩ hy
    let xs : Nat → {y : α // ¬ ∃ z, T y z ∧ ∀ u, ¬ S z u} := fun n => Nat.rec ⟨x, h⟩ (fun _ y => Classical.choose (next y)) n
    exact ⟨fun i => (xs i).1, rfl, fun i => Classical.choose_spec (next (xs i))⟩

section
variable {B : BMachine} {R R' : Calls B.World} {Q : Word → List Word → Store B.World → Prop}

/-- one of the calls `Q` is made -/
def _root_.Blang.Spec.Ex.EntersQ (B : BMachine) (R : Calls B.World) (Q : Word → List Word → Store B.World → Prop) (E : Env) (ρ : Frame) (e : Ex)
    (n : Nat) (s : Store B.World) : Prop := ∃ a vs σ, Q a vs σ ∧ e.Enters B R E ρ n s a vs σ

def EntersArgsQ (B : BMachine) (R : Calls B.World) (Q : Word → List Word → Store B.World → Prop) (E : Env) (ρ : Frame) (es : List Ex)
    (n : Nat) (s : Store B.World) : Prop := ∃ a vs σ, Q a vs σ ∧ Ex.EntersArgs B R E ρ es n s a vs σ

section
variable (hR : ∀ a vs s v s', R a vs s v s' → R' a vs s v s' ∨ Q a vs s) {E : Env} {ρ : Frame}
include hR

mutual
theorem eval_or : ∀ (e : Ex) (n : Nat) (s : Store B.World) (r : Res) (s' : Store B.World),
    e.Eval B R E ρ n s r s' → e.Eval B R' E ρ n s r s' ∨ e.EntersQ B R' Q E ρ n s
  | .num v, n, s, r, s', h => .inl h
  | .str _, n, s, r, s', h => .inl h
  | .var x, n, s, r, s', h => .inl h
  | .paren e, n, s, r, s', h => by
    simp only [Ex.Eval] at h ⊢
    obtain ⟨d, h1, h2⟩ := h
    rcases eval_or e _ _ _ _ h1 with h1 | ⟨a, vs, σ, q, h1⟩
    · exact .inl ⟨d, h1, h2⟩
    · exact .inr ⟨a, vs, σ, q, h1⟩
  | .not e, n, s, r, s', h => by
    simp only [Ex.Eval] at h ⊢
    obtain ⟨d, h1, h2⟩ := h
    rcases eval_or e _ _ _ _ h1 with h1 | ⟨a, vs, σ, q, h1⟩
    · exact .inl ⟨d, h1, h2⟩
    · exact .inr ⟨a, vs, σ, q, h1⟩
  | .neg e, n, s, r, s', h => by
    simp only [Ex.Eval] at h ⊢
    obtain ⟨d, h1, h2⟩ := h
    rcases eval_or e _ _ _ _ h1 with h1 | ⟨a, vs, σ, q, h1⟩
    · exact .inl ⟨d, h1, h2⟩
    · exact .inr ⟨a, vs, σ, q, h1⟩
  | .deref e, n, s, r, s', h => by
    simp only [Ex.Eval] at h ⊢
    obtain ⟨d, h1, h2⟩ := h
    rcases eval_or e _ _ _ _ h1 with h1 | ⟨a, vs, σ, q, h1⟩
    · exact .inl ⟨d, h1, h2⟩
    · exact .inr ⟨a, vs, σ, q, h1⟩
  | .addr e, n, s, r, s', h => by
    simp only [Ex.Eval] at h ⊢
    obtain ⟨d, h1, h2⟩ := h
    rcases eval_or e _ _ _ _ h1 with h1 | ⟨a, vs, σ, q, h1⟩
    · exact .inl ⟨d, h1, h2⟩
    · exact .inr ⟨a, vs, σ, q, h1⟩
  | .post _ e, n, s, r, s', h => by
    simp only [Ex.Eval] at h ⊢
    obtain ⟨d, s1, h1, h2⟩ := h
    rcases eval_or e _ _ _ _ h1 with h1 | ⟨a, vs, σ, q, h1⟩
    · exact .inl ⟨d, s1, h1, h2⟩
    · exact .inr ⟨a, vs, σ, q, h1⟩
  | .pre _ e, n, s, r, s', h => by
    simp only [Ex.Eval] at h ⊢
    obtain ⟨d, s1, h1, h2⟩ := h
    rcases eval_or e _ _ _ _ h1 with h1 | ⟨a, vs, σ, q, h1⟩
    · exact .inl ⟨d, s1, h1, h2⟩
    · exact .inr ⟨a, vs, σ, q, h1⟩
  | .index x i, n, s, r, s', h => by
    simp only [Ex.Eval] at h ⊢
    obtain ⟨d1, s1, d2, h1, h2, h3⟩ := h
    rcases eval_or x _ _ _ _ h1 with h1 | ⟨a, vs, σ, q, h1⟩
    · rcases eval_or i _ _ _ _ h2 with h2 | ⟨a, vs, σ, q, h2⟩
      · exact .inl ⟨d1, s1, d2, h1, h2, h3⟩
      · exact .inr ⟨a, vs, σ, q, .inr ⟨d1, s1, h1, h2⟩⟩
    · exact .inr ⟨a, vs, σ, q, .inl h1⟩
  | .callName f as, n, s, r, s', h => by
    simp only [Ex.Eval] at h ⊢
    obtain ⟨d, ws, s1, v, h1, h2, h3, h4⟩ := h
    rcases evalArgs_or as _ _ _ _ h2 with h2 | ⟨a, vs, σ, q, h2⟩
    · rcases hR _ _ _ _ _ h3 with h3 | q
      · exact .inl ⟨d, ws, s1, v, h1, h2, h3, h4⟩
      · exact .inr ⟨_, _, _, q, d, h1, .inr ⟨rfl, h2⟩⟩
    · exact .inr ⟨a, vs, σ, q, d, h1, .inl h2⟩
  | .call f as, n, s, r, s', h => by
    simp only [Ex.Eval] at h ⊢
    obtain ⟨d, s1, ws, s2, v, h1, h2, h3, h4⟩ := h
    rcases eval_or f _ _ _ _ h1 with h1 | ⟨a, vs, σ, q, h1⟩
    · rcases evalArgs_or as _ _ _ _ h2 with h2 | ⟨a, vs, σ, q, h2⟩
      · rcases hR _ _ _ _ _ h3 with h3 | q
        · exact .inl ⟨d, s1, ws, s2, v, h1, h2, h3, h4⟩
        · exact .inr ⟨_, _, _, q, .inr ⟨d, s1, h1, .inr ⟨rfl, h2⟩⟩⟩
      · exact .inr ⟨a, vs, σ, q, .inr ⟨d, s1, h1, .inl h2⟩⟩
    · exact .inr ⟨a, vs, σ, q, .inl h1⟩
  | .bin o x y, n, s, r, s', h => by
    simp only [Ex.Eval] at h ⊢
    obtain ⟨d1, s1, d2, v, h1, h2, h3⟩ := h
    rcases eval_or x _ _ _ _ h1 with h1 | ⟨a, vs, σ, q, h1⟩
    · rcases eval_or y _ _ _ _ h2 with h2 | ⟨a, vs, σ, q, h2⟩
      · exact .inl ⟨d1, s1, d2, v, h1, h2, h3⟩
      · exact .inr ⟨a, vs, σ, q, .inr ⟨d1, s1, h1, h2⟩⟩
    · exact .inr ⟨a, vs, σ, q, .inl h1⟩
  | .cond c t e, n, s, r, s', h => by
    simp only [Ex.Eval] at h ⊢
    obtain ⟨d, s1, d', h1, h2, h3⟩ := h
    rcases eval_or c _ _ _ _ h1 with h1 | ⟨a, vs, σ, q, h1⟩
    · by_cases hc : d.value s1.mem ≠ 0
      · rw [if_pos hc] at h3
        rcases eval_or t _ _ _ _ h3 with h3 | ⟨a, vs, σ, q, h3⟩
        · exact .inl ⟨d, s1, d', h1, h2, by rw [if_pos hc]; exact h3⟩
        · exact .inr ⟨a, vs, σ, q, .inr ⟨d, s1, h1, by rw [if_pos hc]; exact h3⟩⟩
      · rw [if_neg hc] at h3
        rcases eval_or e _ _ _ _ h3 with h3 | ⟨a, vs, σ, q, h3⟩
        · exact .inl ⟨d, s1, d', h1, h2, by rw [if_neg hc]; exact h3⟩
        · exact .inr ⟨a, vs, σ, q, .inr ⟨d, s1, h1, by rw [if_neg hc]; exact h3⟩⟩
    · exact .inr ⟨a, vs, σ, q, .inl h1⟩
  | .assign none x y, n, s, r, s', h => by
    simp only [Ex.Eval] at h ⊢
    obtain ⟨b, s1, d, s2, h1, h2, h3⟩ := h
    rcases eval_or x _ _ _ _ h1 with h1 | ⟨a, vs, σ, q, h1⟩
    · rcases eval_or y _ _ _ _ h2 with h2 | ⟨a, vs, σ, q, h2⟩
      · exact .inl ⟨b, s1, d, s2, h1, h2, h3⟩
      · exact .inr ⟨a, vs, σ, q, .inr ⟨b, s1, h1, h2⟩⟩
    · exact .inr ⟨a, vs, σ, q, .inl h1⟩
  | .assign (some o) x y, n, s, r, s', h => by
    simp only [Ex.Eval] at h ⊢
    obtain ⟨b, s1, d, s2, v, h1, h2, h3⟩ := h
    rcases eval_or x _ _ _ _ h1 with h1 | ⟨a, vs, σ, q, h1⟩
    · rcases eval_or y _ _ _ _ h2 with h2 | ⟨a, vs, σ, q, h2⟩
      · exact .inl ⟨b, s1, d, s2, v, h1, h2, h3⟩
      · exact .inr ⟨a, vs, σ, q, .inr ⟨b, s1, h1, h2⟩⟩
    · exact .inr ⟨a, vs, σ, q, .inl h1⟩

theorem evalArgs_or : ∀ (es : List Ex) (n : Nat) (s : Store B.World) (vs : List Word) (s' : Store B.World),
    Ex.EvalArgs B R E ρ es n s vs s' → Ex.EvalArgs B R' E ρ es n s vs s' ∨ EntersArgsQ B R' Q E ρ es n s
  | [], n, s, vs, s', h => .inl h
  | e :: es, n, s, vs, s', h => by
    simp only [Ex.EvalArgs] at h ⊢
    obtain ⟨d, s1, ws, h1, h2, h3⟩ := h
    rcases eval_or e _ _ _ _ h1 with h1 | ⟨a, vs, σ, q, h1⟩
    · rcases evalArgs_or es _ _ _ _ h2 with h2 | ⟨a, vs, σ, q, h2⟩
      · exact .inl ⟨d, s1, ws, h1, h2, h3⟩
      · exact .inr ⟨a, vs, σ, q, .inr ⟨d, s1, h1, h2⟩⟩
    · exact .inr ⟨a, vs, σ, q, .inl h1⟩
end

mutual
theorem enters_or : ∀ (e : Ex) (n : Nat) (s : Store B.World) (b : Word) (ws : List Word) (s' : Store B.World),
    e.Enters B R E ρ n s b ws s' → e.Enters B R' E ρ n s b ws s' ∨ e.EntersQ B R' Q E ρ n s
  | .num v, n, s, b, ws, s', h => .inl h
  | .str _, n, s, b, ws, s', h => .inl h
  | .var x, n, s, b, ws, s', h => .inl h
  | .paren e, n, s, b, ws, s', h => by
    simp only [Ex.Enters] at h ⊢
    rcases enters_or e _ _ _ _ _ h with h1 | ⟨a, vs, σ, q, h1⟩
    · exact .inl h1
    · exact .inr ⟨a, vs, σ, q, h1⟩
  | .not e, n, s, b, ws, s', h => by
    simp only [Ex.Enters] at h ⊢
    rcases enters_or e _ _ _ _ _ h with h1 | ⟨a, vs, σ, q, h1⟩
    · exact .inl h1
    · exact .inr ⟨a, vs, σ, q, h1⟩
  | .neg e, n, s, b, ws, s', h => by
    simp only [Ex.Enters] at h ⊢
    rcases enters_or e _ _ _ _ _ h with h1 | ⟨a, vs, σ, q, h1⟩
    · exact .inl h1
    · exact .inr ⟨a, vs, σ, q, h1⟩
  | .deref e, n, s, b, ws, s', h => by
    simp only [Ex.Enters] at h ⊢
    rcases enters_or e _ _ _ _ _ h with h1 | ⟨a, vs, σ, q, h1⟩
    · exact .inl h1
    · exact .inr ⟨a, vs, σ, q, h1⟩
  | .addr e, n, s, b, ws, s', h => by
    simp only [Ex.Enters] at h ⊢
    rcases enters_or e _ _ _ _ _ h with h1 | ⟨a, vs, σ, q, h1⟩
    · exact .inl h1
    · exact .inr ⟨a, vs, σ, q, h1⟩
  | .post _ e, n, s, b, ws, s', h => by
    simp only [Ex.Enters] at h ⊢
    rcases enters_or e _ _ _ _ _ h with h1 | ⟨a, vs, σ, q, h1⟩
    · exact .inl h1
    · exact .inr ⟨a, vs, σ, q, h1⟩
  | .pre _ e, n, s, b, ws, s', h => by
    simp only [Ex.Enters] at h ⊢
    rcases enters_or e _ _ _ _ _ h with h1 | ⟨a, vs, σ, q, h1⟩
    · exact .inl h1
    · exact .inr ⟨a, vs, σ, q, h1⟩
  | .index x y, n, s, b, ws, s', h => by
    simp only [Ex.Enters] at h ⊢
    rcases h with h | ⟨d, s1, h1, h2⟩
    · rcases enters_or x _ _ _ _ _ h with h1 | ⟨a, vs, σ, q, h1⟩
      · exact .inl (.inl h1)
      · exact .inr ⟨a, vs, σ, q, .inl h1⟩
    · rcases eval_or hR x _ _ _ _ h1 with h1 | ⟨a, vs, σ, q, h1⟩
      · rcases enters_or y _ _ _ _ _ h2 with h2 | ⟨a, vs, σ, q, h2⟩
        · exact .inl (.inr ⟨d, s1, h1, h2⟩)
        · exact .inr ⟨a, vs, σ, q, .inr ⟨d, s1, h1, h2⟩⟩
      · exact .inr ⟨a, vs, σ, q, .inl h1⟩
  | .bin _ x y, n, s, b, ws, s', h => by
    simp only [Ex.Enters] at h ⊢
    rcases h with h | ⟨d, s1, h1, h2⟩
    · rcases enters_or x _ _ _ _ _ h with h1 | ⟨a, vs, σ, q, h1⟩
      · exact .inl (.inl h1)
      · exact .inr ⟨a, vs, σ, q, .inl h1⟩
    · rcases eval_or hR x _ _ _ _ h1 with h1 | ⟨a, vs, σ, q, h1⟩
      · rcases enters_or y _ _ _ _ _ h2 with h2 | ⟨a, vs, σ, q, h2⟩
        · exact .inl (.inr ⟨d, s1, h1, h2⟩)
        · exact .inr ⟨a, vs, σ, q, .inr ⟨d, s1, h1, h2⟩⟩
      · exact .inr ⟨a, vs, σ, q, .inl h1⟩
  | .assign _ x y, n, s, b, ws, s', h => by
    simp only [Ex.Enters] at h ⊢
    rcases h with h | ⟨d, s1, h1, h2⟩
    · rcases enters_or x _ _ _ _ _ h with h1 | ⟨a, vs, σ, q, h1⟩
      · exact .inl (.inl h1)
      · exact .inr ⟨a, vs, σ, q, .inl h1⟩
    · rcases eval_or hR x _ _ _ _ h1 with h1 | ⟨a, vs, σ, q, h1⟩
      · rcases enters_or y _ _ _ _ _ h2 with h2 | ⟨a, vs, σ, q, h2⟩
        · exact .inl (.inr ⟨d, s1, h1, h2⟩)
        · exact .inr ⟨a, vs, σ, q, .inr ⟨d, s1, h1, h2⟩⟩
      · exact .inr ⟨a, vs, σ, q, .inl h1⟩
  | .callName f as, n, s, b, ws, s', h => by
    simp only [Ex.Enters] at h ⊢
    obtain ⟨d, h1, h2 | ⟨h2, h3⟩⟩ := h
    · rcases entersArgs_or as _ _ _ _ _ h2 with h2 | ⟨a, vs, σ, q, h2⟩
      · exact .inl ⟨d, h1, .inl h2⟩
      · exact .inr ⟨a, vs, σ, q, d, h1, .inl h2⟩
    · rcases evalArgs_or hR as _ _ _ _ h3 with h3 | ⟨a, vs, σ, q, h3⟩
      · exact .inl ⟨d, h1, .inr ⟨h2, h3⟩⟩
      · exact .inr ⟨a, vs, σ, q, d, h1, .inl h3⟩
  | .call f as, n, s, b, ws, s', h => by
    simp only [Ex.Enters] at h ⊢
    rcases h with h | ⟨d, s1, h1, h2⟩
    · rcases enters_or f _ _ _ _ _ h with h1 | ⟨a, vs, σ, q, h1⟩
      · exact .inl (.inl h1)
      · exact .inr ⟨a, vs, σ, q, .inl h1⟩
    · rcases eval_or hR f _ _ _ _ h1 with h1 | ⟨a, vs, σ, q, h1⟩
      · rcases h2 with h2 | ⟨h2, h3⟩
        · rcases entersArgs_or as _ _ _ _ _ h2 with h2 | ⟨a, vs, σ, q, h2⟩
          · exact .inl (.inr ⟨d, s1, h1, .inl h2⟩)
          · exact .inr ⟨a, vs, σ, q, .inr ⟨d, s1, h1, .inl h2⟩⟩
        · rcases evalArgs_or hR as _ _ _ _ h3 with h3 | ⟨a, vs, σ, q, h3⟩
          · exact .inl (.inr ⟨d, s1, h1, .inr ⟨h2, h3⟩⟩)
          · exact .inr ⟨a, vs, σ, q, .inr ⟨d, s1, h1, .inl h3⟩⟩
      · exact .inr ⟨a, vs, σ, q, .inl h1⟩
  | .cond c t e, n, s, b, ws, s', h => by
    simp only [Ex.Enters] at h ⊢
    rcases h with h | ⟨d, s1, h1, h2⟩
    · rcases enters_or c _ _ _ _ _ h with h1 | ⟨a, vs, σ, q, h1⟩
      · exact .inl (.inl h1)
      · exact .inr ⟨a, vs, σ, q, .inl h1⟩
    · rcases eval_or hR c _ _ _ _ h1 with h1 | ⟨a, vs, σ, q, h1⟩
      · by_cases hc : d.value s1.mem ≠ 0
        · rw [if_pos hc] at h2
          rcases enters_or t _ _ _ _ _ h2 with h2 | ⟨a, vs, σ, q, h2⟩
          · exact .inl (.inr ⟨d, s1, h1, by rw [if_pos hc]; exact h2⟩)
          · exact .inr ⟨a, vs, σ, q, .inr ⟨d, s1, h1, by rw [if_pos hc]; exact h2⟩⟩
        · rw [if_neg hc] at h2
          rcases enters_or e _ _ _ _ _ h2 with h2 | ⟨a, vs, σ, q, h2⟩
          · exact .inl (.inr ⟨d, s1, h1, by rw [if_neg hc]; exact h2⟩)
          · exact .inr ⟨a, vs, σ, q, .inr ⟨d, s1, h1, by rw [if_neg hc]; exact h2⟩⟩
      · exact .inr ⟨a, vs, σ, q, .inl h1⟩

theorem entersArgs_or : ∀ (es : List Ex) (n : Nat) (s : Store B.World) (b : Word) (ws : List Word) (s' : Store B.World),
    Ex.EntersArgs B R E ρ es n s b ws s' → Ex.EntersArgs B R' E ρ es n s b ws s' ∨ EntersArgsQ B R' Q E ρ es n s
  | [], n, s, b, ws, s', h => .inl h
  | e :: es, n, s, b, ws, s', h => by
    simp only [Ex.EntersArgs] at h ⊢
    rcases h with h | ⟨d, s1, h1, h2⟩
    · rcases enters_or e _ _ _ _ _ h with h1 | ⟨a, vs, σ, q, h1⟩
      · exact .inl (.inl h1)
      · exact .inr ⟨a, vs, σ, q, .inl h1⟩
    · rcases eval_or hR e _ _ _ _ h1 with h1 | ⟨a, vs, σ, q, h1⟩
      · rcases entersArgs_or es _ _ _ _ _ h2 with h2 | ⟨a, vs, σ, q, h2⟩
        · exact .inl (.inr ⟨d, s1, h1, h2⟩)
        · exact .inr ⟨a, vs, σ, q, .inr ⟨d, s1, h1, h2⟩⟩
      · exact .inr ⟨a, vs, σ, q, .inl h1⟩
end

/-- one of the calls `Q` is made in the state -/
theorem state_or {x : BState B.World} {b : Word} {ws : List Word} {s' : Store B.World} (h : x.Enters B R b ws s') :
    x.Enters B R' b ws s' ∨ ∃ a vs σ, Q a vs σ ∧ x.Enters B R' a vs σ := by
  obtain ⟨P, s, k, ρ, σ, e, rfl, hs, he⟩ := h
  rcases enters_or hR e _ _ _ _ _ he with he | ⟨a, vs, σ1, q, he⟩
  · exact .inl ⟨P, s, k, ρ, σ, e, rfl, hs, he⟩
  · exact .inr ⟨a, vs, σ1, q, P, s, k, ρ, σ, e, rfl, hs, he⟩

theorem bstep_or {P : Place} {body : St} {x y : BState B.World} (h : BStep B R P body x y) :
    BStep B R' P body x y ∨ ∃ a vs σ, Q a vs σ ∧ x.Enters B R' a vs σ := by
  have val : ∀ {P : Place} {s : St} {k : Cont} {ρ : Frame} {σ : Store B.World} {e : Ex} {v : Word} {σ' : Store B.World}, s.first = some e →
      e.Value B R P ρ σ v σ' → e.Value B R' P ρ σ v σ' ∨ ∃ a vs σ1, Q a vs σ1 ∧ BState.Enters B R' (.run P s k ρ σ) a vs σ1 := by
    rintro P s k ρ σ e v σ' hs ⟨d, h1, h2⟩
    rcases eval_or hR e _ _ _ _ h1 with h1 | ⟨a, vs, σ1, q, h1⟩
    · exact .inl ⟨d, h1, h2⟩
    · exact .inr ⟨a, vs, σ1, q, P, s, k, ρ, σ, e, rfl, hs, h1⟩
  cases h with
  | endFun => exact .inl .endFun
  | endSeq => exact .inl .endSeq
  | endLoop => exact .inl .endLoop
  | seq => exact .inl .seq
  | expr h => exact (val rfl h).imp .expr id
  | ret0 => exact .inl .ret0
  | ret h => exact (val rfl h).imp .ret id
  | auto => exact .inl .auto
  | extrn => exact .inl .extrn
  | ifTrue h h1 => exact (val rfl h).imp (.ifTrue · h1) id
  | ifFalse h h1 => exact (val rfl h).imp (.ifFalse · h1) id
  | elseTrue h h1 => exact (val rfl h).imp (.elseTrue · h1) id
  | elseFalse h h1 => exact (val rfl h).imp (.elseFalse · h1) id
  | whileTrue h h1 => exact (val rfl h).imp (.whileTrue · h1) id
  | whileFalse h h1 => exact (val rfl h).imp (.whileFalse · h1) id
  | switchCase h h1 => exact (val rfl h).imp (.switchCase · h1) id
  | switchNone h h1 => exact (val rfl h).imp (.switchNone · h1) id
  | case => exact .inl .case
  | label => exact .inl .label
  | goto h => exact .inl (.goto h)
end

theorem bstep_mono (hR : ∀ a vs s v s', R a vs s v s' → R' a vs s v s') {P : Place} {body : St} {x y : BState B.World}
    (h : BStep B R P body x y) : BStep B R' P body x y := by
  rcases bstep_or (Q := fun _ _ _ => False) (fun a vs s v s' h => .inl (hR a vs s v s' h)) h with h | ⟨_, _, _, h, _⟩
  · exact h
  · exact h.elim

theorem bsteps_mono (hR : ∀ a vs s v s', R a vs s v s' → R' a vs s v s') {P : Place} {body : St} {x y : BState B.World}
    (h : BSteps B R P body x y) : BSteps B R' P body x y := by
  induction h with
  | refl => exact .refl
  | head h1 _ ih => exact .head (bstep_mono hR h1) ih

theorem state_mono (hR : ∀ a vs s v s', R a vs s v s' → R' a vs s v s') {x : BState B.World} {b : Word} {ws : List Word} {s' : Store B.World}
    (h : x.Enters B R b ws s') : x.Enters B R' b ws s' := by
  rcases state_or (Q := fun _ _ _ => False) (fun a vs s v s' h => .inl (hR a vs s v s' h)) h with h | ⟨_, _, _, h, _⟩
  · exact h
  · exact h.elim
end

section
variable {M : IRMachine} {R R' : Calls M.World} {bs : List Block} {args : List Word}

/-- no step is possible -/
def AtEnd (M : IRMachine) (R : Calls M.World) (bs : List Block) (args : List Word) (g : Cfg M.World) : Prop := ∀ g', ¬ IRStep M R bs args g g'

theorem atEnd_eq (hR : Functional R) {g g1 g2 : Cfg M.World} (h1 : IRSteps M R bs args g g1) (h2 : IRSteps M R bs args g g2)
    (e1 : AtEnd M R bs args g1) (e2 : AtEnd M R bs args g2) : g1 = g2 := by
  induction h1 with
  | refl =>
    cases h2 with
    | refl => rfl
    | head h _ => exact absurd h (e1 _)
  | head h h' ih =>
    cases h2 with
    | refl => exact absurd h (e2 _)
    | head k k' =>
      have e := step_det hR h k
      subst e
      exact ih k' e1

theorem atEnd_not_long (hR : Functional R) {g g' : Cfg M.World} (h : IRSteps M R bs args g g') (hr : AtEnd M R bs args g') :
    ∃ n, ¬ Long R args bs n g := by
  induction h with
  | refl => exact ⟨1, fun ⟨_, h, _⟩ => hr _ h⟩
  | head h1 _ ih =>
    obtain ⟨n, hn⟩ := ih hr
    refine ⟨n + 1, fun ⟨g2, h2, h3⟩ => hn ?_⟩
    rw [step_det hR h1 h2]; exact h3

theorem calling_eq {g : Cfg M.World} {a b : Word} {vs ws : List Word} (h1 : g.Calling M bs args a vs) (h2 : g.Calling M bs args b ws) :
    a = b ∧ vs = ws := by
  obtain ⟨b1, i, f, xs, p1, p2, p3, p4, p5⟩ := h1
  obtain ⟨b2, j, f', xs', q1, q2, q3, q4, q5⟩ := h2
  rw [p1] at q1; cases q1
  rw [p2] at q2; cases q2
  rw [p4] at q4; cases q4
  rw [p5] at q5; cases q5
  exact ⟨rfl, rfl⟩

/-- a step that is not possible when fewer calls return is a call -/
theorem irstep_or {Q : Word → List Word → Store M.World → Prop} (hR : ∀ a vs s v s', R a vs s v s' → R' a vs s v s' ∨ Q a vs s)
    {g g' : Cfg M.World} (h : IRStep M R bs args g g') :
    IRStep M R' bs args g g' ∨ ∃ a vs, Q a vs g.st ∧ g.Calling M bs args a vs := by
  cases h with
  | term a1 a2 a3 a4 => exact .inl (.term a1 a2 a3 a4)
  | @inst b i inst r va st a1 a2 a3 =>
    cases inst with
    | call f xs =>
      cases f with
      | func s v n =>
        by_cases e1 : s = "llvm.va_start".toList
        · refine .inl (.inst a1 a2 ?_)
          simp only [Inst.Sem, if_pos e1] at a3 ⊢; exact a3
        · by_cases e2 : s = "llvm.va_end".toList
          · refine .inl (.inst a1 a2 ?_)
            simp only [Inst.Sem, if_neg e1, if_pos e2] at a3 ⊢; exact a3
          · simp only [Inst.Sem, if_neg e1, if_neg e2] at a3
            obtain ⟨⟨ws, q1, q2⟩, q3⟩ := a3
            rcases hR _ _ _ _ _ q2 with q2 | q2
            · refine .inl (.inst a1 a2 ?_)
              simp only [Inst.Sem, if_neg e1, if_neg e2]; exact ⟨⟨ws, q1, q2⟩, q3⟩
            · refine .inr ⟨_, _, q2, b, i, _, xs, a1, a2, ?_, rfl, q1⟩
              intro s' v' n' e; cases e; exact ⟨e1, e2⟩
      | _ =>
        obtain ⟨⟨a, ws, q0, q1, q2⟩, q3⟩ := a3
        rcases hR _ _ _ _ _ q2 with q2 | q2
        · exact .inl (.inst a1 a2 ⟨⟨a, ws, q0, q1, q2⟩, q3⟩)
        · exact .inr ⟨_, _, q2, b, i, _, xs, a1, a2, (fun _ _ _ e => by cases e), q0, q1⟩
    | _ => exact .inl (.inst a1 a2 a3)

/-- up to the first of these calls -/
theorem irsteps_first {Q : Word → List Word → Store M.World → Prop} (hR : ∀ a vs s v s', R a vs s v s' → R' a vs s v s' ∨ Q a vs s)
    {g g' : Cfg M.World} (h : IRSteps M R bs args g g') :
    IRSteps M R' bs args g g' ∨ ∃ a vs g1, IRSteps M R' bs args g g1 ∧ Q a vs g1.st ∧ g1.Calling M bs args a vs := by
  induction h with
  | refl => exact .inl .refl
  | head h1 _ ih =>
    rcases irstep_or hR h1 with h1 | ⟨a, vs, q, hc⟩
    · rcases ih with ih | ⟨a, vs, g1, p1, p2, p3⟩
      · exact .inl (.head h1 ih)
      · exact .inr ⟨a, vs, g1, .head h1 p1, p2, p3⟩
    · exact .inr ⟨a, vs, _, .refl, q, hc⟩
end
end Blang
