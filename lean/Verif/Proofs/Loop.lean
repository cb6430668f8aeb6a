import Verif.Model.Monad
/-
Facts about `loop` that do not depend on the loop body.
-/
namespace Blang

variable {σ α β ρ : Type}

theorem loop_zero (body : β → M σ (Iter β ρ)) (b : β) (s : σ) : loop 0 body b s = .err .fuel := rfl

theorem loop_succ (n : Nat) (body : β → M σ (Iter β ρ)) (b : β) (s : σ) :
    loop (n + 1) body b s = match body b s with
      | .ok (.next b') s' => loop n body b' s'
      | .ok (.done r) s' => .ok r s'
      | .err e => .err e := by
  simp only [loop, M.bind_apply]
  cases body b s with
  | err e => rfl
  | ok i s' => cases i <;> rfl

theorem loop_next {n : Nat} {body : β → M σ (Iter β ρ)} {b b' : β} {s s' : σ}
    (h : body b s = .ok (.next b') s') : loop (n + 1) body b s = loop n body b' s' := by
  rw [loop_succ, h]

theorem loop_done {n : Nat} {body : β → M σ (Iter β ρ)} {b : β} {r : ρ} {s s' : σ}
    (h : body b s = .ok (.done r) s') : loop (n + 1) body b s = .ok r s' := by
  rw [loop_succ, h]

theorem loop_err {n : Nat} {body : β → M σ (Iter β ρ)} {b : β} {e : Err} {s : σ}
    (h : body b s = .err e) : loop (n + 1) body b s = .err e := by
  rw [loop_succ, h]

/-- More fuel does not change a result other than "out of fuel". -/
theorem loop_mono {body : β → M σ (Iter β ρ)} {n m : Nat} (hnm : n ≤ m) {b : β} {s : σ}
    (h : loop n body b s ≠ .err .fuel) : loop m body b s = loop n body b s := by
  induction n generalizing m b s with
  | zero => exact absurd rfl h
  | succ n ih =>
    obtain ⟨m, rfl⟩ : ∃ k, m = k + 1 := ⟨m - 1, by omega⟩
    rw [loop_succ] at h ⊢
    rw [loop_succ]
    cases hb : body b s with
    | err e => rfl
    | ok i s' =>
      rw [hb] at h
      cases i with
      | done r => rfl
      | next b' => exact ih (by omega) h

/-- Two amounts of fuel that both suffice give the same result. -/
theorem loop_eq {body : β → M σ (Iter β ρ)} {n m : Nat} {b : β} {s : σ}
    (h1 : loop n body b s ≠ .err .fuel) (h2 : loop m body b s ≠ .err .fuel) :
    loop n body b s = loop m body b s := by
  rcases Nat.le_total n m with h | h
  · exact (loop_mono h h1).symm
  · exact loop_mono h h2

/-- A measure that decreases with every iteration bounds the fuel needed.  `Inv` is an invariant
of the loop. -/
theorem loop_fuel {body : β → M σ (Iter β ρ)} (μ : β → σ → Nat) (Inv : β → σ → Prop)
    (hstep : ∀ b s b' s', Inv b s → body b s = .ok (.next b') s' → μ b' s' < μ b s ∧ Inv b' s')
    (hbody : ∀ b s, Inv b s → body b s ≠ .err .fuel)
    {n : Nat} {b : β} {s : σ} (hI : Inv b s) (hn : μ b s < n) : loop n body b s ≠ .err .fuel := by
  induction n generalizing b s with
  | zero => omega
  | succ n ih =>
    rw [loop_succ]
    cases hb : body b s with
    | err e => intro h; cases h; exact hbody b s hI hb
    | ok i s' =>
      cases i with
      | done r => intro h; cases h
      | next b' =>
        have := hstep b s b' s' hI hb
        exact ih this.2 (by omega)

/-- Invariant rule for a successful loop. -/
theorem loop_inv {body : β → M σ (Iter β ρ)} (Inv : β → σ → Prop) (Post : ρ → σ → Prop)
    (hnext : ∀ b s b' s', Inv b s → body b s = .ok (.next b') s' → Inv b' s')
    (hdone : ∀ b s r s', Inv b s → body b s = .ok (.done r) s' → Post r s')
    {n : Nat} {b : β} {s : σ} {r : ρ} {s' : σ} (hI : Inv b s) (h : loop n body b s = .ok r s') :
    Post r s' := by
  induction n generalizing b s with
  | zero => cases h
  | succ n ih =>
    rw [loop_succ] at h
    cases hb : body b s with
    | err e => rw [hb] at h; cases h
    | ok i t =>
      rw [hb] at h
      cases i with
      | done r' => cases h; exact hdone _ _ _ _ hI hb
      | next b' => exact ih (hnext _ _ _ _ hI hb) h

end Blang
