/-
The state/error monad in which the Go functions are transcribed, and the two
loop shapes the Go code uses.  A Go function `f(...) (T, error)` that mutates a
receiver of type `σ` becomes `M σ T`.
-/
namespace Blang

/-- Errors returned by the Go code.  `eof` is `io.EOF`, `io` any other read
error, `msg` an error built with `fmt.Errorf`.  `fuel` does not exist in Go: it
marks that the fuel given to the model was too small (property C08 shows that it
never happens with the fuel the model uses). -/
inductive Err where
  | eof
  | io
  | msg (s : String)
  | fuel
deriving DecidableEq, Repr

/-- Result of running a function on a state.  On an error the state is dropped:
every caller in the Go code gives up on an error. -/
inductive R (σ α : Type) where
  | ok (a : α) (s : σ)
  | err (e : Err)

/-- State/error monad.
(Go functions with a mutable receiver and an `error` result, lexer.go:43-289 and all parser files) -/
def M (σ α : Type) : Type := σ → R σ α

namespace M

/-- `return x, nil` -/
@[inline] def pure' {σ α : Type} (a : α) : M σ α := fun s => .ok a s

/-- `x, err := f(); if err != nil { return err }` -/
@[inline] def bind' {σ α β : Type} (x : M σ α) (f : α → M σ β) : M σ β := fun s =>
  match x s with
  | .ok a s' => f a s'
  | .err e => .err e

instance {σ : Type} : Monad (M σ) where
  pure := pure'
  bind := bind'

/-- `return ..., err` (all files of the front end) -/
@[inline] def throw {σ α : Type} (e : Err) : M σ α := fun _ => .err e

/-- reading a field of the receiver -/
@[inline] def get {σ : Type} : M σ σ := fun s => .ok s s
/-- assigning the receiver's fields -/
@[inline] def set {σ : Type} (s : σ) : M σ Unit := fun _ => .ok () s
/-- assigning a field of the receiver -/
@[inline] def modify {σ : Type} (f : σ → σ) : M σ Unit := fun s => .ok () (f s)

variable {σ α β : Type}

@[simp] theorem pure_apply (a : α) (s : σ) : (pure a : M σ α) s = .ok a s := rfl
theorem bind_apply (x : M σ α) (f : α → M σ β) (s : σ) :
    (x >>= f) s = match x s with | .ok a s' => f a s' | .err e => .err e := rfl
@[simp] theorem throw_apply (e : Err) (s : σ) : (throw e : M σ α) s = .err e := rfl
@[simp] theorem get_apply (s : σ) : (get : M σ σ) s = .ok s s := rfl
@[simp] theorem set_apply (s t : σ) : (set t : M σ Unit) s = .ok () t := rfl
@[simp] theorem modify_apply (f : σ → σ) (s : σ) : (modify f : M σ Unit) s = .ok () (f s) := rfl

theorem bind_ok {x : M σ α} {f : α → M σ β} {s s' : σ} {a : α} (h : x s = .ok a s') :
    (x >>= f) s = f a s' := by rw [bind_apply, h]
theorem bind_err {x : M σ α} {f : α → M σ β} {s : σ} {e : Err} (h : x s = .err e) :
    (x >>= f) s = .err e := by rw [bind_apply, h]
theorem ite_apply' (c : Prop) [Decidable c] (f g : M σ α) (s : σ) :
    (if c then f else g) s = if c then f s else g s := by split <;> rfl

theorem bind_eq_ok {x : M σ α} {f : α → M σ β} {s : σ} {b : β} {s' : σ} :
    (x >>= f) s = .ok b s' ↔ ∃ a t, x s = .ok a t ∧ f a t = .ok b s' := by
  rw [bind_apply]
  cases h : x s with
  | ok a t =>
    constructor
    · intro h; exact ⟨a, t, rfl, h⟩
    · rintro ⟨a', t', h1, h2⟩; cases h1; exact h2
  | err e =>
    constructor
    · intro h; cases h
    · rintro ⟨a', t', h1, _⟩; cases h1

end M

/-- Outcome of one iteration of a Go `for { ... }` loop: go round again with new
loop variables, or leave the loop with a result. -/
inductive Iter (β ρ : Type) where
  | next (b : β)
  | done (r : ρ)

/-- A Go `for { ... }` loop over loop variables `β`, run for at most `n` iterations. -/
def loop {σ β ρ : Type} : Nat → (β → M σ (Iter β ρ)) → β → M σ ρ
  | 0, _, _ => M.throw .fuel
  | n + 1, body, b => do
    match ← body b with
    | .next b' => loop n body b'
    | .done r => pure r

end Blang
