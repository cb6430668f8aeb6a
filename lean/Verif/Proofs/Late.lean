import Verif.Proofs.Less
/-
Only finitely many calls are made in a run: a run in which calls return at some depth is a run in which they return
at a bounded depth.
-/
namespace Blang
open Spec

section
variable {B : BMachine} {R : Calls B.World} {S : Nat → Calls B.World}

/-- from some number on -/
def Late (p : Nat → Prop) : Prop := ∃ N, ∀ n, N ≤ n → p n

theorem Late.of {p : Nat → Prop} (h : ∀ n, p n) : Late p := ⟨0, fun n _ => h n⟩

theorem Late.imp {p q : Nat → Prop} (h : Late p) (f : ∀ n, p n → q n) : Late q := by
  obtain ⟨N, hN⟩ := h
  exact ⟨N, fun n hn => f n (hN n hn)⟩

theorem Late.and {p q r : Nat → Prop} (h : Late p) (h' : Late q) (f : ∀ n, p n → q n → r n) : Late r := by
  obtain ⟨N, hN⟩ := h
  obtain ⟨N', hN'⟩ := h'
  exact ⟨max N N', fun n hn => f n (hN n (by omega)) (hN' n (by omega))⟩

section
variable (hR : ∀ a vs s v s', R a vs s v s' → Late fun n => S n a vs s v s') {E : Env} {ρ : Frame}
include hR

mutual
theorem eval_late : ∀ (e : Ex) (n : Nat) (s : Store B.World) (r : Res) (s' : Store B.World),
    e.Eval B R E ρ n s r s' → Late fun i => e.Eval B (S i) E ρ n s r s'
  | .num v, n, s, r, s', h => .of fun _ => h
  | .str _, n, s, r, s', h => .of fun _ => h
  | .var x, n, s, r, s', h => .of fun _ => h
  | .paren e, n, s, r, s', h => by
    simp only [Ex.Eval] at h ⊢
    obtain ⟨d, h1, h2⟩ := h
    exact (eval_late e _ _ _ _ h1).imp fun _ h1 => ⟨d, h1, h2⟩
  | .not e, n, s, r, s', h => by
    simp only [Ex.Eval] at h ⊢
    obtain ⟨d, h1, h2⟩ := h
    exact (eval_late e _ _ _ _ h1).imp fun _ h1 => ⟨d, h1, h2⟩
  | .neg e, n, s, r, s', h => by
    simp only [Ex.Eval] at h ⊢
    obtain ⟨d, h1, h2⟩ := h
    exact (eval_late e _ _ _ _ h1).imp fun _ h1 => ⟨d, h1, h2⟩
  | .deref e, n, s, r, s', h => by
    simp only [Ex.Eval] at h ⊢
    obtain ⟨d, h1, h2⟩ := h
    exact (eval_late e _ _ _ _ h1).imp fun _ h1 => ⟨d, h1, h2⟩
  | .addr e, n, s, r, s', h => by
    simp only [Ex.Eval] at h ⊢
    obtain ⟨d, h1, h2⟩ := h
    exact (eval_late e _ _ _ _ h1).imp fun _ h1 => ⟨d, h1, h2⟩
  | .post _ e, n, s, r, s', h => by
    simp only [Ex.Eval] at h ⊢
    obtain ⟨d, s1, h1, h2⟩ := h
    exact (eval_late e _ _ _ _ h1).imp fun _ h1 => ⟨d, s1, h1, h2⟩
  | .pre _ e, n, s, r, s', h => by
    simp only [Ex.Eval] at h ⊢
    obtain ⟨d, s1, h1, h2⟩ := h
    exact (eval_late e _ _ _ _ h1).imp fun _ h1 => ⟨d, s1, h1, h2⟩
  | .index x i, n, s, r, s', h => by
    simp only [Ex.Eval] at h ⊢
    obtain ⟨d1, s1, d2, h1, h2, h3⟩ := h
    exact (eval_late x _ _ _ _ h1).and (eval_late i _ _ _ _ h2) fun _ h1 h2 => ⟨d1, s1, d2, h1, h2, h3⟩
  | .callName f as, n, s, r, s', h => by
    simp only [Ex.Eval] at h ⊢
    obtain ⟨d, ws, s1, v, h1, h2, h3, h4⟩ := h
    exact (evalArgs_late as _ _ _ _ h2).and (hR _ _ _ _ _ h3) fun _ h2 h3 => ⟨d, ws, s1, v, h1, h2, h3, h4⟩
  | .call f as, n, s, r, s', h => by
    simp only [Ex.Eval] at h ⊢
    obtain ⟨d, s1, ws, s2, v, h1, h2, h3, h4⟩ := h
    exact (eval_late f _ _ _ _ h1).and ((evalArgs_late as _ _ _ _ h2).and (hR _ _ _ _ _ h3) fun _ h2 h3 => And.intro h2 h3)
      fun _ h1 h => ⟨d, s1, ws, s2, v, h1, h.1, h.2, h4⟩
  | .bin o x y, n, s, r, s', h => by
    simp only [Ex.Eval] at h ⊢
    obtain ⟨d1, s1, d2, v, h1, h2, h3⟩ := h
    exact (eval_late x _ _ _ _ h1).and (eval_late y _ _ _ _ h2) fun _ h1 h2 => ⟨d1, s1, d2, v, h1, h2, h3⟩
  | .cond c t e, n, s, r, s', h => by
    simp only [Ex.Eval] at h ⊢
    obtain ⟨d, s1, d', h1, h2, h3⟩ := h
    by_cases hc : d.value s1.mem ≠ 0
    · rw [if_pos hc] at h3
      exact (eval_late c _ _ _ _ h1).and (eval_late t _ _ _ _ h3) fun _ h1 h3 => ⟨d, s1, d', h1, h2, by rw [if_pos hc]; exact h3⟩
    · rw [if_neg hc] at h3
      exact (eval_late c _ _ _ _ h1).and (eval_late e _ _ _ _ h3) fun _ h1 h3 => ⟨d, s1, d', h1, h2, by rw [if_neg hc]; exact h3⟩
  | .assign none x y, n, s, r, s', h => by
    simp only [Ex.Eval] at h ⊢
    obtain ⟨b, s1, d, s2, h1, h2, h3⟩ := h
    exact (eval_late x _ _ _ _ h1).and (eval_late y _ _ _ _ h2) fun _ h1 h2 => ⟨b, s1, d, s2, h1, h2, h3⟩
  | .assign (some o) x y, n, s, r, s', h => by
    simp only [Ex.Eval] at h ⊢
    obtain ⟨b, s1, d, s2, v, h1, h2, h3⟩ := h
    exact (eval_late x _ _ _ _ h1).and (eval_late y _ _ _ _ h2) fun _ h1 h2 => ⟨b, s1, d, s2, v, h1, h2, h3⟩

theorem evalArgs_late : ∀ (es : List Ex) (n : Nat) (s : Store B.World) (vs : List Word) (s' : Store B.World),
    Ex.EvalArgs B R E ρ es n s vs s' → Late fun i => Ex.EvalArgs B (S i) E ρ es n s vs s'
  | [], n, s, vs, s', h => .of fun _ => h
  | e :: es, n, s, vs, s', h => by
    simp only [Ex.EvalArgs] at h ⊢
    obtain ⟨d, s1, ws, h1, h2, h3⟩ := h
    exact (eval_late e _ _ _ _ h1).and (evalArgs_late es _ _ _ _ h2) fun _ h1 h2 => ⟨d, s1, ws, h1, h2, h3⟩
end

theorem bstep_late {P : Place} {body : St} {x y : BState B.World} (h : BStep B R P body x y) : Late fun n => BStep B (S n) P body x y := by
  have val : ∀ {P : Place} {ρ : Frame} {σ : Store B.World} {e : Ex} {v : Word} {σ' : Store B.World},
      e.Value B R P ρ σ v σ' → Late fun n => e.Value B (S n) P ρ σ v σ' := by
    rintro P ρ σ e v σ' ⟨d, h1, h2⟩
    exact (eval_late hR e _ _ _ _ h1).imp fun _ h1 => ⟨d, h1, h2⟩
  cases h with
  | endFun => exact .of fun _ => .endFun
  | endSeq => exact .of fun _ => .endSeq
  | endLoop => exact .of fun _ => .endLoop
  | seq => exact .of fun _ => .seq
  | expr h => exact (val h).imp fun _ h => .expr h
  | ret0 => exact .of fun _ => .ret0
  | ret h => exact (val h).imp fun _ h => .ret h
  | auto => exact .of fun _ => .auto
  | extrn => exact .of fun _ => .extrn
  | ifTrue h h1 => exact (val h).imp fun _ h => .ifTrue h h1
  | ifFalse h h1 => exact (val h).imp fun _ h => .ifFalse h h1
  | elseTrue h h1 => exact (val h).imp fun _ h => .elseTrue h h1
  | elseFalse h h1 => exact (val h).imp fun _ h => .elseFalse h h1
  | whileTrue h h1 => exact (val h).imp fun _ h => .whileTrue h h1
  | whileFalse h h1 => exact (val h).imp fun _ h => .whileFalse h h1
  | switchCase h h1 => exact (val h).imp fun _ h => .switchCase h h1
  | switchNone h h1 => exact (val h).imp fun _ h => .switchNone h h1
  | case => exact .of fun _ => .case
  | label => exact .of fun _ => .label
  | goto h => exact .of fun _ => .goto h

theorem bsteps_late {P : Place} {body : St} {x y : BState B.World} (h : BSteps B R P body x y) : Late fun n => BSteps B (S n) P body x y := by
  induction h with
  | refl => exact .of fun _ => .refl
  | head h1 _ ih => exact (bstep_late hR h1).and ih fun _ h1 h2 => .head h1 h2
end
end

theorem programCall_succ {p : Program} {M : BMachine} {X : Calls M.World} : ∀ (n : Nat) (a : Word) (args : List Word) (σ : Store M.World)
    (v : Word) (σ' : Store M.World), p.Call M X n a args σ v σ' → p.Call M X (n + 1) a args σ v σ'
  | 0, _, _, _, _, _, h => .inl h
  | n + 1, a, args, σ, v, σ', h => by
    rcases h with h | ⟨f, ps, body, P, h1, h2, h3, σ1, h4, h5⟩
    · exact .inl h
    · exact .inr ⟨f, ps, body, P, h1, h2, h3, σ1, bsteps_mono (programCall_succ n) h4, h5⟩

theorem programCall_le {p : Program} {M : BMachine} {X : Calls M.World} {n k : Nat} (hk : n ≤ k) {a : Word} {args : List Word}
    {σ : Store M.World} {v : Word} {σ' : Store M.World} (h : p.Call M X n a args σ v σ') : p.Call M X k a args σ v σ' := by
  induction hk with
  | refl => exact h
  | step _ ih => exact programCall_succ _ _ _ _ _ _ ih

theorem returns_late {p : Program} {M : BMachine} {X : Calls M.World} (a : Word) (args : List Word) (σ : Store M.World) (v : Word)
    (σ' : Store M.World) (h : p.Returns M X a args σ v σ') : Late fun n => p.Call M X n a args σ v σ' := by
  obtain ⟨n, h⟩ := h
  exact ⟨n, fun k hk => programCall_le hk h⟩

/-- a function whose run comes to an end returns -/
theorem returns_of_done {p : Program} {M : BMachine} {X : Calls M.World} {f : Ident} {ps : List Ident} {body : St} {P : Place} {args : List Word}
    {σ σ1 : Store M.World} {v : Word} (hd : p.Defines f ps body P) (hl : ps.length ≤ args.length)
    (h : BSteps M (p.Returns M X) P body (.entry M P ps body args σ) (.done v σ1)) :
    p.Returns M X (M.global f) args σ v ⟨σ1.mem, M.leave σ.world σ1.world⟩ := by
  obtain ⟨n, hn⟩ := bsteps_late returns_late h
  exact ⟨n + 1, .inr ⟨f, ps, body, P, hd, rfl, hl, σ1, hn n (Nat.le_refl n), rfl⟩⟩
end Blang
