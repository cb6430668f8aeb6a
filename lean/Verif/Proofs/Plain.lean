import Verif.Spec.Plain
import Verif.Proofs.Gen
/-
Redundant punctuation is not visible in what the code generator does.
-/
namespace Blang.Plain
open Blang Spec

variable {σ α β γ : Type}

theorem assoc (x : M σ α) (f : α → M σ β) (g : β → M σ γ) : (x >>= f) >>= g = x >>= fun a => f a >>= g := by
  funext s
  simp only [M.bind_apply]
  cases x s <;> rfl

theorem left (a : α) (f : α → M σ β) : (pure a >>= f) = f a := rfl

theorem right (x : M σ α) : (x >>= fun a => pure a) = x := by
  funext s
  simp only [M.bind_apply]
  cases x s <;> rfl

theorem right' (x : M σ Unit) : (x >>= fun _ => pure ()) = x := right x

/-- no operand of an assignment, `++`, `--` or `&` is in parentheses -/
def Open (e : Ex) : Prop := ∀ t ∈ e.targets, ∀ u, t ≠ .paren u

def OpenArgs (es : List Ex) : Prop := ∀ t ∈ Ex.targetsArgs es, ∀ u, t ≠ .paren u

theorem rval_val (v : Val) : rval (v, false) = pure v := rfl

theorem genR_paren (e : Ex) : genR (.paren e) = genR e := by
  simp only [genR, genL, assoc, left, rval_val, right]

theorem genR_def (e : Ex) : genR e = genL e >>= rval := rfl

/-- two generators that agree where the value is needed, in front of anything -/
theorem then_rval {e e' : Ex} (h : genR e = genR e') (k : Val → B α) : (genL e >>= fun v => rval v >>= k) = (genL e' >>= fun v => rval v >>= k) := by
  have : ∀ e : Ex, (genL e >>= fun v => rval v >>= k) = (genR e >>= k) := fun e => by simp only [genR, assoc]
  rw [this, this, h]

mutual
theorem genL_bare : ∀ e : Ex, Open e → (∀ u, e ≠ .paren u) → genL e = genL e.bare
  | .num _, _, _ | .str _, _, _ | .var _, _, _ => by simp only [Ex.bare]
  | .paren e, _, hp => absurd rfl (hp e)
  | .index a i, h, _ => by
    have h1 := genR_bare a (fun t ht => h t (by simp [Ex.targets, ht]))
    have h2 := genR_bare i (fun t ht => h t (by simp [Ex.targets, ht]))
    simp only [Ex.bare, genL]
    rw [then_rval h1]
    simp only [then_rval h2]
  | .callName f as, h, _ => by
    have h1 := genArgs_bare as (fun t ht => h t (by simpa [Ex.targets] using ht))
    simp only [Ex.bare, genL, h1]
  | .call f as, h, _ => by
    have h1 := genR_bare f (fun t ht => h t (by simp [Ex.targets, ht]))
    have h2 := genArgs_bare as (fun t ht => h t (by simp [Ex.targets, ht]))
    simp only [Ex.bare, genL, h2]
    rw [then_rval h1]
  | .post d e, h, _ => by
    have h1 := genL_bare e (fun t ht => h t (by simp [Ex.targets, ht])) (h e (by simp [Ex.targets]))
    simp only [Ex.bare, genL, h1]
  | .pre d e, h, _ => by
    have h1 := genL_bare e (fun t ht => h t (by simp [Ex.targets, ht])) (h e (by simp [Ex.targets]))
    simp only [Ex.bare, genL, h1]
  | .addr e, h, _ => by
    have h1 := genL_bare e (fun t ht => h t (by simp [Ex.targets, ht])) (h e (by simp [Ex.targets]))
    simp only [Ex.bare, genL, h1]
  | .not e, h, _ => by
    have h1 := genR_bare e h
    simp only [Ex.bare, genL, genNot, assoc]
    rw [then_rval h1]
  | .neg e, h, _ => by
    have h1 := genR_bare e h
    simp only [Ex.bare, genL, genNeg, assoc]
    rw [then_rval h1]
  | .deref e, h, _ => by
    have h1 := genR_bare e h
    simp only [Ex.bare, genL, genDeref, assoc]
    rw [then_rval h1]
  | .bin o x y, h, _ => by
    have h1 := genR_bare x (fun t ht => h t (by simp [Ex.targets, ht]))
    have h2 := genR_bare y (fun t ht => h t (by simp [Ex.targets, ht]))
    simp only [Ex.bare, genL]
    rw [then_rval h1]
    simp only [then_rval h2]
  | .cond c t e, h, _ => by
    have h1 := genR_bare c (fun t ht => h t (by simp [Ex.targets, ht]))
    have h2 := genR_bare t (fun t ht => h t (by simp [Ex.targets, ht]))
    have h3 := genR_bare e (fun t ht => h t (by simp [Ex.targets, ht]))
    simp only [Ex.bare, genL]
    rw [then_rval h1]
    simp only [then_rval h2, then_rval h3]
  | .assign o x y, h, _ => by
    have h1 := genL_bare x (fun t ht => h t (by simp [Ex.targets, ht])) (h x (by simp [Ex.targets]))
    have h2 := genR_bare y (fun t ht => h t (by simp [Ex.targets, ht]))
    simp only [Ex.bare, genL, h1]
    simp only [then_rval h2]

theorem genR_bare : ∀ e : Ex, Open e → genR e = genR e.bare
  | .paren e, h => by
    rw [genR_paren, genR_bare e h]
    simp only [Ex.bare]
  | .num _, _ | .str _, _ | .var _, _ => by simp only [Ex.bare]
  | .index a i, h => by rw [genR_def, genR_def, genL_bare (.index a i) h (fun _ => nofun)]
  | .callName f as, h => by rw [genR_def, genR_def, genL_bare (.callName f as) h (fun _ => nofun)]
  | .call f as, h => by rw [genR_def, genR_def, genL_bare (.call f as) h (fun _ => nofun)]
  | .post d e, h => by rw [genR_def, genR_def, genL_bare (.post d e) h (fun _ => nofun)]
  | .pre d e, h => by rw [genR_def, genR_def, genL_bare (.pre d e) h (fun _ => nofun)]
  | .addr e, h => by rw [genR_def, genR_def, genL_bare (.addr e) h (fun _ => nofun)]
  | .not e, h => by rw [genR_def, genR_def, genL_bare (.not e) h (fun _ => nofun)]
  | .neg e, h => by rw [genR_def, genR_def, genL_bare (.neg e) h (fun _ => nofun)]
  | .deref e, h => by rw [genR_def, genR_def, genL_bare (.deref e) h (fun _ => nofun)]
  | .bin o x y, h => by rw [genR_def, genR_def, genL_bare (.bin o x y) h (fun _ => nofun)]
  | .cond c t e, h => by rw [genR_def, genR_def, genL_bare (.cond c t e) h (fun _ => nofun)]
  | .assign o x y, h => by rw [genR_def, genR_def, genL_bare (.assign o x y) h (fun _ => nofun)]

theorem genArgs_bare : ∀ es : List Ex, OpenArgs es → genArgs es = genArgs (Ex.bareArgs es)
  | [], _ => by simp only [Ex.bareArgs]
  | e :: es, h => by
    have h1 := genR_bare e (fun t ht => h t (by simp [Ex.targetsArgs, ht]))
    have h2 := genArgs_bare es (fun t ht => h t (by simp [Ex.targetsArgs, ht]))
    simp only [Ex.bareArgs, genArgs, h2]
    rw [then_rval h1]
end

theorem genR_same {e e' : Ex} (h : e.Same e') : genR e = genR e' := by
  rw [genR_bare e h.2.1, genR_bare e' h.2.2, h.1]

theorem genExtrn_append : ∀ xs ys : List Name, genExtrn (xs ++ ys) = (genExtrn xs >>= fun _ => genExtrn ys)
  | [], _ => rfl
  | x :: xs, ys => by simp only [List.cons_append, genExtrn, genExtrn_append xs ys, assoc]

theorem lookup_insert_some (x k : Name) (v : Val) (m : List (Name × Val)) : (lookup x (insert k v m)).isSome ↔ x = k ∨ (lookup x m).isSome := by
  simp only [lookup, insert, List.find?_cons]
  by_cases h : k = x
  · simp [h]
  · simp only [h, decide_false, Bool.false_eq_true]
    constructor
    · exact .inr
    · rintro (rfl | h')
      · exact absurd rfl h
      · exact h'

theorem declareOne_ok (x : Name) (w : W) (c : CState) : ∃ c' v, declareOne x w c = .ok () c' ∧ c'.locals = insert x v c.locals := by
  unfold declareOne
  split
  · exact ⟨_, _, rfl, rfl⟩
  · exact ⟨_, _, rfl, rfl⟩

theorem declareAll_ok : ∀ (ds : List (Name × Option Word)) (c : CState), ∃ c', declareAll (ds.map autoSizeOf) c = .ok () c' ∧
    ∀ x, (lookup x c'.locals).isSome ↔ x ∈ ds.map (·.1) ∨ (lookup x c.locals).isSome
  | [], c => ⟨c, rfl, fun x => by simp⟩
  | d :: ds, c => by
    obtain ⟨c1, v, h1, h2⟩ := declareOne_ok d.1 (d.2.getD (-1)) c
    obtain ⟨c2, h3, h4⟩ := declareAll_ok ds c1
    refine ⟨c2, ?_, fun x => ?_⟩
    · simp only [List.map_cons, autoSizeOf, declareAll, M.bind_apply, h1]
      exact h3
    · rw [h4, h2, lookup_insert_some]
      simp only [List.map_cons, List.mem_cons]
      constructor
      · rintro (h | h | h)
        · exact .inl (.inr h)
        · exact .inl (.inl h)
        · exact .inr h
      · rintro ((h | h) | h)
        · exact .inr (.inl h)
        · exact .inl h
        · exact .inr (.inr h)

theorem declareAll_append : ∀ ds es : List (Name × W), declareAll (ds ++ es) = (declareAll ds >>= fun _ => declareAll es)
  | [], _ => rfl
  | (x, w) :: ds, es => by simp only [List.cons_append, declareAll, declareAll_append ds es, assoc]

theorem autoCheck_append : ∀ (ds es : List (Name × Option Word)) (seen : List Name),
    autoCheck seen (ds ++ es) = (autoCheck seen ds >>= fun _ => autoCheck ((ds.map (·.1)).reverse ++ seen) es)
  | [], _, _ => rfl
  | d :: ds, es, seen => by
    funext c
    simp only [List.cons_append, autoCheck, M.bind_apply, M.get, List.map_cons, List.reverse_cons, List.append_assoc, List.nil_append]
    by_cases h : d.1 ∈ seen ∨ (lookup d.1 c.locals).isSome
    · simp only [if_pos h, bfail, M.throw]
    · simp only [if_neg h, autoCheck_append ds es, M.bind_apply, List.singleton_append]

/-- the check looks at nothing but the names that are taken -/
theorem autoCheck_same : ∀ (es : List (Name × Option Word)) (seen seen' : List Name) (c c' : CState),
    (∀ x, (x ∈ seen ∨ (lookup x c.locals).isSome) ↔ (x ∈ seen' ∨ (lookup x c'.locals).isSome)) →
    (autoCheck seen es c = .ok () c ∧ autoCheck seen' es c' = .ok () c') ∨ ∃ e, autoCheck seen es c = .err e ∧ autoCheck seen' es c' = .err e
  | [], _, _, _, _, _ => .inl ⟨rfl, rfl⟩
  | d :: es, seen, seen', c, c', h => by
    simp only [autoCheck, M.bind_apply, M.get]
    by_cases hd : d.1 ∈ seen ∨ (lookup d.1 c.locals).isSome
    · simp only [if_pos hd, if_pos ((h _).1 hd)]
      exact .inr ⟨_, rfl, rfl⟩
    · simp only [if_neg hd, if_neg (fun k => hd ((h _).2 k))]
      refine autoCheck_same es _ _ c c' fun x => ?_
      simp only [List.mem_cons, or_assoc, h x]

theorem genSt_autos (ds es : List (Name × Option Word)) (sw : Option Nat) (cs : Cases) :
    genSt (.seq (.auto ds) (.auto es)) sw cs = genSt (.auto (ds ++ es)) sw cs := by
  funext c
  simp only [genSt, assoc, autoCheck_append, List.map_append, declareAll_append, M.bind_apply, List.append_nil]
  rcases autoCheck_same ds [] [] c c (fun _ => .rfl) with ⟨h, -⟩ | ⟨e, h, -⟩
  · simp only [h]
    obtain ⟨c', h1, h2⟩ := declareAll_ok ds c
    simp only [h1]
    rcases autoCheck_same es (ds.map (·.1)).reverse [] c c' (fun x => by rw [h2]; simp) with ⟨k1, k2⟩ | ⟨e, k1, k2⟩
    · simp only [k1, h1, M.pure_apply, k2]
    · simp only [k1, M.pure_apply, k2]
  · simp only [h]

/-- the same code, to the letter -/
theorem genSt_same {s t : St} (h : s.Same t) : genSt s = genSt t := by
  induction h with
  | refl => rfl
  | symm _ ih => exact ih.symm
  | trans _ _ ih1 ih2 => exact ih1.trans ih2
  | seq _ _ ih1 ih2 => funext sw cs; simp only [genSt, ih1, ih2]
  | expr h => funext sw cs; simp only [genSt, genR_same h]
  | ret h => funext sw cs; simp only [genSt, genR_same h]
  | ifThen h _ ih => funext sw cs; simp only [genSt, genR_same h, ih]
  | ifElse h _ _ ih1 ih2 => funext sw cs; simp only [genSt, genR_same h, ih1, ih2]
  | «while» h _ ih => funext sw cs; simp only [genSt, genR_same h, ih]
  | switch h _ ih => funext sw cs; simp only [genSt, genR_same h, ih]
  | case _ ih => funext sw cs; simp only [genSt, ih]
  | label _ ih => funext sw cs; simp only [genSt, ih]
  | emptyBefore s => funext sw cs; simp only [genSt, left]
  | braces s => funext sw cs; simp only [genSt, right]
  | nested s t u => funext sw cs; simp only [genSt, assoc]
  | emptyElse c t => funext sw cs; simp only [genSt, left]
  | labelled l s => funext sw cs; simp only [genSt, assoc, left]
  | inCase v s =>
    funext sw cs
    cases sw with
    | none => rfl
    | some i => simp only [genSt, assoc, left]
  | return0 => funext sw cs; rfl
  | extrns xs ys => funext sw cs; simp only [genSt, genExtrn_append, assoc, left]
  | autos ds es => funext sw cs; exact genSt_autos ds es sw cs

theorem genDecl_same {d d' : Decl} (h : d.Same d') : genDecl d = genDecl d' := by
  cases h with
  | refl => rfl
  | func h => simp only [genDecl, genSt_same h]

theorem genProg_same {p q : Program} (h : p.Same q) : genProg p = genProg q := by
  induction h with
  | nil => rfl
  | cons h _ ih => simp only [genProg, genDecl_same h, ih]

end Blang.Plain
