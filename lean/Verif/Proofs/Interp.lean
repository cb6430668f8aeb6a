import Verif.Proofs.Decide
import Verif.Spec.Events
/-
An interpreter for B programs, for examples: whatever it computes is a run of the program as
`Spec/BSem` prescribes.
-/
namespace Blang
open Spec

section
variable (M : BMachine) (call : Word → List Word → Store M.World → Option (Word × Store M.World))

mutual
def evI (E : Env) (ρ : Frame) : Ex → Nat → Store M.World → Option (Res × Store M.World)
  | .num v, _, s => some (.val v, s)
  | .str _, n, s => some (.val (M.literal n), s)
  | .var x, _, s => (nameRes M E ρ x).map fun r => (r, s)
  | .paren e, n, s => (evI E ρ e n s).map fun (d, s1) => (.val (d.value s1.mem), s1)
  | .index a i, n, s => (evI E ρ a n s).bind fun (d1, s1) => (evI E ρ i (n + a.strings.length) s1).map fun (d2, s2) =>
      (.cell (d1.value s1.mem + 8 * d2.value s2.mem), s2)
  | .callName f as, n, s => (nameRes M E ρ f).bind fun d => (evArgsI E ρ as n s).bind fun (vs, s1) =>
      (call (d.value s.mem) vs s1).map fun (v, s2) => (.val v, s2)
  | .call f as, n, s => (evI E ρ f n s).bind fun (d, s1) => (evArgsI E ρ as (n + f.strings.length) s1).bind fun (vs, s2) =>
      (call (d.value s1.mem) vs s2).map fun (v, s3) => (.val v, s3)
  | .post d e, n, s => (evI E ρ e n s).bind fun
      | (.cell a, s1) => some (.val (loadW s1.mem a), s1.store a (d.sem (loadW s1.mem a)))
      | _ => none
  | .pre d e, n, s => (evI E ρ e n s).bind fun
      | (.cell a, s1) => some (.cell a, s1.store a (d.sem (loadW s1.mem a)))
      | _ => none
  | .not e, n, s => (evI E ρ e n s).map fun (d, s1) => (.val (truth (d.value s1.mem = 0)), s1)
  | .neg e, n, s => (evI E ρ e n s).map fun (d, s1) => (.val (BitVec.ofInt 64 (-(d.value s1.mem).toInt)), s1)
  | .deref e, n, s => (evI E ρ e n s).map fun (d, s1) => (.cell (d.value s1.mem), s1)
  | .addr e, n, s => (evI E ρ e n s).bind fun
      | (.cell a, s1) => some (.val a, s1)
      | _ => none
  | .bin o x y, n, s => (evI E ρ x n s).bind fun (d1, s1) => (evI E ρ y (n + x.strings.length) s1).bind fun (d2, s2) =>
      (o.sem (d1.value s1.mem) (d2.value s2.mem)).map fun v => (.val v, s2)
  | .cond c t e, n, s => (evI E ρ c n s).bind fun (d, s1) =>
      if d.value s1.mem ≠ 0 then (evI E ρ t (n + c.strings.length) s1).map fun (d', s2) => (.val (d'.value s2.mem), s2)
      else (evI E ρ e (n + c.strings.length + t.strings.length) s1).map fun (d', s2) => (.val (d'.value s2.mem), s2)
  | .assign none x y, n, s => (evI E ρ x n s).bind fun
      | (.cell a, s1) => (evI E ρ y (n + x.strings.length) s1).map fun (d, s2) => (.val (d.value s2.mem), s2.store a (d.value s2.mem))
      | _ => none
  | .assign (some o) x y, n, s => (evI E ρ x n s).bind fun
      | (.cell a, s1) => (evI E ρ y (n + x.strings.length) s1).bind fun (d, s2) =>
          (o.sem (loadW s2.mem a) (d.value s2.mem)).map fun v => (.val v, s2.store a v)
      | _ => none

def evArgsI (E : Env) (ρ : Frame) : List Ex → Nat → Store M.World → Option (List Word × Store M.World)
  | [], _, s => some ([], s)
  | e :: es, n, s => (evI E ρ e n s).bind fun (d, s1) => (evArgsI E ρ es (n + e.strings.length) s1).map fun (ws, s2) =>
      (d.value s1.mem :: ws, s2)
end

/-- the value at a place -/
def valI (e : Ex) (P : Place) (ρ : Frame) (s : Store M.World) : Option (Word × Store M.World) :=
  (evI M call P.env ρ e P.lits s).map fun (d, s1) => (d.value s1.mem, s1)

/-- a step -/
def stepI (P0 : Place) (body : St) : BState M.World → Option (BState M.World)
  | .done _ _ => none
  | .run P s k ρ σ => match s with
    | .skip => match k with
      | .stop => some (.done 0 σ)
      | .seq Q t k => some (.run Q t k ρ σ)
      | .loop Q c b k => some (.run Q (.while c b) k ρ σ)
    | .seq s t => some (.run P s (.seq (P.after s) t k) ρ σ)
    | .expr e => (valI M call e P ρ σ).map fun (_, σ') => .run P .skip k ρ σ'
    | .ret none => some (.done 0 σ)
    | .ret (some e) => (valI M call e P ρ σ).map fun (v, σ') => .done v σ'
    | .auto ds => some (.run P .skip k (declare M ds ρ σ).1 (declare M ds ρ σ).2)
    | .extrn _ => some (.run P .skip k ρ σ)
    | .ifThen c t => (valI M call c P ρ σ).map fun (v, σ') => if v = 0 then .run P .skip k ρ σ' else .run (P.afterEx c) t k ρ σ'
    | .ifElse c t e => (valI M call c P ρ σ).map fun (v, σ') =>
        if v = 0 then .run ((P.afterEx c).after t) e k ρ σ' else .run (P.afterEx c) t k ρ σ'
    | .while c b => (valI M call c P ρ σ).map fun (v, σ') =>
        if v = 0 then .run P .skip k ρ σ' else .run (P.afterEx c) b (.loop P c b k) ρ σ'
    | .switch e b => (valI M call e P ρ σ).map fun (v, σ') =>
        match findCase v b (P.afterEx e) k with
        | some (Q, s, k') => .run Q s k' ρ σ'
        | none => .run P .skip k ρ σ'
    | .case _ s => some (.run P s k ρ σ)
    | .label _ s => some (.run P s k ρ σ)
    | .goto l => (findLabel l body P0 .stop).map fun (Q, s, k') => .run Q s k' ρ σ

/-- so many steps -/
def stepsI (P0 : Place) (body : St) : Nat → BState M.World → Option (BState M.World)
  | 0, x => some x
  | n + 1, x => (stepI M call P0 body x).bind (stepsI P0 body n)

/-- steps to the end -/
def runI (P0 : Place) (body : St) : Nat → BState M.World → Option (Word × Store M.World)
  | _, .done v σ => some (v, σ)
  | 0, _ => none
  | n + 1, x => (stepI M call P0 body x).bind (runI P0 body n)
end

/-- the function of that name, and its place; `pre` are the declarations before -/
def definesI (f : Ident) : (pre p : Program) → Option (List Ident × St × Place)
  | _, [] => none
  | pre, d :: p => match definesI f (pre ++ [d]) p with
    | some r => some r
    | none => match d with
      | .func g ps b => if g = f then some (ps, b, ⟨(Program.place pre).env.enter f ps, (Program.place pre).lits⟩) else none
      | _ => none

/-- calls in a program; `k` bounds the steps in a function, `xs` are the external functions -/
def callI (p : Program) (M : BMachine) (xs : Word → List Word → Store M.World → Option (Word × Store M.World)) (k : Nat) :
    Nat → Word → List Word → Store M.World → Option (Word × Store M.World)
  | 0, a, args, σ => xs a args σ
  | n + 1, a, args, σ => match xs a args σ with
    | some r => some r
    | none => p.findSome? fun
      | .func f _ _ => if M.global f = a then
          match definesI f [] p with
          | some (ps, body, P) => if ps.length ≤ args.length then
              (runI M (callI p M xs k n) P body k (.entry M P ps body args σ)).map fun (v, σ1) => (v, ⟨σ1.mem, M.leave σ.world σ1.world⟩)
              else none
          | none => none
        else none
      | _ => none

section
variable {M : BMachine} {call : Word → List Word → Store M.World → Option (Word × Store M.World)} {R : Calls M.World}

mutual
theorem evI_sound (hc : ∀ a vs s v s', call a vs s = some (v, s') → R a vs s v s') {E : Env} {ρ : Frame} : ∀ (e : Ex) {n : Nat}
    {s : Store M.World} {r : Res} {s' : Store M.World}, evI M call E ρ e n s = some (r, s') → e.Eval M R E ρ n s r s'
  | .num v, n, s, r, s', h => by simp [evI] at h; simp [Ex.Eval, h.1, h.2]
  | .str v, n, s, r, s', h => by simp [evI] at h; simp [Ex.Eval, h.1, h.2]
  | .var v, n, s, r, s', h => by simp [evI] at h; obtain ⟨d, h1, rfl, rfl⟩ := h; exact ⟨h1, rfl⟩
  | .paren e, n, s, r, s', h => by
    simp only [evI, Option.map_eq_some_iff, Prod.exists, Prod.mk.injEq] at h
    obtain ⟨d, s1, h1, rfl, rfl⟩ := h
    exact ⟨d, evI_sound hc e h1, rfl⟩
  | .index a i, n, s, r, s', h => by
    simp only [evI, Option.bind_eq_some_iff, Option.map_eq_some_iff, Prod.exists, Prod.mk.injEq] at h
    obtain ⟨d, s1, h1, d2, s2, h2, rfl, rfl⟩ := h
    exact ⟨d, s1, d2, evI_sound hc a h1, evI_sound hc i h2, rfl⟩
  | .callName f as, n, s, r, s', h => by
    simp only [evI, Option.bind_eq_some_iff, Option.map_eq_some_iff, Prod.exists, Prod.mk.injEq] at h
    obtain ⟨d, h0, vs, s1, h1, v, s2, h2, rfl, rfl⟩ := h
    exact ⟨d, vs, s1, v, h0, evArgsI_sound hc as h1, hc _ _ _ _ _ h2, rfl⟩
  | .call f as, n, s, r, s', h => by
    simp only [evI, Option.bind_eq_some_iff, Option.map_eq_some_iff, Prod.exists, Prod.mk.injEq] at h
    obtain ⟨d, s0, h0, vs, s1, h1, v, s2, h2, rfl, rfl⟩ := h
    exact ⟨d, s0, vs, s1, v, evI_sound hc f h0, evArgsI_sound hc as h1, hc _ _ _ _ _ h2, rfl⟩
  | .post d e, n, s, r, s', h => by
    simp only [evI, Option.bind_eq_some_iff, Prod.exists] at h
    obtain ⟨c, s1, h1, h2⟩ := h
    cases c with
    | val _ => cases h2
    | cell a => simp at h2; obtain ⟨rfl, rfl⟩ := h2; exact ⟨a, s1, evI_sound hc e h1, rfl, rfl⟩
  | .pre d e, n, s, r, s', h => by
    simp only [evI, Option.bind_eq_some_iff, Prod.exists] at h
    obtain ⟨c, s1, h1, h2⟩ := h
    cases c with
    | val _ => cases h2
    | cell a => simp at h2; obtain ⟨rfl, rfl⟩ := h2; exact ⟨a, s1, evI_sound hc e h1, rfl, rfl⟩
  | .not e, n, s, r, s', h => by
    simp only [evI, Option.map_eq_some_iff, Prod.exists, Prod.mk.injEq] at h
    obtain ⟨d, s1, h1, rfl, rfl⟩ := h
    exact ⟨d, evI_sound hc e h1, rfl⟩
  | .neg e, n, s, r, s', h => by
    simp only [evI, Option.map_eq_some_iff, Prod.exists, Prod.mk.injEq] at h
    obtain ⟨d, s1, h1, rfl, rfl⟩ := h
    exact ⟨d, evI_sound hc e h1, rfl⟩
  | .deref e, n, s, r, s', h => by
    simp only [evI, Option.map_eq_some_iff, Prod.exists, Prod.mk.injEq] at h
    obtain ⟨d, s1, h1, rfl, rfl⟩ := h
    exact ⟨d, evI_sound hc e h1, rfl⟩
  | .addr e, n, s, r, s', h => by
    simp only [evI, Option.bind_eq_some_iff, Prod.exists] at h
    obtain ⟨c, s1, h1, h2⟩ := h
    cases c with
    | val _ => cases h2
    | cell a => simp at h2; obtain ⟨rfl, rfl⟩ := h2; exact ⟨a, evI_sound hc e h1, rfl⟩
  | .bin o x y, n, s, r, s', h => by
    simp only [evI, Option.bind_eq_some_iff, Option.map_eq_some_iff, Prod.exists, Prod.mk.injEq] at h
    obtain ⟨d, s1, h1, d2, s2, h2, v, h3, rfl, rfl⟩ := h
    exact ⟨d, s1, d2, v, evI_sound hc x h1, evI_sound hc y h2, h3, rfl⟩
  | .cond c t e, n, s, r, s', h => by
    simp only [evI, Option.bind_eq_some_iff, Prod.exists] at h
    obtain ⟨d, s1, h1, h2⟩ := h
    split at h2
    case isTrue hv =>
      simp only [Option.map_eq_some_iff, Prod.exists, Prod.mk.injEq] at h2
      obtain ⟨d', s2, h2, rfl, rfl⟩ := h2
      exact ⟨d, s1, d', evI_sound hc c h1, rfl, by rw [if_pos hv]; exact evI_sound hc t h2⟩
    case isFalse hv =>
      simp only [Option.map_eq_some_iff, Prod.exists, Prod.mk.injEq] at h2
      obtain ⟨d', s2, h2, rfl, rfl⟩ := h2
      exact ⟨d, s1, d', evI_sound hc c h1, rfl, by rw [if_neg hv]; exact evI_sound hc e h2⟩
  | .assign none x y, n, s, r, s', h => by
    simp only [evI, Option.bind_eq_some_iff, Prod.exists] at h
    obtain ⟨c, s1, h1, h2⟩ := h
    cases c with
    | val _ => cases h2
    | cell a =>
      simp only [Option.map_eq_some_iff, Prod.exists, Prod.mk.injEq] at h2
      obtain ⟨d, s2, h2, rfl, rfl⟩ := h2
      exact ⟨a, s1, d, s2, evI_sound hc x h1, evI_sound hc y h2, rfl, rfl⟩
  | .assign (some o) x y, n, s, r, s', h => by
    simp only [evI, Option.bind_eq_some_iff, Prod.exists] at h
    obtain ⟨c, s1, h1, h2⟩ := h
    cases c with
    | val _ => cases h2
    | cell a =>
      simp only [Option.bind_eq_some_iff, Option.map_eq_some_iff, Prod.exists, Prod.mk.injEq] at h2
      obtain ⟨d, s2, h2, v, h3, rfl, rfl⟩ := h2
      exact ⟨a, s1, d, s2, v, evI_sound hc x h1, evI_sound hc y h2, h3, rfl, rfl⟩

theorem evArgsI_sound (hc : ∀ a vs s v s', call a vs s = some (v, s') → R a vs s v s') {E : Env} {ρ : Frame} : ∀ (es : List Ex) {n : Nat}
    {s : Store M.World} {vs : List Word} {s' : Store M.World}, evArgsI M call E ρ es n s = some (vs, s') → Ex.EvalArgs M R E ρ es n s vs s'
  | [], n, s, r, s', h => by simp [evArgsI] at h; simp [Ex.EvalArgs, h.1, h.2]
  | e :: es, n, s, r, s', h => by
    simp only [evArgsI, Option.bind_eq_some_iff, Option.map_eq_some_iff, Prod.exists, Prod.mk.injEq] at h
    obtain ⟨d, s1, h1, ws, s2, h2, rfl, rfl⟩ := h
    exact ⟨d, s1, ws, evI_sound hc e h1, evArgsI_sound hc es h2, rfl⟩
end

theorem valI_sound (hc : ∀ a vs s v s', call a vs s = some (v, s') → R a vs s v s') {e : Ex} {P : Place} {ρ : Frame}
    {s : Store M.World} {v : Word} {s' : Store M.World} (h : valI M call e P ρ s = some (v, s')) : e.Value M R P ρ s v s' := by
  simp only [valI, Option.map_eq_some_iff, Prod.exists, Prod.mk.injEq] at h
  obtain ⟨d, s1, h1, rfl, rfl⟩ := h
  exact ⟨d, evI_sound hc e h1, rfl⟩

theorem stepI_sound (hc : ∀ a vs s v s', call a vs s = some (v, s') → R a vs s v s') {P0 : Place} {body : St} {x y : BState M.World}
    (h : stepI M call P0 body x = some y) : BStep M R P0 body x y := by
  cases x with
  | done => cases h
  | run P s k ρ σ =>
    cases s with
    | skip =>
      cases k with
      | stop => cases h; exact .endFun
      | seq => cases h; exact .endSeq
      | loop => cases h; exact .endLoop
    | seq => cases h; exact .seq
    | expr e =>
      simp only [stepI, Option.map_eq_some_iff, Prod.exists] at h
      obtain ⟨v, σ1, h1, rfl⟩ := h
      exact .expr (valI_sound hc h1)
    | ret e =>
      cases e with
      | none => cases h; exact .ret0
      | some e =>
        simp only [stepI, Option.map_eq_some_iff, Prod.exists] at h
        obtain ⟨v, σ1, h1, rfl⟩ := h
        exact .ret (valI_sound hc h1)
    | auto => cases h; exact .auto
    | extrn => cases h; exact .extrn
    | ifThen c t =>
      simp only [stepI, Option.map_eq_some_iff, Prod.exists] at h
      obtain ⟨v, σ1, h1, rfl⟩ := h
      split
      · exact .ifFalse (valI_sound hc h1) ‹_›
      · exact .ifTrue (valI_sound hc h1) ‹_›
    | ifElse c t e =>
      simp only [stepI, Option.map_eq_some_iff, Prod.exists] at h
      obtain ⟨v, σ1, h1, rfl⟩ := h
      split
      · exact .elseFalse (valI_sound hc h1) ‹_›
      · exact .elseTrue (valI_sound hc h1) ‹_›
    | «while» c t =>
      simp only [stepI, Option.map_eq_some_iff, Prod.exists] at h
      obtain ⟨v, σ1, h1, rfl⟩ := h
      split
      · exact .whileFalse (valI_sound hc h1) ‹_›
      · exact .whileTrue (valI_sound hc h1) ‹_›
    | switch e b =>
      simp only [stepI, Option.map_eq_some_iff, Prod.exists] at h
      obtain ⟨v, σ1, h1, rfl⟩ := h
      cases hf : findCase v b (P.afterEx e) k with
      | none => exact .switchNone (valI_sound hc h1) hf
      | some r => obtain ⟨Q, s, k'⟩ := r; exact .switchCase (valI_sound hc h1) hf
    | case => cases h; exact .case
    | label => cases h; exact .label
    | goto l =>
      simp only [stepI, Option.map_eq_some_iff, Prod.exists] at h
      obtain ⟨Q, s, k', h1, rfl⟩ := h
      exact .goto h1

theorem stepsI_sound (hc : ∀ a vs s v s', call a vs s = some (v, s') → R a vs s v s') {P0 : Place} {body : St} :
    ∀ (n : Nat) {x y : BState M.World}, stepsI M call P0 body n x = some y → BSteps M R P0 body x y
  | 0, x, y, h => by cases h; exact .refl
  | n + 1, x, y, h => by
    simp only [stepsI, Option.bind_eq_some_iff] at h
    obtain ⟨z, h1, h2⟩ := h
    exact .head (stepI_sound hc h1) (stepsI_sound hc n h2)

theorem runI_sound (hc : ∀ a vs s v s', call a vs s = some (v, s') → R a vs s v s') {P0 : Place} {body : St} :
    ∀ (n : Nat) {x : BState M.World} {v : Word} {σ : Store M.World}, runI M call P0 body n x = some (v, σ) → BSteps M R P0 body x (.done v σ)
  | n, .done v0 σ0, v, σ, h => by
    have : some (v0, σ0) = some (v, σ) := by cases n <;> exact h
    cases this; exact .refl
  | 0, .run .., v, σ, h => by cases h
  | n + 1, .run .., v, σ, h => by
    simp only [runI, Option.bind_eq_some_iff] at h
    obtain ⟨z, h1, h2⟩ := h
    exact .head (stepI_sound hc h1) (runI_sound hc n h2)
end

theorem definesI_sound {f : Ident} {ps : List Ident} {b : St} {P : Place} : ∀ (p pre : Program),
    (definesI f pre p = some (ps, b, P) → Program.Defines (pre ++ p) f ps b P) ∧ (definesI f pre p = none → ∀ qs b, Decl.func f qs b ∉ p)
  | [], pre => ⟨fun h => (by cases h), fun _ => by simp⟩
  | d :: p, pre => by
    have ih := definesI_sound (f := f) (ps := ps) (b := b) (P := P) p (pre ++ [d])
    rw [List.append_assoc, List.singleton_append] at ih
    simp only [definesI]
    cases hd : definesI f (pre ++ [d]) p with
    | some r => exact ⟨fun h => ih.1 (hd.trans h), fun h => (by cases h)⟩
    | none =>
      have hn := ih.2 hd
      cases d with
      | func g qs b' =>
        refine ⟨fun h => ?_, fun h => ?_⟩
        · simp only at h
          split at h
          case isFalse => cases h
          case isTrue e => cases h; subst e; exact ⟨pre, p, rfl, hn, rfl⟩
        · simp only at h
          split at h
          case isTrue => cases h
          case isFalse e =>
            intro qs b hm
            rw [List.mem_cons] at hm
            rcases hm with hm | hm
            · cases hm; exact e rfl
            · exact hn _ _ hm
      | global => exact ⟨fun h => (by cases h), fun _ qs b hm => by rw [List.mem_cons] at hm; rcases hm with hm | hm; cases hm; exact hn _ _ hm⟩
      | vector => exact ⟨fun h => (by cases h), fun _ qs b hm => by rw [List.mem_cons] at hm; rcases hm with hm | hm; cases hm; exact hn _ _ hm⟩

theorem callI_sound {p : Program} {M : BMachine} {xs : Word → List Word → Store M.World → Option (Word × Store M.World)} {X : Calls M.World}
    (hx : ∀ a vs s v s', xs a vs s = some (v, s') → X a vs s v s') {k : Nat} :
    ∀ (n : Nat) (a : Word) (args : List Word) (s : Store M.World) (v : Word) (s' : Store M.World),
      callI p M xs k n a args s = some (v, s') → p.Call M X n a args s v s'
  | 0, a, args, s, v, s', h => hx _ _ _ _ _ h
  | n + 1, a, args, s, v, s', h => by
    simp only [callI] at h
    split at h
    case h_1 r hr => cases h; exact .inl (hx _ _ _ _ _ hr)
    case h_2 =>
      obtain ⟨d, hd, h⟩ := List.exists_of_findSome?_eq_some h
      cases d with
      | func f qs b =>
        simp only at h
        split at h
        case isFalse => cases h
        case isTrue hg =>
          cases hdef : definesI f [] p with
          | none => rw [hdef] at h; cases h
          | some r =>
            obtain ⟨ps, body, P⟩ := r
            rw [hdef] at h
            simp only at h
            split at h
            case isFalse => cases h
            case isTrue hl =>
              simp only [Option.map_eq_some_iff, Prod.exists, Prod.mk.injEq] at h
              obtain ⟨v1, σ1, h1, rfl, rfl⟩ := h
              refine .inr ⟨f, ps, body, P, (definesI_sound p []).1 hdef, hg.symm, hl, σ1, ?_, rfl⟩
              exact runI_sound (callI_sound hx n) k h1
      | global => cases h
      | vector => cases h

/-- the state after `k` steps of a call of `f` -/
def reachI (p : Program) (M : BMachine) (xs : Word → List Word → Store M.World → Option (Word × Store M.World)) (k n : Nat) (f : Ident)
    (args : List Word) (σ : Store M.World) (j : Nat) : Option (BState M.World) :=
  match definesI f [] p with
  | some (ps, body, P) => if ps.length ≤ args.length then stepsI M (callI p M xs k n) P body j (.entry M P ps body args σ) else none
  | none => none

theorem reachI_sound {p : Program} {M : BMachine} {xs : Word → List Word → Store M.World → Option (Word × Store M.World)} {X : Calls M.World}
    (hx : ∀ a vs s v s', xs a vs s = some (v, s') → X a vs s v s') {k n j : Nat} {f : Ident} {args : List Word} {σ : Store M.World}
    {x : BState M.World} (h : reachI p M xs k n f args σ j = some x) : p.Reaches M X n f args σ x := by
  simp only [reachI] at h
  cases hd : definesI f [] p with
  | none => rw [hd] at h; cases h
  | some r =>
    obtain ⟨ps, body, P⟩ := r
    rw [hd] at h
    simp only at h
    split at h
    case isFalse => cases h
    case isTrue hl => exact ⟨ps, body, P, (definesI_sound p []).1 hd, hl, stepsI_sound (callI_sound hx n) j h⟩

end Blang
