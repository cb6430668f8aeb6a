import Verif.Spec.Files
import Verif.Proofs.Det
/-
The meaning of a function does not depend on what precedes it in the program, except for the
numbers of the string literals.
-/
namespace Blang
open Spec

/-- a machine that has globals, literals and parameters elsewhere -/
abbrev Spec.BMachine.moved (B : BMachine) (g : Ident → Word) (l : Nat → Word) (p : B.World → Nat → List Word × B.World) : BMachine :=
  { B with global := g, literal := l, params := p }

/-- the same names mean the same; `k` more string literals precede -/
structure PRel (k : Nat) (P Q : Place) : Prop where
  locals : P.env.locals = Q.env.locals
  exts : P.env.exts = Q.env.exts
  lits : P.lits = k + Q.lits

structure ERel (E F : Env) : Prop where
  locals : E.locals = F.locals
  exts : E.exts = F.exts

theorem ERel.afterEx {E F : Env} (h : ERel E F) (e : Ex) : ERel (E.afterEx e) (F.afterEx e) := ⟨h.locals, h.exts⟩

theorem ERel.extrn : ∀ (xs : List Ident) {E F : Env}, ERel E F → ERel (xs.foldl Env.afterExtrn E) (xs.foldl Env.afterExtrn F)
  | [], _, _, h => h
  | x :: xs, _, _, h => ERel.extrn xs ⟨h.locals, by simp only [Env.afterExtrn]; rw [h.exts]⟩

theorem ERel.after : ∀ (s : St) {E F : Env}, ERel E F → ERel (E.after s) (F.after s)
  | .skip, _, _, h => h
  | .seq s t, _, _, h => ERel.after t (ERel.after s h)
  | .expr e, _, _, h => h.afterEx e
  | .ret none, _, _, h => h
  | .ret (some e), _, _, h => h.afterEx e
  | .auto ds, _, _, h => ⟨by simp only [Env.after]; rw [h.locals], h.exts⟩
  | .extrn xs, _, _, h => ERel.extrn xs h
  | .ifThen c t, _, _, h => ERel.after t (h.afterEx c)
  | .ifElse c t e, _, _, h => ERel.after e (ERel.after t (h.afterEx c))
  | .while c b, _, _, h => ERel.after b (h.afterEx c)
  | .switch e b, _, _, h => ERel.after b (h.afterEx e)
  | .case _ s, _, _, h => ERel.after s h
  | .label _ s, _, _, h => ERel.after s h
  | .goto _, _, _, h => h

theorem PRel.env {k : Nat} {P Q : Place} (h : PRel k P Q) : ERel P.env Q.env := ⟨h.locals, h.exts⟩

theorem PRel.afterEx {k : Nat} {P Q : Place} (h : PRel k P Q) (e : Ex) : PRel k (P.afterEx e) (Q.afterEx e) :=
  ⟨h.locals, h.exts, by simp only [Place.afterEx]; rw [h.lits]; omega⟩

theorem PRel.after {k : Nat} {P Q : Place} (h : PRel k P Q) (s : St) : PRel k (P.after s) (Q.after s) :=
  ⟨(h.env.after s).locals, (h.env.after s).exts, by simp only [Place.after]; rw [h.lits]; omega⟩

inductive CRel (k : Nat) : Cont → Cont → Prop where
  | stop : CRel k .stop .stop
  | seq {P Q t c d} : PRel k P Q → CRel k c d → CRel k (.seq P t c) (.seq Q t d)
  | loop {P Q e b c d} : PRel k P Q → CRel k c d → CRel k (.loop P e b c) (.loop Q e b d)

inductive FRel (k : Nat) : Option (Place × St × Cont) → Option (Place × St × Cont) → Prop where
  | none : FRel k none none
  | some {P Q s c d} : PRel k P Q → CRel k c d → FRel k (some (P, s, c)) (some (Q, s, d))

theorem FRel.or {k : Nat} {a b c d : Option (Place × St × Cont)} (h1 : FRel k a b) (h2 : FRel k c d) : FRel k (a.or c) (b.or d) := by
  cases h1 with
  | none => exact h2
  | some h h' => exact .some h h'

theorem findCase_rel {k : Nat} (v : Word) : ∀ (s : St) {P Q : Place} {c d : Cont}, PRel k P Q → CRel k c d →
    FRel k (findCase v s P c) (findCase v s Q d)
  | .case w s, P, Q, c, d, h, hc => by
    simp only [findCase]
    split
    · exact .some h hc
    · exact findCase_rel v s h hc
  | .seq s t, P, Q, c, d, h, hc => by
    simp only [findCase]
    exact (findCase_rel v s h (.seq (h.after s) hc)).or (findCase_rel v t (h.after s) hc)
  | .label _ s, P, Q, c, d, h, hc => by simp only [findCase]; exact findCase_rel v s h hc
  | .skip, _, _, _, _, _, _ | .expr _, _, _, _, _, _, _ | .ret _, _, _, _, _, _, _ | .auto _, _, _, _, _, _, _ | .extrn _, _, _, _, _, _, _
  | .ifThen _ _, _, _, _, _, _, _ | .ifElse _ _ _, _, _, _, _, _, _ | .while _ _, _, _, _, _, _, _ | .switch _ _, _, _, _, _, _, _
  | .goto _, _, _, _, _, _, _ => by
    simp only [findCase]; exact .none

theorem findLabel_rel {k : Nat} (l : Ident) : ∀ (s : St) {P Q : Place} {c d : Cont}, PRel k P Q → CRel k c d →
    FRel k (findLabel l s P c) (findLabel l s Q d)
  | .label m s, P, Q, c, d, h, hc => by
    simp only [findLabel]
    split
    · exact .some h hc
    · exact findLabel_rel l s h hc
  | .case _ s, P, Q, c, d, h, hc => by simp only [findLabel]; exact findLabel_rel l s h hc
  | .seq s t, P, Q, c, d, h, hc => by
    simp only [findLabel]
    exact (findLabel_rel l s h (.seq (h.after s) hc)).or (findLabel_rel l t (h.after s) hc)
  | .ifThen e t, P, Q, c, d, h, hc => by simp only [findLabel]; exact findLabel_rel l t (h.afterEx e) hc
  | .ifElse e t f, P, Q, c, d, h, hc => by
    simp only [findLabel]
    exact (findLabel_rel l t (h.afterEx e) hc).or (findLabel_rel l f ((h.afterEx e).after t) hc)
  | .while e b, P, Q, c, d, h, hc => by simp only [findLabel]; exact findLabel_rel l b (h.afterEx e) (.loop h hc)
  | .switch e b, P, Q, c, d, h, hc => by simp only [findLabel]; exact findLabel_rel l b (h.afterEx e) hc
  | .skip, _, _, _, _, _, _ | .expr _, _, _, _, _, _, _ | .ret _, _, _, _, _, _, _ | .auto _, _, _, _, _, _, _ | .extrn _, _, _, _, _, _, _
  | .goto _, _, _, _, _, _, _ => by
    simp only [findLabel]; exact .none

section
variable {B : BMachine} {R R' : Calls B.World} {g : Ident → Word} {l : Nat → Word} {pm : B.World → Nat → List Word × B.World} {k : Nat}

theorem nameRes_rel (hg : ∀ x, B.global x = g x) {E F : Env} (h : ERel E F) (ρ : Frame) (x : Ident) :
    nameRes B E ρ x = nameRes (B.moved g l pm) F ρ x := by
  simp only [nameRes, h.locals, h.exts, hg]

section
variable (hg : ∀ x, B.global x = g x) (hl : ∀ n, l n = B.literal (k + n)) (hR : ∀ a vs s v s', R a vs s v s' → R' a vs s v s')
  {E F : Env} (hE : ERel E F) (ρ : Frame)
include hg hl hR hE

mutual
theorem eval_rel : ∀ (e : Ex) (n : Nat) (s : Store B.World) (r : Res) (s' : Store B.World),
    e.Eval B R E ρ (k + n) s r s' → e.Eval (B.moved g l pm) R' F ρ n s r s'
  | .num v, n, s, r, s', h => h
  | .str _, n, s, r, s', h => by
    simp only [Ex.Eval] at h ⊢
    rw [hl]; exact h
  | .var x, n, s, r, s', h => by
    simp only [Ex.Eval] at h ⊢
    rw [← nameRes_rel hg hE]; exact h
  | .paren e, n, s, r, s', h => by
    simp only [Ex.Eval] at h ⊢
    obtain ⟨d, h1, h2⟩ := h
    exact ⟨d, eval_rel e _ _ _ _ h1, h2⟩
  | .index a i, n, s, r, s', h => by
    simp only [Ex.Eval] at h ⊢
    obtain ⟨d1, s1, d2, h1, h2, h3⟩ := h
    rw [Nat.add_assoc] at h2
    exact ⟨d1, s1, d2, eval_rel a _ _ _ _ h1, eval_rel i _ _ _ _ h2, h3⟩
  | .callName f as, n, s, r, s', h => by
    simp only [Ex.Eval] at h ⊢
    obtain ⟨d, vs, s1, v, h1, h2, h3, h4⟩ := h
    exact ⟨d, vs, s1, v, by rw [← nameRes_rel hg hE]; exact h1, evalArgs_rel as _ _ _ _ h2, hR _ _ _ _ _ h3, h4⟩
  | .call f as, n, s, r, s', h => by
    simp only [Ex.Eval] at h ⊢
    obtain ⟨d, s1, vs, s2, v, h1, h2, h3, h4⟩ := h
    rw [Nat.add_assoc] at h2
    exact ⟨d, s1, vs, s2, v, eval_rel f _ _ _ _ h1, evalArgs_rel as _ _ _ _ h2, hR _ _ _ _ _ h3, h4⟩
  | .post d e, n, s, r, s', h => by
    simp only [Ex.Eval] at h ⊢
    obtain ⟨a, s1, h1, h2⟩ := h
    exact ⟨a, s1, eval_rel e _ _ _ _ h1, h2⟩
  | .pre d e, n, s, r, s', h => by
    simp only [Ex.Eval] at h ⊢
    obtain ⟨a, s1, h1, h2⟩ := h
    exact ⟨a, s1, eval_rel e _ _ _ _ h1, h2⟩
  | .not e, n, s, r, s', h => by
    simp only [Ex.Eval] at h ⊢
    obtain ⟨d, h1, h2⟩ := h
    exact ⟨d, eval_rel e _ _ _ _ h1, h2⟩
  | .neg e, n, s, r, s', h => by
    simp only [Ex.Eval] at h ⊢
    obtain ⟨d, h1, h2⟩ := h
    exact ⟨d, eval_rel e _ _ _ _ h1, h2⟩
  | .deref e, n, s, r, s', h => by
    simp only [Ex.Eval] at h ⊢
    obtain ⟨d, h1, h2⟩ := h
    exact ⟨d, eval_rel e _ _ _ _ h1, h2⟩
  | .addr e, n, s, r, s', h => by
    simp only [Ex.Eval] at h ⊢
    obtain ⟨a, h1, h2⟩ := h
    exact ⟨a, eval_rel e _ _ _ _ h1, h2⟩
  | .bin o x y, n, s, r, s', h => by
    simp only [Ex.Eval] at h ⊢
    obtain ⟨d1, s1, d2, v, h1, h2, h3⟩ := h
    rw [Nat.add_assoc] at h2
    exact ⟨d1, s1, d2, v, eval_rel x _ _ _ _ h1, eval_rel y _ _ _ _ h2, h3⟩
  | .cond c t e, n, s, r, s', h => by
    simp only [Ex.Eval] at h ⊢
    obtain ⟨d, s1, d', h1, h2, h3⟩ := h
    refine ⟨d, s1, d', eval_rel c _ _ _ _ h1, h2, ?_⟩
    split
    · rename_i hc
      rw [if_pos hc, Nat.add_assoc] at h3; exact eval_rel t _ _ _ _ h3
    · rename_i hc
      rw [if_neg hc, Nat.add_assoc, Nat.add_assoc, ← Nat.add_assoc n] at h3; exact eval_rel e _ _ _ _ h3
  | .assign none x y, n, s, r, s', h => by
    simp only [Ex.Eval] at h ⊢
    obtain ⟨a, s1, d, s2, h1, h2, h3⟩ := h
    rw [Nat.add_assoc] at h2
    exact ⟨a, s1, d, s2, eval_rel x _ _ _ _ h1, eval_rel y _ _ _ _ h2, h3⟩
  | .assign (some o) x y, n, s, r, s', h => by
    simp only [Ex.Eval] at h ⊢
    obtain ⟨a, s1, d, s2, v, h1, h2, h3⟩ := h
    rw [Nat.add_assoc] at h2
    exact ⟨a, s1, d, s2, v, eval_rel x _ _ _ _ h1, eval_rel y _ _ _ _ h2, h3⟩

theorem evalArgs_rel : ∀ (es : List Ex) (n : Nat) (s : Store B.World) (vs : List Word) (s' : Store B.World),
    Ex.EvalArgs B R E ρ es (k + n) s vs s' → Ex.EvalArgs (B.moved g l pm) R' F ρ es n s vs s'
  | [], n, s, vs, s', h => h
  | e :: es, n, s, vs, s', h => by
    simp only [Ex.EvalArgs] at h ⊢
    obtain ⟨d, s1, ws, h1, h2, h3⟩ := h
    rw [Nat.add_assoc] at h2
    exact ⟨d, s1, ws, eval_rel e _ _ _ _ h1, evalArgs_rel es _ _ _ _ h2, h3⟩
end
end

/-- states that differ in the places only -/
inductive SRel (k : Nat) {World : Type} : BState World → BState World → Prop where
  | run {P Q s c d ρ σ} : PRel k P Q → CRel k c d → SRel k (.run P s c ρ σ) (.run Q s d ρ σ)
  | done {v σ} : SRel k (.done v σ) (.done v σ)

theorem declare_rel : ∀ (ds : List (Ident × Option Word)) (ρ : Frame) (s : Store B.World), declare (B.moved g l pm) ds ρ s = declare B ds ρ s
  | [], _, _ => rfl
  | (x, none) :: ds, ρ, s => by simp only [declare]; exact declare_rel ds _ _
  | (x, some n) :: ds, ρ, s => by simp only [declare]; exact declare_rel ds _ _

section
variable (hg : ∀ x, B.global x = g x) (hl : ∀ n, l n = B.literal (k + n)) (hR : ∀ a vs s v s', R a vs s v s' → R' a vs s v s')
include hg hl hR

theorem value_rel {e : Ex} {P Q : Place} {ρ : Frame} {s s' : Store B.World} {v : Word} (hP : PRel k P Q) (h : e.Value B R P ρ s v s') :
    e.Value (B.moved g l pm) R' Q ρ s v s' := by
  obtain ⟨d, h1, h2⟩ := h
  rw [hP.lits] at h1
  exact ⟨d, eval_rel hg hl hR hP.env ρ e _ _ _ _ h1, h2⟩

theorem bstep_rel {P0 Q0 : Place} (h0 : PRel k P0 Q0) {body : St} {x y x' : BState B.World} (hx : SRel k x x') (h : BStep B R P0 body x y) :
    ∃ y', BStep (B.moved g l pm) R' Q0 body x' y' ∧ SRel k y y' := by
  cases h with
  | endFun => cases hx with | run hP hc => cases hc; exact ⟨_, .endFun, .done⟩
  | endSeq => cases hx with | run hP hc => cases hc with | seq h1 h2 => exact ⟨_, .endSeq, .run h1 h2⟩
  | endLoop => cases hx with | run hP hc => cases hc with | loop h1 h2 => exact ⟨_, .endLoop, .run h1 h2⟩
  | seq => cases hx with | run hP hc => exact ⟨_, .seq, .run hP (.seq (hP.after _) hc)⟩
  | expr hv => cases hx with | run hP hc => exact ⟨_, .expr (value_rel hg hl hR hP hv), .run hP hc⟩
  | ret0 => cases hx with | run hP hc => exact ⟨_, .ret0, .done⟩
  | ret hv => cases hx with | run hP hc => exact ⟨_, .ret (value_rel hg hl hR hP hv), .done⟩
  | auto =>
    cases hx with
    | run hP hc =>
      refine ⟨_, .auto, ?_⟩
      rw [declare_rel (g := g) (l := l) (pm := pm)]
      exact .run hP hc
  | extrn => cases hx with | run hP hc => exact ⟨_, .extrn, .run hP hc⟩
  | ifTrue hv hz => cases hx with | run hP hc => exact ⟨_, .ifTrue (value_rel hg hl hR hP hv) hz, .run (hP.afterEx _) hc⟩
  | ifFalse hv hz => cases hx with | run hP hc => exact ⟨_, .ifFalse (value_rel hg hl hR hP hv) hz, .run hP hc⟩
  | elseTrue hv hz => cases hx with | run hP hc => exact ⟨_, .elseTrue (value_rel hg hl hR hP hv) hz, .run (hP.afterEx _) hc⟩
  | elseFalse hv hz =>
    cases hx with | run hP hc => exact ⟨_, .elseFalse (value_rel hg hl hR hP hv) hz, .run ((hP.afterEx _).after _) hc⟩
  | whileTrue hv hz =>
    cases hx with | run hP hc => exact ⟨_, .whileTrue (value_rel hg hl hR hP hv) hz, .run (hP.afterEx _) (.loop hP hc)⟩
  | whileFalse hv hz => cases hx with | run hP hc => exact ⟨_, .whileFalse (value_rel hg hl hR hP hv) hz, .run hP hc⟩
  | @switchCase P e b c ρ σ v σ' Q s c' hv hf =>
    cases hx with
    | @run _ Q' _ _ d _ _ hP hc =>
      have := findCase_rel v b (hP.afterEx e) hc
      rw [hf] at this
      generalize hf' : findCase v b (Q'.afterEx e) d = o at this
      cases this with
      | some h1 h2 => exact ⟨_, .switchCase (value_rel hg hl hR hP hv) hf', .run h1 h2⟩
  | @switchNone P e b c ρ σ v σ' hv hf =>
    cases hx with
    | @run _ Q' _ _ d _ _ hP hc =>
      have := findCase_rel v b (hP.afterEx e) hc
      rw [hf] at this
      generalize hf' : findCase v b (Q'.afterEx e) d = o at this
      cases this with
      | none => exact ⟨_, .switchNone (value_rel hg hl hR hP hv) hf', .run hP hc⟩
  | case => cases hx with | run hP hc => exact ⟨_, .case, .run hP hc⟩
  | label => cases hx with | run hP hc => exact ⟨_, .label, .run hP hc⟩
  | @goto P lab c ρ σ Q s c' hf =>
    cases hx with
    | run hP hc =>
      have := findLabel_rel lab body h0 CRel.stop
      rw [hf] at this
      generalize hf' : findLabel lab body Q0 .stop = o at this
      cases this with
      | some h1 h2 => exact ⟨_, .goto hf', .run h1 h2⟩

theorem bsteps_rel {P0 Q0 : Place} (h0 : PRel k P0 Q0) {body : St} {x y : BState B.World} (h : BSteps B R P0 body x y) :
    ∀ {x' : BState B.World}, SRel k x x' → ∃ y', BSteps (B.moved g l pm) R' Q0 body x' y' ∧ SRel k y y' := by
  induction h with
  | refl => intro x' hx; exact ⟨_, .refl, hx⟩
  | head h1 _ ih =>
    intro x' hx
    obtain ⟨y', s1, r1⟩ := bstep_rel (g := g) (l := l) (pm := pm) hg hl hR h0 hx h1
    obtain ⟨z', s2, r2⟩ := ih r1
    exact ⟨z', .head s1 s2, r2⟩

theorem funRun_rel (hp : ∀ w n, pm w n = B.params w n) {P Q : Place} (h0 : PRel k P Q) {ps : List Ident} {body : St} {args : List Word}
    {σ σ' : Store B.World} {v : Word} (h : FunRun B R P ps body args σ v σ') : FunRun (B.moved g l pm) R' Q ps body args σ v σ' := by
  obtain ⟨h1, σ1, h2, h3⟩ := h
  obtain ⟨y', s, r⟩ := bsteps_rel (g := g) (l := l) (pm := pm) hg hl hR h0 h2 (.run h0 .stop)
  cases r
  refine ⟨h1, σ1, ?_, h3⟩
  simp only [hp]
  exact s
end
end

/-! ### functions of the files -/

theorem paramCells_file (M : IRMachine) (l1 l2 : List Char → Word) (w : M.World) (n : Nat) :
    (M.file l1).paramCells w n = (M.file l2).paramCells w n := by
  have hc : ∀ (n : Nat) (w : M.World), (M.file l1).cells w n = (M.file l2).cells w n := by
    intro n
    induction n with
    | zero => intro w; rfl
    | succ n ih => intro w; simp only [IRMachine.cells]; rw [ih]
  match n with
  | 0 => rfl
  | 1 => rfl
  | n + 2 => simp only [IRMachine.paramCells]; rw [hc]

theorem symbolOf_head (x : Ident) : (symbolOf x).head? ≠ some '.' := by
  unfold symbolOf
  split
  · rename_i e; rw [e]; decide
  · simp

theorem file_addr (M : IRMachine) (l : List Char → Word) (x : Ident) : (M.file l).addr (symbolOf x) = M.addr (symbolOf x) :=
  if_neg (symbolOf_head x)

theorem strSym_head (n : Nat) : (strSym n).head? = some '.' := rfl

theorem file_str (M : IRMachine) (l : List Char → Word) (n : Nat) : (M.file l).addr (strSym n) = l (strSym n) :=
  if_pos (c := (strSym n).head? = some '.') (t := l (strSym n)) (e := M.addr (strSym n)) (strSym_head n)

theorem place_lits (p q : Program) : (Program.place (p ++ q)).lits = (Program.place p).lits + (Program.place q).lits := by
  simp [Program.place]

/-- the definition of a function lies in one of the files -/
theorem defines_file {f : Ident} {ps : List Ident} {b : St} : ∀ (fs : List File) (pre : Program) (lits : List Char → Word) {P : Place},
    LitsAt lits pre.place.lits fs → (wholeProgram fs).Defines f ps b P →
    ∃ F ∈ fs, ∃ (k : Nat) (Q : Place), F.tree.Defines f ps b Q ∧ (∀ n, F.lits (strSym n) = lits (strSym (k + n))) ∧
      PRel k ⟨P.env, pre.place.lits + P.lits⟩ Q
  | [], pre, lits, P, _, hd => by
    obtain ⟨a, b, e, _⟩ := hd
    simp [wholeProgram] at e
  | F :: fs, pre, lits, P, hL, hd => by
    obtain ⟨a, c, e, hlast, rfl⟩ := hd
    rw [wholeProgram, List.flatMap_cons] at e
    rcases List.append_eq_append_iff.1 e with ⟨a', rfl, e2⟩ | ⟨c', e1, e2⟩
    · -- in a later file
      have hl2 : LitsAt lits (Program.place (pre ++ F.tree)).lits fs := by
        have := hL.2
        rw [place_lits]; exact this
      obtain ⟨G, hG, k, Q, q1, q2, q3⟩ := defines_file fs (pre ++ F.tree) lits hl2
        (P := ⟨(Program.place a').env.enter f ps, (Program.place a').lits⟩) ⟨a', c, e2, hlast, rfl⟩
      refine ⟨G, by simp [hG], k, Q, q1, q2, ⟨q3.locals, q3.exts, ?_⟩⟩
      have := q3.lits
      simp only [place_lits] at this ⊢
      omega
    · cases c' with
      | nil =>
        simp only [List.append_nil, List.nil_append] at e1 e2
        have hl2 : LitsAt lits (Program.place (pre ++ F.tree)).lits fs := by
          have := hL.2
          rw [place_lits]; exact this
        obtain ⟨G, hG, k, Q, q1, q2, q3⟩ := defines_file fs (pre ++ F.tree) lits hl2
          (P := ⟨(Program.place []).env.enter f ps, (Program.place []).lits⟩) ⟨[], c, e2.symm, hlast, rfl⟩
        refine ⟨G, by simp [hG], k, Q, q1, q2, ⟨q3.locals, q3.exts, ?_⟩⟩
        have := q3.lits
        rw [← e1]
        simp only [place_lits] at this ⊢
        simp [Program.place] at this ⊢
        omega
      | cons d c' =>
        simp only [List.cons_append, List.cons.injEq] at e2
        obtain ⟨rfl, rfl⟩ := e2
        refine ⟨F, by simp, pre.place.lits, ⟨(Program.place a).env.enter f ps, (Program.place a).lits⟩,
          ⟨a, c', e1, fun qs b' hm => hlast qs b' (by simp [hm]), rfl⟩, hL.1, ⟨rfl, rfl, rfl⟩⟩

/-- **Files.**  What a call means in the whole program, it does in the linked modules. -/
theorem files_sim {fs : List File} (hb : ∀ F ∈ fs, ∃ c, Between F.tree newCompiler c ∧ F.code = ⟨c.globals, c.funcs⟩)
    (hn : ∀ F ∈ fs, ∀ d ∈ F.tree, d.All NameOk) (ht : ∀ F ∈ fs, F.tree.Tame) {M : IRMachine} {lits : List Char → Word}
    (hL : LitsAt lits 0 fs) {X : Calls M.World} :
    ∀ (n : Nat) (a : Word) (args : List Word) (σ : Store M.World) (v : Word) (σ' : Store M.World),
      (wholeProgram fs).Call (M.file lits).toB X n a args σ v σ' → LinkedCall fs M X n a args σ v σ'
  | 0, a, args, σ, v, σ', hc => hc
  | n + 1, a, args, σ, v, σ', hc => by
    rcases hc with hc | ⟨f, ps, b, P, hdef, ha, hrun⟩
    · exact .inl hc
    · right
      obtain ⟨F, hF, k, Q, hQ, hl, hr⟩ := defines_file fs [] lits hL hdef
      obtain ⟨c, hB, hc⟩ := hb F hF
      obtain ⟨E, c1, ss, fn, hK, hI, ⟨r⟩, hfn, hs, rfl, hT, hnf⟩ := hB.defines (hn F hF) hQ
      have hmem : Decl.func f ps b ∈ F.tree := by
        obtain ⟨pre, post, e, _⟩ := hQ
        rw [e]; simp
      have hP : PRel k P ⟨E.enter f ps, ss.length⟩ := ⟨hr.locals, hr.exts, by have := hr.lits; simpa [Program.place] using this⟩
      have hrun1 : FunRun (M.file F.lits).toB (LinkedCall fs M X n) ⟨E.enter f ps, ss.length⟩ ps b args σ v σ' :=
        funRun_rel (B := (M.file lits).toB) (g := (M.file F.lits).toB.global) (l := (M.file F.lits).toB.literal)
          (pm := (M.file F.lits).toB.params) (k := k)
          (fun x => (file_addr M lits x).trans (file_addr M F.lits x).symm)
          (fun i => ((file_str M F.lits i).trans (hl i)).trans (file_str M lits (k + i)).symm)
          (files_sim hb hn ht hL n) (fun w i => paramCells_file M F.lits lits w i) hP hrun
      have hrun2 := func_sim r hK hI hnf ((ht F hF).1 f ps b hmem)
        (fun x h1 h2 => (ht F hF).2 x (hT.vars x h1) (hT.funs x h2)) hrun1
      refine ⟨F, hF, fn, by rw [hc]; exact hfn, codeRun_blocks hrun2, ?_, hrun2⟩
      rw [ha, hs]
      exact file_addr M lits f

/-! ### one outcome -/

theorem linkedCall_succ {fs : List File} {M : IRMachine} {X : Calls M.World} : ∀ (n : Nat) (a : Word) (args : List Word) (σ : Store M.World)
    (v : Word) (σ' : Store M.World), LinkedCall fs M X n a args σ v σ' → LinkedCall fs M X (n + 1) a args σ v σ'
  | 0, _, _, _, _, _, h => .inl h
  | n + 1, a, args, σ, v, σ', h => by
    rcases h with h | ⟨F, hF, f, h1, h2, h3, h4⟩
    · exact .inl h
    · exact .inr ⟨F, hF, f, h1, h2, h3, codeRun_mono (M := M.file F.lits) (R := LinkedCall fs M X n) (R' := LinkedCall fs M X (n + 1))
        (linkedCall_succ (M := M) n) h4⟩

theorem linkedCall_le {fs : List File} {M : IRMachine} {X : Calls M.World} {n k : Nat} (hk : n ≤ k) {a : Word} {args : List Word}
    {σ : Store M.World} {v : Word} {σ' : Store M.World} (h : LinkedCall fs M X n a args σ v σ') : LinkedCall fs M X k a args σ v σ' := by
  induction hk with
  | refl => exact h
  | step _ ih => exact linkedCall_succ _ _ _ _ _ _ ih

theorem sym_unique {f g : Func} : ∀ (l : List Func), (l.map Func.sym).Nodup → f ∈ l → g ∈ l → f.sym = g.sym → f = g
  | [], _, h, _, _ => by cases h
  | x :: l, hnd, hf, hg, e => by
    simp only [List.map_cons, List.nodup_cons] at hnd
    rw [List.mem_cons] at hf hg
    rcases hf with rfl | hf
    · rcases hg with rfl | hg
      · rfl
      · exact absurd (List.mem_map.2 ⟨g, hg, e.symm⟩) hnd.1
    · rcases hg with rfl | hg
      · exact absurd (List.mem_map.2 ⟨f, hf, e⟩) hnd.1
      · exact sym_unique l hnd.2 hf hg e

theorem linkedCall_det {fs : List File} {M : IRMachine} {X : Calls M.World} (hl : LoadedFiles fs M X)
    (hn : ∀ F ∈ fs, (F.code.funcs.map Func.sym).Nodup) : ∀ n, Functional (LinkedCall fs M X n)
  | 0 => hl.functional
  | n + 1 => by
    intro a vs s v1 s1 v2 s2 h1 h2
    rcases h1 with h1 | ⟨F, hF, f, f1, f2, f3, f4⟩
    · rcases h2 with h2 | ⟨G, hG, g, g1, g2, g3, g4⟩
      · exact hl.functional _ _ _ _ _ _ _ h1 h2
      · rw [g3] at h1; exact absurd h1 (hl.external G hG g g1 g2 _ _ _ _)
    · rcases h2 with h2 | ⟨G, hG, g, g1, g2, g3, g4⟩
      · rw [f3] at h2; exact absurd h2 (hl.external F hF f f1 f2 _ _ _ _)
      · obtain ⟨rfl, e⟩ := hl.apart F hF G hG f f1 g g1 f2 g2 (f3.symm.trans g3)
        have e := sym_unique _ (hn F hF) f1 g1 e
        subst e
        exact codeRun_det (M := M.file F.lits) (linkedCall_det hl hn n) f4 g4

end Blang
