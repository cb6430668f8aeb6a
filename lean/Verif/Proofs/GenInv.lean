import Verif.Proofs.Gen
import Verif.Proofs.SoundExpr
import Verif.Spec.Names
/-
A relation between compiler states (for names satisfying `P`) that is a preorder and holds for every primitive operation holds
for the code generation of expressions and statements.
-/
namespace Blang
open Spec

/-- `f` takes related states to related states. -/
def Keeps {α : Type} (R : CState → CState → Prop) (f : B α) : Prop := ∀ c a c', f c = .ok a c' → R c c'

/-- primitives used by expressions, without string constants -/
structure PStable (P : Name → Prop) (R : CState → CState → Prop) : Prop where
  refl : ∀ c, R c c
  trans : ∀ {a b c}, R a b → R b c → R a c
  emit : ∀ i, Keeps R (emit i)
  setTerm : ∀ t, Keeps R (setTerm t)
  newBlock : ∀ n, Keeps R (newBlock n)
  setInsertPoint : ∀ n, Keeps R (setInsertPoint n)
  freshLabelID : Keeps R freshLabelID
  declFn : ∀ c x v c', P x → findFuncByName c x = none → lookup x c.ctx = none →
    getOrDeclareFunction x c = .ok v c' → R c c'

/-- primitives used by expressions -/
structure EStable (P : Name → Prop) (R : CState → CState → Prop) : Prop extends PStable P R where
  createString : ∀ s, Keeps R (createStringConstant s)

/-- primitives used by statements, without string constants -/
structure QStable (P : Name → Prop) (R : CState → CState → Prop) : Prop extends PStable P R where
  getOrCreateLabel : ∀ n, (P n ∨ ∃ k v, n = caseName k v) → Keeps R (getOrCreateLabel n)
  declareExtrn : ∀ n, P n → Keeps R (declareExtrn n)
  addLocal : ∀ c k v, P k → R c { c with locals := insert k v c.locals }

/-- primitives used by statements -/
structure SStable (P : Name → Prop) (R : CState → CState → Prop) : Prop extends QStable P R where
  createString : ∀ s, Keeps R (createStringConstant s)

theorem SStable.toE {P : Name → Prop} {R : CState → CState → Prop} (h : SStable P R) : EStable P R :=
  { h.toPStable with createString := h.createString }

section
variable {P : Name → Prop} {R : CState → CState → Prop} {α β : Type}

theorem PStable.pure (h : PStable P R) (a : α) : Keeps R (pure a) := by
  intro c b c' hc; simp at hc; rw [hc.2]; exact h.refl _

theorem PStable.bind (h : PStable P R) {x : B α} {f : α → B β} (hx : Keeps R x) (hf : ∀ a, Keeps R (f a)) :
    Keeps R (x >>= f) := by
  intro c b c' hc
  obind hc a s h1
  exact h.trans (hx _ _ _ h1) (hf _ _ _ _ hc)

theorem PStable.fail (_h : PStable P R) {s : String} : Keeps R (bfail s : B α) := by
  intro c b c' hc; cases hc

theorem PStable.ite (_h : PStable P R) {p : Prop} [Decidable p] {f g : B α} (hf : Keeps R f) (hg : Keeps R g) :
    Keeps R (if p then f else g) := by split <;> assumption

theorem PStable.get (h : PStable P R) : Keeps R (M.get : B CState) := by
  intro c a c' hc; simp at hc; rw [hc.2]; exact h.refl _

theorem PStable.rval (h : PStable P R) (v : LV) : Keeps R (rval v) := h.ite (h.emit _) (h.pure _)

theorem PStable.cmpOp (h : PStable P R) (p : Pred) (x y : Val) : Keeps R (cmpOp p x y) :=
  h.bind (h.emit _) fun _ => h.emit _

theorem PStable.genOp (h : PStable P R) (o : Op) (x y : Val) : Keeps R (genOp o x y) := by
  cases o
  · exact h.emit _
  · exact h.cmpOp _ _ _

theorem PStable.getInsertBlock (h : PStable P R) : Keeps R getInsertBlock := by
  intro c a c' hc; cases hc; exact h.refl _

theorem PStable.getAddress (h : PStable P R) (x : Name) : Keeps R (getAddress x) := by
  refine h.bind h.get fun c => ?_
  split
  · exact h.pure _
  · split
    · exact h.bind (h.emit _) fun _ => h.pure _
    · exact h.bind (h.emit _) fun _ => h.pure _
    · exact h.pure _
    · exact h.pure _

/-- `getAddress` finds nothing only for a name that is neither a local nor in the context, and
then does nothing. -/
theorem getAddress_none' {x : Name} {c c' : CState} (h : getAddress x c = .ok none c') :
    c' = c ∧ lookup x c.locals = none ∧ lookup x c.ctx = none := by
  unfold getAddress at h
  rw [M.bind_ok (M.get_apply _)] at h
  cases hl : lookup x c.locals with
  | some v => rw [hl] at h; cases h
  | none =>
    rw [hl] at h
    dsimp only at h
    generalize lookup x c.ctx = o at h
    split at h
    · obind h e s2 h2
      cases h
    · obind h e s2 h2
      cases h
    · cases h
    · cases h; exact ⟨rfl, rfl, rfl⟩

theorem PStable.genVar (h : PStable P R) {x : Name} (hP : P x) : Keeps R (genVar x) := by
  intro c a c' hc
  unfold Blang.genVar at hc
  obind hc r s h1
  refine h.trans (h.getAddress x _ _ _ h1) ?_
  cases r with
  | some v => simp at hc; rw [hc.2]; exact h.refl _
  | none =>
    obtain ⟨hs, hl, hx⟩ := getAddress_none' h1
    subst hs
    dsimp only at hc
    rw [M.bind_ok (M.get_apply _)] at hc
    cases hf : findFuncByName s x with
    | some fn =>
      simp only [hf] at hc
      exact (h.bind (h.emit _) fun _ => h.pure _) _ _ _ hc
    | none =>
      simp only [hf] at hc
      obind hc r s2 h3
      refine h.trans (h.declFn _ _ _ _ hP hf hx h3) ?_
      cases r with
      | some fn => exact (h.bind (h.emit _) fun _ => h.pure _) _ _ _ hc
      | none => cases hc

theorem PStable.genCallee (h : PStable P R) {x : Name} (hP : P x) : Keeps R (genCallee x) := by
  intro c a c' hc
  unfold Blang.genCallee at hc
  obind hc c1 s1 h2
  simp at h2; obtain ⟨rfl, rfl⟩ := h2
  cases hf : findFuncByName c x with
  | some fn => simp only [hf] at hc; simp at hc; rw [hc.2]; exact h.refl _
  | none =>
    simp only [hf] at hc
    cases hx : lookup x c.ctx with
    | some g => simp only [hx] at hc; simp at hc; rw [hc.2]; exact h.refl _
    | none =>
      simp only [hx] at hc
      obind hc r s2 h3
      refine h.trans (h.declFn _ _ _ _ hP hf hx h3) ?_
      cases r with
      | some fn => simp at hc; rw [hc.2]; exact h.refl _
      | none => cases hc

theorem PStable.needLval (h : PStable P R) (v : LV) : Keeps R (needLval v) := h.ite (h.pure _) h.fail

theorem PStable.genCall (h : PStable P R) (f : Val) (as : List Val) : Keeps R (genCall f as) := by
  unfold Blang.genCall
  split
  · exact h.ite (h.bind (h.emit _) fun _ => h.emit _) (h.emit _)
  · exact h.bind (h.emit _) fun _ => h.emit _

theorem EStable.genStr (h : EStable P R) (s : List Char) : Keeps R (genStr s) :=
  h.bind (h.createString _) fun _ => h.bind (h.emit _) fun _ => h.emit _

theorem PStable.genPostfix (h : PStable P R) (o : BinOp) (v : Val) : Keeps R (genPostfix o v) :=
  h.bind (h.emit _) fun _ => h.bind (h.emit _) fun _ => h.bind (h.emit _) fun _ => h.pure _

theorem PStable.genPrefix (h : PStable P R) (o : BinOp) (v : Val) : Keeps R (genPrefix o v) :=
  h.bind (h.emit _) fun _ => h.bind (h.emit _) fun _ => h.bind (h.emit _) fun _ => h.pure _

theorem PStable.genAssign (h : PStable P R) (o : Option Op) (l r : Val) : Keeps R (genAssign o l r) := by
  unfold Blang.genAssign
  split
  · exact h.bind (h.emit _) fun _ => h.bind (h.genOp _ _ _) fun _ => h.bind (h.emit _) fun _ => h.pure _
  · exact h.bind (h.emit _) fun _ => h.pure _

theorem PStable.condStart (h : PStable P R) (v : Val) : Keeps R (condStart v) :=
  h.bind h.freshLabelID fun _ => h.bind (h.newBlock _) fun _ => h.bind (h.newBlock _) fun _ =>
    h.bind (h.newBlock _) fun _ => h.bind (h.emit _) fun _ => h.bind (h.setTerm _) fun _ => h.pure _

mutual
theorem EStable.genL (h : EStable P R) : ∀ e : Ex, e.All P → Keeps R (genL e)
  | .num _, _ => h.pure _
  | .str _, _ => h.bind (h.genStr _) fun _ => h.pure _
  | .var _, hn => h.genVar hn
  | .paren e, hn => h.bind (h.genL e hn) fun _ => h.bind (h.rval _) fun _ => h.pure _
  | .index a i, hn => h.bind (h.genL a hn.1) fun _ => h.bind (h.rval _) fun _ => h.bind (h.emit _) fun _ =>
      h.bind (h.genL i hn.2) fun _ => h.bind (h.rval _) fun _ => h.bind (h.emit _) fun _ => h.pure _
  | .callName f as, hn => h.bind (h.genCallee hn.1) fun _ => h.bind (h.rval _) fun _ => h.bind (h.genArgs as hn.2) fun _ =>
      h.bind (h.genCall _ _) fun _ => h.pure _
  | .call f as, hn => h.bind (h.genL f hn.1) fun _ => h.bind (h.rval _) fun _ => h.bind (h.genArgs as hn.2) fun _ =>
      h.bind (h.genCall _ _) fun _ => h.pure _
  | .post _ e, hn => h.bind (h.genL e hn) fun _ => h.bind (h.needLval _) fun _ => h.bind (h.genPostfix _ _) fun _ => h.pure _
  | .pre _ e, hn => h.bind (h.genL e hn) fun _ => h.bind (h.needLval _) fun _ => h.bind (h.genPrefix _ _) fun _ => h.pure _
  | .not e, hn => h.bind (h.genL e hn) fun _ => h.bind (h.bind (h.rval _) fun _ => h.cmpOp _ _ _) fun _ => h.pure _
  | .neg e, hn => h.bind (h.genL e hn) fun _ => h.bind (h.bind (h.rval _) fun _ => h.emit _) fun _ => h.pure _
  | .deref e, hn => h.bind (h.genL e hn) fun _ => h.bind (h.bind (h.rval _) fun _ => h.emit _) fun _ => h.pure _
  | .addr e, hn => h.bind (h.genL e hn) fun _ => h.bind (h.needLval _) fun _ => h.bind (h.emit _) fun _ => h.pure _
  | .bin _ l r, hn => h.bind (h.genL l hn.1) fun _ => h.bind (h.rval _) fun _ => h.bind (h.genL r hn.2) fun _ =>
      h.bind (h.rval _) fun _ => h.bind (h.genOp _ _ _) fun _ => h.pure _
  | .cond c t e, hn => h.bind (h.genL c hn.1) fun _ => h.bind (h.rval _) fun _ => h.bind (h.condStart _) fun (_, _, _) =>
      h.bind (h.setInsertPoint _) fun _ => h.bind (h.genL t hn.2.1) fun _ => h.bind (h.rval _) fun _ =>
      h.bind h.getInsertBlock fun _ => h.bind (h.setTerm _) fun _ =>
      h.bind (h.setInsertPoint _) fun _ => h.bind (h.genL e hn.2.2) fun _ => h.bind (h.rval _) fun _ =>
      h.bind h.getInsertBlock fun _ => h.bind (h.setTerm _) fun _ =>
      h.bind (h.setInsertPoint _) fun _ => h.bind (h.emit _) fun _ => h.pure _
  | .assign _ l r, hn => h.bind (h.genL l hn.1) fun _ => h.bind (h.needLval _) fun _ => h.bind (h.genL r hn.2) fun _ =>
      h.bind (h.rval _) fun _ => h.bind (h.genAssign _ _ _) fun _ => h.pure _

theorem EStable.genArgs (h : EStable P R) : ∀ es : List Ex, Ex.AllArgs P es → Keeps R (genArgs es)
  | [], _ => h.pure _
  | e :: es, hn => h.bind (h.genL e hn.1) fun _ => h.bind (h.rval _) fun _ => h.bind (h.genArgs es hn.2) fun _ => h.pure _
end

theorem EStable.genR (h : EStable P R) (e : Ex) (hn : e.All P) : Keeps R (genR e) := h.bind (h.genL e hn) fun _ => h.rval _

theorem PStable.brIfOpen (h : PStable P R) (b : Nat) : Keeps R (brIfOpen b) :=
  h.bind h.get fun _ => h.ite (h.setTerm _) (h.pure _)

theorem QStable.declareLocal (h : QStable P R) {x : Name} (hP : P x) : Keeps R (declareLocal x) :=
  h.bind (h.emit _) fun _ => h.bind (h.emit _) fun _ => fun c a c' hc => by
    simp at hc; rw [← hc]; exact h.addLocal _ _ _ hP

theorem QStable.declareLocalArray (h : QStable P R) {x : Name} (hP : P x) (n : W) : Keeps R (declareLocalArray x n) :=
  h.bind (h.emit _) fun _ => h.bind (h.emit _) fun _ => h.bind (h.emit _) fun _ => h.bind (h.emit _) fun _ =>
    h.bind (h.emit _) fun _ => fun c a c' hc => by
    simp at hc; rw [← hc]; exact h.addLocal _ _ _ hP

theorem QStable.declareAll (h : QStable P R) (ds : List (Name × W)) (hP : ∀ d ∈ ds, P d.1) : Keeps R (declareAll ds) := by
  induction ds with
  | nil => exact h.pure _
  | cons d ds ih =>
    have hd := hP d (by simp)
    exact h.bind (h.ite (h.declareLocal hd) (h.declareLocalArray hd _)) fun _ => ih fun x hx => hP x (by simp [hx])

theorem QStable.autoCheck (h : QStable P R) (ds : List (Name × Option Word)) :
    ∀ seen, Keeps R (autoCheck seen ds) := by
  induction ds with
  | nil => exact fun _ => h.pure _
  | cons d ds ih => exact fun _ => h.bind h.get fun _ => h.ite h.fail (ih _)

theorem QStable.genExtrn (h : QStable P R) (xs : List Name) (hP : ∀ x ∈ xs, P x) : Keeps R (genExtrn xs) := by
  induction xs with
  | nil => exact h.pure _
  | cons x xs ih => exact h.bind (h.declareExtrn _ (hP x (by simp))) fun _ => ih fun y hy => hP y (by simp [hy])

theorem QStable.genLabel (h : QStable P R) {l : Name} (hP : P l ∨ ∃ k v, l = caseName k v) : Keeps R (genLabel l) :=
  h.bind (h.getOrCreateLabel _ hP) fun _ => h.bind (h.brIfOpen _) fun _ => h.setInsertPoint _

theorem QStable.genGoto (h : QStable P R) {l : Name} (hP : P l) : Keeps R (genGoto l) :=
  h.bind (h.getOrCreateLabel _ (.inl hP)) fun _ => h.bind (h.setTerm _) fun _ => h.bind h.get fun _ =>
    h.bind (h.newBlock _) fun _ => h.bind h.freshLabelID fun _ => h.setInsertPoint _

theorem PStable.ifStart (h : PStable P R) (v : Val) : Keeps R (ifStart v) :=
  h.bind h.freshLabelID fun _ => h.bind (h.newBlock _) fun _ => h.bind (h.newBlock _) fun _ =>
    h.bind (h.newBlock _) fun _ => h.bind (h.emit _) fun _ => h.bind (h.setTerm _) fun _ => h.pure _

theorem PStable.whileStart (h : PStable P R) : Keeps R whileStart :=
  h.bind h.freshLabelID fun _ => h.bind (h.newBlock _) fun _ => h.bind (h.newBlock _) fun _ =>
    h.bind (h.newBlock _) fun _ => h.bind (h.setTerm _) fun _ => h.bind (h.setInsertPoint _) fun _ => h.pure _

theorem PStable.switchStart (h : PStable P R) (n : Nat) : Keeps R (switchStart n) :=
  h.bind (h.newBlock _) fun _ => h.bind (h.newBlock _) fun _ =>
    h.bind (h.newBlock _) fun _ => h.bind (h.setTerm _) fun _ => h.bind (h.setInsertPoint _) fun _ => h.pure _

theorem QStable.switchCases (h : QStable P R) (n : Nat) (cs : Cases) : Keeps R (switchCases n cs) := by
  induction cs with
  | nil => exact h.pure _
  | cons v vs ih => exact h.bind (h.getOrCreateLabel _ (.inr ⟨_, _, rfl⟩)) fun _ => h.bind ih fun _ => h.pure _

theorem QStable.switchTerm (h : QStable P R) (n : Nat) (v : Val) (b : Nat) (cs : Cases) : Keeps R (switchTerm n v b cs) :=
  h.ite (h.bind (h.switchCases _ _) fun _ => h.setTerm _) (h.setTerm _)

theorem SStable.genSt (h : SStable P R) : ∀ (s : St) (sw : Option Nat) (cs : Cases), s.All P → Keeps R (genSt s sw cs)
  | .skip, _, _, hn => h.pure _
  | .seq s t, _, _, hn => h.bind (h.genSt s _ _ hn.1) fun _ => h.genSt t _ _ hn.2
  | .expr e, _, _, hn => h.bind (h.toE.genR e hn) fun _ => h.pure _
  | .ret none, _, _, hn => h.bind (h.setTerm _) fun _ => h.pure _
  | .ret (some e), _, _, hn => h.bind (h.toE.genR e hn) fun _ => h.bind (h.setTerm _) fun _ => h.pure _
  | .auto ds, _, _, hn => h.bind (h.autoCheck _ _) fun _ => h.bind (h.declareAll _ (by
      intro d hd
      rw [List.mem_map] at hd
      obtain ⟨x, h1, rfl⟩ := hd
      exact hn x h1)) fun _ => h.pure _
  | .extrn xs, _, _, hn => h.bind (h.genExtrn _ hn) fun _ => h.pure _
  | .ifThen c t, _, _, hn => h.bind (h.toE.genR c hn.1) fun _ => h.bind (h.ifStart _) fun (_, _, _) =>
      h.bind (h.setInsertPoint _) fun _ => h.bind (h.genSt t _ _ hn.2) fun _ => h.bind (h.brIfOpen _) fun _ =>
      h.bind (h.setInsertPoint _) fun _ => h.bind (h.brIfOpen _) fun _ => h.bind (h.setInsertPoint _) fun _ => h.pure _
  | .ifElse c t e, _, _, hn => h.bind (h.toE.genR c hn.1) fun _ => h.bind (h.ifStart _) fun (_, _, _) =>
      h.bind (h.setInsertPoint _) fun _ => h.bind (h.genSt t _ _ hn.2.1) fun _ => h.bind (h.brIfOpen _) fun _ =>
      h.bind (h.setInsertPoint _) fun _ => h.bind (h.genSt e _ _ hn.2.2) fun _ => h.bind (h.brIfOpen _) fun _ =>
      h.bind (h.setInsertPoint _) fun _ => h.pure _
  | .while c b, _, _, hn => h.bind h.whileStart fun (_, _, _) => h.bind (h.toE.genR c hn.1) fun _ => h.bind (h.emit _) fun _ =>
      h.bind (h.setTerm _) fun _ =>
      h.bind (h.setInsertPoint _) fun _ => h.bind (h.genSt b _ _ hn.2) fun _ => h.bind (h.brIfOpen _) fun _ =>
      h.bind (h.setInsertPoint _) fun _ => h.pure _
  | .switch e b, _, _, hn => h.bind h.freshLabelID fun _ => h.bind (h.toE.genR e hn.1) fun _ => h.bind (h.switchStart _) fun (_, _) =>
      h.bind (h.genSt b _ _ hn.2) fun _ => h.bind (h.brIfOpen _) fun _ =>
      h.bind (h.setInsertPoint _) fun _ => h.bind (h.switchTerm _ _ _ _) fun _ =>
      h.bind (h.setInsertPoint _) fun _ => h.pure _
  | .case v s, none, _, _ => h.fail
  | .case v s, some n, _, hn => h.bind (h.genLabel (.inr ⟨_, _, rfl⟩)) fun _ => h.genSt s _ _ hn
  | .label l s, _, _, hn => h.bind (h.genLabel (.inl hn.1)) fun _ => h.genSt s _ _ hn.2
  | .goto l, _, _, hn => h.bind (h.genGoto hn) fun _ => h.pure _

end
end Blang
