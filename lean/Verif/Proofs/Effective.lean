import Verif.Proofs.Gen
import Verif.Spec.Effective
/-
The code of a program is that of its effective part.

`clr` takes away the end of the current block.  Code that goes straight on does not see the end of the current block
(`Blind`), and code that turns replaces it (`Cuts`).
-/
namespace Blang
open Spec

/-- the state without the end of the current block -/
def clr (c : CState) : CState := { c with blocks := c.blocks.modify c.cur fun b => { b with term := none } }

/-- a result with another state -/
def R.mapS {α : Type} (g : CState → CState) : R CState α → R CState α
  | .ok a c => .ok a (g c)
  | .err e => .err e

/-- does the same whatever the end of the current block is, and leaves it as it is -/
def Blind {α : Type} (f : B α) : Prop := ∀ c, f (clr c) = (f c).mapS clr

/-- does the same whatever the end of the current block is, and replaces it -/
def Cuts {α : Type} (f : B α) : Prop := ∀ c, f (clr c) = f c

/-- the same up to the end of the block that is the current one in the end -/
def Alk {α : Type} (f g : B α) : Prop := ∀ c, (f c).mapS clr = (g c).mapS clr

variable {α β : Type}

theorem Blind.pure (a : α) : Blind (pure a : B α) := fun _ => rfl
theorem Blind.fail {s : String} : Blind (bfail s : B α) := fun _ => rfl
theorem Blind.bind {f : B α} {g : α → B β} (hf : Blind f) (hg : ∀ a, Blind (g a)) : Blind (f >>= g) := by
  intro c
  rw [M.bind_apply, M.bind_apply, hf c]
  cases f c with
  | ok a c' => exact hg a c'
  | err e => rfl
theorem Blind.ite {p : Prop} [Decidable p] {f g : B α} (hf : Blind f) (hg : Blind g) : Blind (if p then f else g) := by
  split
  · exact hf
  · exact hg
theorem Cuts.bind {f : B α} {g : α → B β} (hf : Cuts f) : Cuts (f >>= g) := by
  intro c
  rw [M.bind_apply, M.bind_apply, hf c]
theorem Blind.cuts {f : B α} {g : α → B β} (hf : Blind f) (hg : ∀ a, Cuts (g a)) : Cuts (f >>= g) := by
  intro c
  rw [M.bind_apply, M.bind_apply, hf c]
  cases f c with
  | ok a c' => exact hg a c'
  | err e => rfl

/-- reading the state: what is done with it must not depend on the end of the block -/
theorem Blind.get {f : CState → B α} (hf : ∀ c, f (clr c) = f c) (hb : ∀ c, Blind (f c)) : Blind (M.get >>= f) := by
  intro c
  show f (clr c) (clr c) = (f c c).mapS clr
  rw [hf c]
  exact hb c c

theorem modify_app {l : List Block} {i : Nat} {n : Name} :
    (l ++ [(⟨n, [], none⟩ : Block)]).modify i (fun b => { b with term := none }) = l.modify i (fun b => { b with term := none }) ++ [⟨n, [], none⟩] := by
  induction l generalizing i with
  | nil => cases i <;> simp
  | cons b l ih => cases i <;> simp [ih]

theorem clr_append (c : CState) (n : Name) :
    clr { c with blocks := c.blocks ++ [⟨n, [], none⟩] } = { clr c with blocks := (clr c).blocks ++ [⟨n, [], none⟩] } := by
  unfold clr
  simp only [modify_app]

theorem Blind.emit (i : Inst) : Blind (emit i) := by
  intro c
  show R.ok _ _ = R.ok _ _
  simp only [clr, R.ok.injEq, true_and, List.modify_modify_eq]
  rfl

theorem Cuts.setTerm (t : Term) : Cuts (setTerm t) := by
  intro c
  show R.ok _ _ = R.ok _ _
  simp only [clr, R.ok.injEq, true_and, List.modify_modify_eq]
  rfl

theorem Blind.newBlock (n : Name) : Blind (newBlock n) := by
  intro c
  show R.ok _ _ = R.ok _ _
  rw [R.ok.injEq]
  refine ⟨by simp [clr], ?_⟩
  exact (clr_append c n).symm

theorem Blind.freshLabelID : Blind freshLabelID := fun _ => rfl

theorem Blind.getOrCreateLabel (n : Name) : Blind (getOrCreateLabel n) := by
  intro c
  show (match lookup n c.labels with | some b => _ | none => _) = R.mapS clr (match lookup n c.labels with | some b => _ | none => _)
  cases lookup n c.labels with
  | some b => rfl
  | none =>
    show R.ok _ _ = R.ok _ _
    rw [R.ok.injEq]
    refine ⟨by simp [clr], ?_⟩
    show CState.mk .. = CState.mk ..
    simp only [clr, modify_app]
    simp

theorem Blind.modify {f : CState → CState} (h : ∀ c, f (clr c) = clr (f c)) : Blind (M.modify f) := by
  intro c
  show R.ok _ _ = R.ok _ _
  rw [h c]

theorem Blind.getOrDeclareFunction (x : Name) : Blind (getOrDeclareFunction x) := by
  intro c
  show (match lookup x c.functions with | some b => _ | none => _) = R.mapS clr (match lookup x c.functions with | some b => _ | none => _)
  cases lookup x c.functions with
  | some b => rfl
  | none =>
    dsimp only
    show (match lookup x c.ctx with | some b => _ | none => _) = R.mapS clr (match lookup x c.ctx with | some b => _ | none => _)
    cases lookup x c.ctx <;> rfl

theorem Blind.createStringConstant (s : List Char) : Blind (createStringConstant s) := fun _ => rfl
theorem Blind.rval (v : LV) : Blind (rval v) := Blind.ite (Blind.emit _) (Blind.pure _)
theorem Blind.cmpOp (p : Pred) (x y : Val) : Blind (cmpOp p x y) := Blind.bind (Blind.emit _) fun _ => Blind.emit _
theorem Blind.genOp (o : Op) (x y : Val) : Blind (genOp o x y) := by
  cases o
  · exact Blind.emit _
  · exact Blind.cmpOp _ _ _
theorem Blind.needLval (v : LV) : Blind (needLval v) := Blind.ite (Blind.pure _) Blind.fail
theorem Blind.genCall (f : Val) (as : List Val) : Blind (genCall f as) := by
  unfold Blang.genCall
  split
  · exact Blind.ite (Blind.bind (Blind.emit _) fun _ => Blind.emit _) (Blind.emit _)
  · exact Blind.bind (Blind.emit _) fun _ => Blind.emit _
theorem Blind.genStr (s : List Char) : Blind (genStr s) :=
  Blind.bind (Blind.createStringConstant s) fun _ => Blind.bind (Blind.emit _) fun _ => Blind.emit _
theorem Blind.genPostfix (o : BinOp) (v : Val) : Blind (genPostfix o v) :=
  Blind.bind (Blind.emit _) fun _ => Blind.bind (Blind.emit _) fun _ => Blind.bind (Blind.emit _) fun _ => Blind.pure _
theorem Blind.genPrefix (o : BinOp) (v : Val) : Blind (genPrefix o v) :=
  Blind.bind (Blind.emit _) fun _ => Blind.bind (Blind.emit _) fun _ => Blind.bind (Blind.emit _) fun _ => Blind.pure _
theorem Blind.genNot (v : LV) : Blind (genNot v) := Blind.bind (Blind.rval _) fun _ => Blind.cmpOp _ _ _
theorem Blind.genNeg (v : LV) : Blind (genNeg v) := Blind.bind (Blind.rval _) fun _ => Blind.emit _
theorem Blind.genDeref (v : LV) : Blind (genDeref v) := Blind.bind (Blind.rval _) fun _ => Blind.emit _
theorem Blind.genAssign (o : Option Op) (a b : Val) : Blind (genAssign o a b) := by
  cases o with
  | none => exact Blind.bind (Blind.emit _) fun _ => Blind.pure _
  | some o =>
    exact Blind.bind (Blind.emit _) fun _ => Blind.bind (Blind.genOp _ _ _) fun _ => Blind.bind (Blind.emit _) fun _ => Blind.pure _
theorem Blind.getAddress (x : Name) : Blind (getAddress x) := by
  refine Blind.get (fun _ => rfl) fun c => ?_
  split
  · exact Blind.pure _
  · split
    · exact Blind.bind (Blind.emit _) fun _ => Blind.pure _
    · exact Blind.bind (Blind.emit _) fun _ => Blind.pure _
    · exact Blind.pure _
    · exact Blind.pure _
theorem Blind.genVar (x : Name) : Blind (genVar x) := by
  refine Blind.bind (Blind.getAddress x) fun o => ?_
  split
  · exact Blind.pure _
  · refine Blind.get (fun _ => rfl) fun c => ?_
    split
    · exact Blind.bind (Blind.emit _) fun _ => Blind.pure _
    · refine Blind.bind (Blind.getOrDeclareFunction x) fun o => ?_
      split
      · exact Blind.bind (Blind.emit _) fun _ => Blind.pure _
      · exact Blind.fail
theorem Blind.genCallee (x : Name) : Blind (genCallee x) := by
  refine Blind.get (fun _ => rfl) fun c => ?_
  split
  · exact Blind.pure _
  · split
    · exact Blind.pure _
    · refine Blind.bind (Blind.getOrDeclareFunction x) fun o => ?_
      split
      · exact Blind.fail
      · exact Blind.pure _
theorem Cuts.condStart (v : Val) : Cuts (condStart v) :=
  Blind.cuts Blind.freshLabelID fun _ => Blind.cuts (Blind.newBlock _) fun _ => Blind.cuts (Blind.newBlock _) fun _ =>
    Blind.cuts (Blind.newBlock _) fun _ => Blind.cuts (Blind.emit _) fun _ => Cuts.bind (Cuts.setTerm _)

/-- blind or cutting, as the flag says -/
def Sees (b : Bool) (f : B α) : Prop := if b then Cuts f else Blind f

theorem Sees.blind {f : B α} (h : Blind f) : Sees false f := h
theorem Sees.cuts {f : B α} (h : Cuts f) : Sees true f := h
theorem Sees.bind {a b : Bool} {f : B α} {g : α → B β} (hf : Sees a f) (hg : ∀ v, Sees b (g v)) : Sees (a || b) (f >>= g) := by
  cases a with
  | true => exact Cuts.bind hf
  | false =>
    cases b with
    | true => exact Blind.cuts hf hg
    | false => exact Blind.bind hf hg
/-- then something blind -/
theorem Sees.then {a : Bool} {f : B α} {g : α → B β} (hf : Sees a f) (hg : ∀ v, Blind (g v)) : Sees a (f >>= g) := by
  have := Sees.bind (b := false) hf hg
  rwa [Bool.or_false] at this
/-- after something blind -/
theorem Sees.after {a : Bool} {f : B α} {g : α → B β} (hf : Blind f) (hg : ∀ v, Sees a (g v)) : Sees a (f >>= g) := by
  have := Sees.bind (a := false) hf hg
  rwa [Bool.false_or] at this

mutual
theorem sees_genL : ∀ e : Ex, Sees e.branches (genL e)
  | .num v => by rw [genL, Ex.branches]; exact Blind.pure _
  | .str s => by rw [genL, Ex.branches]; exact Blind.bind (Blind.genStr _) fun _ => Blind.pure _
  | .var x => by rw [genL, Ex.branches]; exact Blind.genVar x
  | .paren e => by
    rw [genL, Ex.branches]
    exact (sees_genL e).then fun _ => Blind.bind (Blind.rval _) fun _ => Blind.pure _
  | .index a i => by
    rw [genL, Ex.branches]
    exact Sees.bind (sees_genL a) fun _ => Sees.after (Blind.rval _) fun _ => Sees.after (Blind.emit _) fun _ =>
      (sees_genL i).then fun _ => Blind.bind (Blind.rval _) fun _ => Blind.bind (Blind.emit _) fun _ => Blind.pure _
  | .callName f args => by
    rw [genL, Ex.branches]
    exact Sees.after (Blind.genCallee f) fun _ => Sees.after (Blind.rval _) fun _ =>
      (sees_genArgs args).then fun _ => Blind.bind (Blind.genCall _ _) fun _ => Blind.pure _
  | .call f args => by
    rw [genL, Ex.branches]
    exact Sees.bind (sees_genL f) fun _ => Sees.after (Blind.rval _) fun _ =>
      (sees_genArgs args).then fun _ => Blind.bind (Blind.genCall _ _) fun _ => Blind.pure _
  | .post d e => by
    rw [genL, Ex.branches]
    exact (sees_genL e).then fun _ => Blind.bind (Blind.needLval _) fun _ => Blind.bind (Blind.genPostfix _ _) fun _ => Blind.pure _
  | .pre d e => by
    rw [genL, Ex.branches]
    exact (sees_genL e).then fun _ => Blind.bind (Blind.needLval _) fun _ => Blind.bind (Blind.genPrefix _ _) fun _ => Blind.pure _
  | .not e => by
    rw [genL, Ex.branches]
    exact (sees_genL e).then fun _ => Blind.bind (Blind.genNot _) fun _ => Blind.pure _
  | .neg e => by
    rw [genL, Ex.branches]
    exact (sees_genL e).then fun _ => Blind.bind (Blind.genNeg _) fun _ => Blind.pure _
  | .deref e => by
    rw [genL, Ex.branches]
    exact (sees_genL e).then fun _ => Blind.bind (Blind.genDeref _) fun _ => Blind.pure _
  | .addr e => by
    rw [genL, Ex.branches]
    exact (sees_genL e).then fun _ => Blind.bind (Blind.needLval _) fun _ => Blind.bind (Blind.emit _) fun _ => Blind.pure _
  | .bin o l r => by
    rw [genL, Ex.branches]
    exact Sees.bind (sees_genL l) fun _ => Sees.after (Blind.rval _) fun _ =>
      (sees_genL r).then fun _ => Blind.bind (Blind.rval _) fun _ => Blind.bind (Blind.genOp _ _ _) fun _ => Blind.pure _
  | .cond c t e => by
    rw [genL, Ex.branches]
    have h : ∀ (g : LV → B LV), (∀ v, Cuts (g v)) → Sees true (genL c >>= g) := by
      intro g hg
      have := Sees.bind (b := true) (sees_genL c) hg
      rwa [Bool.or_true] at this
    exact h _ fun _ => Blind.cuts (Blind.rval _) fun _ => Cuts.bind (Cuts.condStart _)
  | .assign o l r => by
    rw [genL, Ex.branches]
    exact Sees.bind (sees_genL l) fun _ => Sees.after (Blind.needLval _) fun _ =>
      (sees_genL r).then fun _ => Blind.bind (Blind.rval _) fun _ => Blind.bind (Blind.genAssign _ _ _) fun _ => Blind.pure _
theorem sees_genArgs : ∀ es : List Ex, Sees (Ex.branchesAny es) (genArgs es)
  | [] => by rw [genArgs, Ex.branchesAny]; exact Blind.pure _
  | e :: es => by
    rw [genArgs, Ex.branchesAny]
    exact Sees.bind (sees_genL e) fun _ => Sees.after (Blind.rval _) fun _ => (sees_genArgs es).then fun _ => Blind.pure _
end

theorem sees_genR (e : Ex) : Sees e.branches (genR e) := (sees_genL e).then fun _ => Blind.rval _

theorem Sees.anyhow {a : Bool} {f : B α} {g : α → B β} (hf : Sees a f) (hg : ∀ v, Cuts (g v)) : Cuts (f >>= g) := by
  have := Sees.bind (b := true) hf hg
  rw [Bool.or_true] at this
  exact this

theorem Blind.autoCheck : ∀ (seen : List Name) (ds : List (Name × Option Word)), Blind (autoCheck seen ds)
  | _, [] => Blind.pure _
  | _, d :: ds => by
    unfold Blang.autoCheck
    exact Blind.get (fun _ => rfl) fun c => Blind.ite Blind.fail (Blind.autoCheck _ ds)
theorem Blind.declareLocal (x : Name) : Blind (declareLocal x) :=
  Blind.bind (Blind.emit _) fun _ => Blind.bind (Blind.emit _) fun _ => Blind.modify fun _ => rfl
theorem Blind.declareLocalArray (x : Name) (n : W) : Blind (declareLocalArray x n) :=
  Blind.bind (Blind.emit _) fun _ => Blind.bind (Blind.emit _) fun _ => Blind.bind (Blind.emit _) fun _ =>
    Blind.bind (Blind.emit _) fun _ => Blind.bind (Blind.emit _) fun _ => Blind.modify fun _ => rfl
theorem Blind.declareAll : ∀ ds : List (Name × W), Blind (declareAll ds)
  | [] => Blind.pure _
  | (x, n) :: ds => Blind.bind (Blind.ite (Blind.declareLocal x) (Blind.declareLocalArray x n)) fun _ => Blind.declareAll ds
theorem Blind.declareExtrn (x : Name) : Blind (declareExtrn x) := by
  intro c
  have h1 : findGlobalByName (clr c) x = findGlobalByName c x := rfl
  have h2 : findFuncByName (clr c) x = findFuncByName c x := rfl
  have h3 : (clr c).usedAsFunction = c.usedAsFunction := rfl
  unfold Blang.declareExtrn
  rw [h1, h2, h3]
  cases findGlobalByName c x with
  | some g => rfl
  | none =>
    dsimp only
    split <;> rfl
theorem Blind.genExtrn : ∀ xs : List Name, Blind (genExtrn xs)
  | [] => Blind.pure _
  | x :: xs => Blind.bind (Blind.declareExtrn x) fun _ => Blind.genExtrn xs

/-- straight statements do not see the end of the block -/
theorem straight_blind : ∀ (s : St) (sw : Option Nat) (cs : Cases), s.straight = true → Blind (genSt s sw cs)
  | .skip, _, _, _ => Blind.pure _
  | .auto ds, _, _, _ => Blind.bind (Blind.autoCheck _ _) fun _ => Blind.bind (Blind.declareAll _) fun _ => Blind.pure _
  | .extrn xs, _, _, _ => Blind.bind (Blind.genExtrn _) fun _ => Blind.pure _
  | .expr e, _, _, h => by
    have := sees_genR e
    rw [St.straight] at h
    rw [show e.branches = false by simpa using h] at this
    exact Blind.bind this fun _ => Blind.pure _
  | .seq s t, sw, cs, h => by
    rw [St.straight, Bool.and_eq_true] at h
    exact Blind.bind (straight_blind s sw cs h.1) fun _ => straight_blind t sw _ h.2

/-- turning statements replace the end of the block -/
theorem turns_cuts : ∀ (s : St) (sw : Option Nat) (cs : Cases), s.turns = true → Cuts (genSt s sw cs)
  | .ret none, _, _, _ => Cuts.bind (Cuts.setTerm _)
  | .ret (some e), _, _, _ => (sees_genR e).anyhow fun _ => Cuts.bind (Cuts.setTerm _)
  | .ifThen c t, _, _, _ => (sees_genR c).anyhow fun _ => Cuts.bind (Cuts.condStart' _)
  | .ifElse c t e, _, _, _ => (sees_genR c).anyhow fun _ => Cuts.bind (Cuts.condStart' _)
  | .while c b, _, _, _ => Cuts.bind (Blind.cuts Blind.freshLabelID fun _ => Blind.cuts (Blind.newBlock _) fun _ => Blind.cuts (Blind.newBlock _) fun _ =>
      Blind.cuts (Blind.newBlock _) fun _ => Cuts.bind (Cuts.setTerm _))
  | .switch e b, _, _, _ => Blind.cuts Blind.freshLabelID fun _ => (sees_genR e).anyhow fun _ => Cuts.bind
      (Blind.cuts (Blind.newBlock _) fun _ => Blind.cuts (Blind.newBlock _) fun _ => Blind.cuts (Blind.newBlock _) fun _ => Cuts.bind (Cuts.setTerm _))
  | .goto l, _, _, _ => Cuts.bind (Blind.cuts (Blind.getOrCreateLabel l) fun _ => Cuts.bind (Cuts.setTerm _))
  | .expr e, _, _, h => by
    have := sees_genR e
    rw [St.turns] at h
    rw [h] at this
    exact Cuts.bind this
  | .seq s t, sw, cs, h => by
    rw [St.turns, Bool.or_eq_true, Bool.and_eq_true] at h
    rcases h with h | ⟨h1, h2⟩
    · exact Cuts.bind (turns_cuts s sw cs h)
    · exact Blind.cuts (straight_blind s sw cs h1) fun _ => turns_cuts t sw _ h2
where
  Cuts.condStart' (v : Val) : Cuts (ifStart v) :=
    Blind.cuts Blind.freshLabelID fun _ => Blind.cuts (Blind.newBlock _) fun _ => Blind.cuts (Blind.newBlock _) fun _ =>
      Blind.cuts (Blind.newBlock _) fun _ => Blind.cuts (Blind.emit _) fun _ => Cuts.bind (Cuts.setTerm _)

theorem clr_clr (c : CState) : clr (clr c) = clr c := by
  unfold clr
  simp only [List.modify_modify_eq]
  rfl

theorem clr_setTerm (t : Term) : Alk (setTerm t) (pure ()) := by
  intro c
  show R.ok _ _ = R.ok _ _
  rw [R.ok.injEq]
  refine ⟨rfl, ?_⟩
  simp only [clr, List.modify_modify_eq]
  rfl

theorem Alk.refl (f : B α) : Alk f f := fun _ => rfl
theorem Alk.of_eq {f g : B α} (h : f = g) : Alk f g := h ▸ Alk.refl f
theorem Alk.bindL (f : B α) {g g' : α → B β} (h : ∀ a, Alk (g a) (g' a)) : Alk (f >>= g) (f >>= g') := by
  intro c
  rw [M.bind_apply, M.bind_apply]
  cases f c with
  | ok a c' => exact h a c'
  | err e => rfl
theorem Alk.cases {f f' : B α} (h : Alk f f') (c : CState) :
    (∃ e, f c = .err e ∧ f' c = .err e) ∨ ∃ a c1 c2, f c = .ok a c1 ∧ f' c = .ok a c2 ∧ clr c1 = clr c2 := by
  have h1 := h c
  cases e1 : f c with
  | err e =>
    cases e2 : f' c with
    | err e' => rw [e1, e2] at h1; cases h1; exact .inl ⟨_, rfl, rfl⟩
    | ok a c1 => rw [e1, e2] at h1; cases h1
  | ok a c1 =>
    cases e2 : f' c with
    | err e' => rw [e1, e2] at h1; cases h1
    | ok a' c2 =>
      rw [e1, e2] at h1
      simp only [R.mapS, R.ok.injEq] at h1
      obtain ⟨rfl, h1⟩ := h1
      exact .inr ⟨_, _, _, rfl, rfl, h1⟩
theorem Alk.then_blind {f f' : B α} {g : α → B β} (h : Alk f f') (hg : ∀ a, Blind (g a)) : Alk (f >>= g) (f' >>= g) := by
  intro c
  rw [M.bind_apply, M.bind_apply]
  rcases h.cases c with ⟨e, h1, h2⟩ | ⟨a, c1, c2, h1, h2, h3⟩
  · rw [h1, h2]
  · rw [h1, h2]
    dsimp only
    rw [← hg a c1, ← hg a c2, h3]
theorem Alk.then_cuts {f f' : B α} {g : α → B β} (h : Alk f f') (hg : ∀ a, Cuts (g a)) : f >>= g = f' >>= g := by
  funext c
  rw [M.bind_apply, M.bind_apply]
  rcases h.cases c with ⟨e, h1, h2⟩ | ⟨a, c1, c2, h1, h2, h3⟩
  · rw [h1, h2]
  · rw [h1, h2]
    dsimp only
    rw [← hg a c1, ← hg a c2, h3]
theorem Alk.trans {f g h : B α} (h1 : Alk f g) (h2 : Alk g h) : Alk f h := fun c => (h1 c).trans (h2 c)

/-- the code is the same, except for the end of the last block if what follows replaces it -/
def Upto (k : Bool) (f g : B α) : Prop := if k then Alk f g else f = g

theorem Upto.of_eq {k : Bool} {f g : B α} (h : f = g) : Upto k f g := by
  cases k
  · exact h
  · exact Alk.of_eq h
theorem Upto.bindL {k : Bool} (f : B α) {g g' : α → B β} (h : ∀ a, Upto k (g a) (g' a)) : Upto k (f >>= g) (f >>= g') := by
  cases k with
  | false => exact congrArg (f >>= ·) (funext h)
  | true => exact Alk.bindL f h

theorem genSt_effective : ∀ (s : St) (k : Bool) (sw : Option Nat) (cs : Cases), Upto k (genSt (s.effective k) sw cs) (genSt s sw cs)
  | .ret e, false, _, _ => rfl
  | .ret none, true, sw, cs => by
    show Alk (pure cs) (setTerm (.ret (.const 0)) >>= fun _ => pure cs)
    exact fun c => ((clr_setTerm (.ret (.const 0))).then_blind (g := fun _ => (pure cs : B Cases)) (fun _ => Blind.pure _) c).symm
  | .ret (some e), true, sw, cs => by
    have h1 : genSt (St.effective (.ret (some e)) true) sw cs = genR e >>= fun _ => pure cs := by
      show (genR (.paren e) >>= fun _ => pure cs) = _
      unfold genR
      rw [genL]
      funext c
      simp only [M.bind_apply]
      cases genL e c with
      | err x => rfl
      | ok v c1 =>
        dsimp only
        cases rval v c1 with
        | err x => rfl
        | ok w c2 => rfl
    show Alk _ (genR e >>= fun v => setTerm (.ret v) >>= fun _ => pure cs)
    rw [h1]
    exact Alk.bindL _ fun v c => ((clr_setTerm (.ret v)).then_blind (g := fun _ => (pure cs : B Cases)) (fun _ => Blind.pure _) c).symm
  | .seq s t, k, sw, cs => by
    show Upto k (genSt (s.effective (t.turns || (t.straight && k))) sw cs >>= fun cs => genSt (t.effective k) sw cs)
      (genSt s sw cs >>= fun cs => genSt t sw cs)
    have hs := genSt_effective s (t.turns || (t.straight && k)) sw cs
    have ht : ∀ cs, Upto k (genSt (t.effective k) sw cs) (genSt t sw cs) := fun cs => genSt_effective t k sw cs
    have h1 : Upto k (genSt (s.effective (t.turns || (t.straight && k))) sw cs >>= fun cs => genSt (t.effective k) sw cs)
      (genSt (s.effective (t.turns || (t.straight && k))) sw cs >>= fun cs => genSt t sw cs) := Upto.bindL _ ht
    have h2 : Upto k (genSt (s.effective (t.turns || (t.straight && k))) sw cs >>= fun cs => genSt t sw cs)
      (genSt s sw cs >>= fun cs => genSt t sw cs) := by
      cases e1 : t.turns with
      | true =>
        rw [e1] at hs
        simp only [Bool.true_or] at hs ⊢
        exact Upto.of_eq (Alk.then_cuts hs fun cs => turns_cuts t sw cs e1)
      | false =>
        rw [e1] at hs
        cases e2 : t.straight with
        | false =>
          rw [e2] at hs
          simp only [Bool.false_or, Bool.false_and] at hs ⊢
          exact Upto.of_eq (by rw [show genSt (s.effective false) sw cs = genSt s sw cs from hs])
        | true =>
          rw [e2] at hs
          simp only [Bool.false_or, Bool.true_and] at hs ⊢
          cases k with
          | false => exact Upto.of_eq (by rw [show genSt (s.effective false) sw cs = genSt s sw cs from hs])
          | true => exact Alk.then_blind hs fun cs => straight_blind t sw cs e2
    cases k with
    | false => exact Eq.trans h1 h2
    | true => exact Alk.trans h1 h2
  | .ifThen c t, k, _, cs => by
    have h : genSt (t.effective false) none [] = genSt t none [] := genSt_effective t false none []
    apply Upto.of_eq
    rw [St.effective, genSt, genSt, h]
  | .ifElse c t e, k, _, cs => by
    have h : genSt (t.effective false) none [] = genSt t none [] := genSt_effective t false none []
    have h' : genSt (e.effective false) none [] = genSt e none [] := genSt_effective e false none []
    apply Upto.of_eq
    rw [St.effective, genSt, genSt, h, h']
  | .while c b, k, _, cs => by
    have h : genSt (b.effective false) none [] = genSt b none [] := genSt_effective b false none []
    apply Upto.of_eq
    rw [St.effective, genSt, genSt, h]
  | .switch e b, k, _, cs => by
    have h : ∀ i, genSt (b.effective false) (some i) [] = genSt b (some i) [] := fun i => genSt_effective b false (some i) []
    apply Upto.of_eq
    rw [St.effective, genSt, genSt]
    simp only [h]
  | .case v s, k, sw, cs => by
    rw [St.effective]
    cases sw with
    | none => exact Upto.of_eq rfl
    | some i => exact Upto.bindL _ fun _ => genSt_effective s k (some i) _
  | .label l s, k, sw, cs => by
    rw [St.effective, genSt, genSt]
    exact Upto.bindL _ fun _ => genSt_effective s k sw _
  | .expr e, _, _, _ => Upto.of_eq rfl
  | .skip, _, _, _ => Upto.of_eq rfl
  | .auto ds, _, _, _ => Upto.of_eq rfl
  | .extrn xs, _, _, _ => Upto.of_eq rfl
  | .goto l, _, _, _ => Upto.of_eq rfl

theorem genDecl_effective (d : Decl) : genDecl d.effective = genDecl d := by
  cases d with
  | func f ps b =>
    have h : genSt (b.effective false) none [] = genSt b none [] := genSt_effective b false none []
    rw [Decl.effective, genDecl, genDecl, h]
  | global x vs => rfl
  | vector x n vs => rfl

theorem genProg_effective (p : Program) : genProg p.effective = genProg p := by
  induction p with
  | nil => rfl
  | cons d p ih =>
    show genProg (d.effective :: Program.effective p) = _
    rw [genProg, genProg, genDecl_effective, ih]

end Blang
