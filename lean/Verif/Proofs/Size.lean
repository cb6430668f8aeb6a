import Verif.Spec.Size
import Verif.Proofs.ProgMain
/-
How much the module grows while code is generated.
-/
namespace Blang
open Spec

/-! ### what is generated -/

/-- size of what has been generated so far -/
def csize (c : CState) : Nat :=
  (c.globals.map globalUnits).sum + (c.funcs.map funcUnits).sum + (c.blocks.map blockUnits).sum

/-- `f` adds at most `k` -/
def Grow {α : Type} (k : Nat) (f : B α) : Prop := ∀ c a c', f c = .ok a c' → csize c' ≤ csize c + k

section
variable {α β : Type} {k l : Nat}

theorem Grow.mono {f : B α} (h : Grow k f) (hl : k ≤ l) : Grow l f := fun c a c' hc =>
  Nat.le_trans (h c a c' hc) (by omega)

theorem Grow.pure (a : α) : Grow 0 (pure a) := by
  intro c b c' hc; simp at hc; rw [hc.2]; simp

theorem Grow.bind {x : B α} {f : α → B β} (hx : Grow k x) (hf : ∀ a, Grow l (f a)) : Grow (k + l) (x >>= f) := by
  intro c b c' hc
  obind hc a s h1
  have := hx _ _ _ h1
  have := hf _ _ _ _ hc
  omega

theorem Grow.fail {s : String} : Grow k (bfail s : B α) := by intro c b c' hc; cases hc

theorem Grow.get : Grow 0 (M.get : B CState) := by
  intro c a c' hc; simp at hc; rw [hc.2]; simp

theorem Grow.ite {p : Prop} [Decidable p] {f g : B α} (hf : Grow k f) (hg : Grow k g) : Grow k (if p then f else g) := by
  split <;> assumption

theorem sum_modify {α : Type} (w : α → Nat) (g : α → α) (k : Nat) (hg : ∀ a, w (g a) ≤ w a + k) : ∀ (l : List α) (i : Nat),
    ((l.modify i g).map w).sum ≤ (l.map w).sum + k
  | [], i => by simp
  | a :: l, 0 => by have := hg a; simp; omega
  | a :: l, i + 1 => by have := sum_modify w g k hg l i; simp; omega

theorem Grow.emit (i : Inst) : Grow (instUnits i) (emit i) := by
  intro c a c' hc
  cases hc
  have := sum_modify blockUnits (fun b => { b with insts := b.insts ++ [(c.nextReg, i)] }) (instUnits i)
    (fun b => by simp [blockUnits]; omega) c.blocks c.cur
  simp only [csize]
  omega

/-- an instruction other than a call -/
theorem Grow.emit1 {i : Inst} (h : instUnits i = 1 := by rfl) : Grow 1 (Blang.emit i) := by
  rw [← h]; exact Grow.emit i

theorem Grow.setTerm (t : Term) : Grow (termUnits t) (setTerm t) := by
  intro c a c' hc
  simp only [Blang.setTerm, M.modify_apply, R.ok.injEq, true_and] at hc
  subst hc
  have := sum_modify blockUnits (fun b => { b with term := some t }) (termUnits t)
    (fun b => by simp [blockUnits]) c.blocks c.cur
  simp only [csize]
  omega

/-- a terminator other than a switch -/
theorem Grow.setTerm1 {t : Term} (h : termUnits t = 1 := by rfl) : Grow 1 (Blang.setTerm t) := by
  rw [← h]; exact Grow.setTerm t

theorem Grow.newBlock (n : Name) : Grow 1 (newBlock n) := by
  intro c a c' hc
  cases hc
  simp [csize, blockUnits]; omega

theorem Grow.setInsertPoint (b : Nat) : Grow 0 (setInsertPoint b) := by
  intro c a c' hc; cases hc; simp [csize]

theorem Grow.getInsertBlock : Grow 0 getInsertBlock := by
  intro c a c' hc; cases hc; simp

theorem Grow.freshLabelID : Grow 0 freshLabelID := by
  intro c a c' hc; cases hc; simp [csize]

theorem Grow.getOrCreateLabel (n : Name) : Grow 1 (getOrCreateLabel n) := by
  intro c a c' hc
  unfold Blang.getOrCreateLabel at hc
  split at hc
  · cases hc; simp
  · cases hc; simp [csize, blockUnits]; omega

theorem sum_eraseP {α : Type} (w : α → Nat) (q : α → Bool) : ∀ l : List α, ((l.eraseP q).map w).sum ≤ (l.map w).sum
  | [] => by simp
  | a :: l => by
    have := sum_eraseP w q l
    by_cases h : q a
    · rw [List.eraseP_cons_of_pos h]; simp
    · rw [List.eraseP_cons_of_neg h]; simp; omega

theorem Grow.getOrDeclareFunction (x : Name) : Grow 1 (getOrDeclareFunction x) := by
  intro c a c' hc
  unfold Blang.getOrDeclareFunction at hc
  split at hc
  · cases hc; simp
  · split at hc
    · cases hc; simp
    · cases hc
      have := sum_eraseP funcUnits (fun f => decide (f.sym = globalName x)) c.funcs
      simp [csize, newFunc, removeFuncByName, funcUnits]
      omega

theorem Grow.getOrCreateFunc (x : Name) : Grow 2 (getOrCreateFunc x) := by
  intro c a c' hc
  unfold Blang.getOrCreateFunc at hc
  split at hc
  · cases hc; simp
  · cases hc; simp [csize, newFunc, funcUnits]; omega

theorem utf8_double (s : List Char) : (utf8 s).length ≤ 2 * s.length := by
  induction s with
  | nil => simp [utf8]
  | cons a s ih =>
    have : (utf8Char a).length ≤ 2 := by unfold utf8Char; split <;> simp
    simp [utf8] at ih ⊢; omega

theorem Grow.createString (s : List Char) : Grow (2 * s.length + 2) (createStringConstant s) := by
  intro c a c' hc
  cases hc
  have := utf8_double s
  simp [csize, newGlobalDef, globalUnits, initUnits, stringBytes]; omega

theorem Grow.rval (v : LV) : Grow 1 (rval v) := by
  unfold Blang.rval
  exact .ite .emit1 ((Grow.pure _).mono (by omega))

theorem Grow.cmpOp (p : Pred) (x y : Val) : Grow 2 (cmpOp p x y) := (Grow.emit1).bind fun _ => Grow.emit1

theorem Grow.genOp (o : Op) (x y : Val) : Grow 2 (genOp o x y) := by
  cases o
  · exact (Grow.emit1).mono (by omega)
  · exact .cmpOp _ _ _

theorem Grow.getAddress (x : Name) : Grow 1 (getAddress x) := by
  refine (Grow.get.bind (l := 1) fun c => ?_).mono (by omega)
  split
  · exact (Grow.pure _).mono (by omega)
  · split
    · exact ((Grow.emit1).bind fun _ => .pure _)
    · exact ((Grow.emit1).bind fun _ => .pure _)
    · exact (Grow.pure _).mono (by omega)
    · exact (Grow.pure _).mono (by omega)

theorem Grow.genVar (x : Name) : Grow 2 (genVar x) := by
  intro c a c' hc
  unfold Blang.genVar at hc
  obind hc r s h1
  cases r with
  | some v =>
    have := Grow.getAddress x _ _ _ h1
    simp at hc; rw [← hc.2]; omega
  | none =>
    obtain ⟨hs, hl, hx⟩ := getAddress_none' h1
    subst hs
    dsimp only at hc
    rw [M.bind_ok (M.get_apply _)] at hc
    cases hf : findFuncByName s x with
    | some fn =>
      simp only [hf] at hc
      exact ((((Grow.emit1 (i := .ptrtoint fn.val))).bind fun _ => .pure _).mono (by omega : 1 + 0 ≤ 2)) _ _ _ hc
    | none =>
      simp only [hf] at hc
      obind hc r s2 h3
      have := Grow.getOrDeclareFunction x _ _ _ h3
      cases r with
      | some fn =>
        have := ((Grow.emit (.ptrtoint fn)).bind fun a => .pure _) _ _ _ hc
        simp only [instUnits] at this
        omega
      | none => cases hc

theorem Grow.genCallee (x : Name) : Grow 1 (genCallee x) := by
  refine (Grow.get.bind (l := 1) fun c => ?_).mono (by omega)
  split
  · exact (Grow.pure _).mono (by omega)
  · split
    · exact (Grow.pure _).mono (by omega)
    · refine ((Grow.getOrDeclareFunction x).bind (l := 0) fun r => ?_)
      split
      · exact .fail
      · exact .pure _

theorem Grow.needLval (v : LV) : Grow 0 (needLval v) := .ite (.pure _) .fail

theorem Grow.genStr (s : List Char) : Grow (2 * s.length + 4) (genStr s) :=
  ((Grow.createString s).bind fun _ => (Grow.emit1).bind fun _ => Grow.emit1).mono (by simp)

theorem Grow.genCall (fn : Val) (vs : List Val) : Grow (vs.length + 2) (genCall fn vs) := by
  unfold Blang.genCall
  split
  · refine .ite ?_ ?_
    · exact ((Grow.emit1).bind fun _ => Grow.emit (.call _ vs) : Grow (1 + (1 + vs.length)) _).mono (by omega)
    · exact (Grow.emit (.call _ vs)).mono (by simp only [instUnits]; omega)
  · exact ((Grow.emit1).bind fun _ => Grow.emit (.call _ vs) : Grow (1 + (1 + vs.length)) _).mono (by omega)

theorem Grow.genPostfix (o : BinOp) (v : Val) : Grow 3 (genPostfix o v) :=
  ((Grow.emit1).bind fun _ => (Grow.emit1).bind fun _ => (Grow.emit1).bind fun _ => .pure _)

theorem Grow.genPrefix (o : BinOp) (v : Val) : Grow 3 (genPrefix o v) :=
  ((Grow.emit1).bind fun _ => (Grow.emit1).bind fun _ => (Grow.emit1).bind fun _ => .pure _)

theorem Grow.genNot (v : LV) : Grow 3 (genNot v) := (Grow.rval v).bind fun _ => .cmpOp _ _ _
theorem Grow.genNeg (v : LV) : Grow 2 (genNeg v) := (Grow.rval v).bind fun _ => Grow.emit1
theorem Grow.genDeref (v : LV) : Grow 2 (genDeref v) := (Grow.rval v).bind fun _ => Grow.emit1

theorem Grow.genAssign (o : Option Op) (l r : Val) : Grow 4 (genAssign o l r) := by
  cases o with
  | none => exact ((Grow.emit1).bind fun _ => .pure _).mono (by simp)
  | some o =>
    exact ((Grow.emit1).bind fun _ => (Grow.genOp _ _ _).bind fun _ => (Grow.emit1).bind fun _ => .pure _).mono
      (by simp)

theorem Grow.condStart (v : Val) : Grow 5 (condStart v) :=
  Grow.freshLabelID.bind fun _ => (Grow.newBlock _).bind fun _ => (Grow.newBlock _).bind fun _ =>
    (Grow.newBlock _).bind fun _ => (Grow.emit1).bind fun _ => (Grow.setTerm1).bind fun _ => .pure _

end

/-! ### expressions -/

mutual
/-- an upper bound for the code of an expression -/
def costE : Ex → Nat
  | .num _ => 0
  | .str s => 2 * s.length + 4
  | .var _ => 2
  | .paren e => costE e + 1
  | .index a i => costE a + costE i + 4
  | .callName _ args => costA args + 4
  | .call f args => costE f + costA args + 3
  | .post _ e => costE e + 3
  | .pre _ e => costE e + 3
  | .not e => costE e + 3
  | .neg e => costE e + 2
  | .deref e => costE e + 2
  | .addr e => costE e + 1
  | .bin _ l r => costE l + costE r + 4
  | .cond c t e => costE c + costE t + costE e + 11
  | .assign _ l r => costE l + costE r + 5

def costA : List Ex → Nat
  | [] => 0
  | e :: es => costE e + 2 + costA es
end

theorem genArgs_count : ∀ (es : List Ex) {c c' : CState} {vs : List Val}, genArgs es c = .ok vs c' → vs.length = es.length
  | [], c, c', vs, h => by simp [genArgs] at h; simp [h.1]
  | e :: es, c, c', vs, h => by
    simp only [genArgs] at h
    obind h v s h1
    obind h v' s' h2
    obind h vs' s'' h3
    simp at h
    rw [← h.1]
    simp [genArgs_count es h3]

mutual
theorem Grow.genL : ∀ e : Ex, Grow (costE e) (genL e)
  | .num _ => by simp only [Blang.genL, costE]; exact .pure _
  | .str s => by
    simp only [Blang.genL, costE]
    exact ((Grow.genStr _).bind fun _ => .pure _).mono (by simp)
  | .var x => by simp only [Blang.genL, costE]; exact .genVar x
  | .paren e => by
    simp only [Blang.genL, costE]
    exact ((Grow.genL e).bind fun _ => (Grow.rval _).bind fun _ => .pure _)
  | .index a i => by
    simp only [Blang.genL, costE]
    exact ((Grow.genL a).bind fun _ => (Grow.rval _).bind fun _ => (Grow.emit1).bind fun _ => (Grow.genL i).bind fun _ =>
      (Grow.rval _).bind fun _ => (Grow.emit1).bind fun _ => .pure _).mono (by omega)
  | .callName f args => by
    simp only [Blang.genL, costE]
    refine ((Grow.genCallee f).bind fun v => (Grow.rval v).bind fun fn => ?_ : Grow (1 + (1 + (costA args + 2))) _).mono (by omega)
    intro c a c' hc
    obind hc vs s h1
    have g1 := Grow.genArgs args _ _ _ h1
    have g2 := genArgs_count args h1
    have g3 := ((Grow.genCall fn vs).bind fun _ => .pure _) _ _ _ hc
    omega
  | .call f args => by
    simp only [Blang.genL, costE]
    refine ((Grow.genL f).bind fun v => (Grow.rval v).bind fun fn => ?_ : Grow (costE f + (1 + (costA args + 2))) _).mono (by omega)
    intro c a c' hc
    obind hc vs s h1
    have g1 := Grow.genArgs args _ _ _ h1
    have g2 := genArgs_count args h1
    have g3 := ((Grow.genCall fn vs).bind fun _ => .pure _) _ _ _ hc
    omega
  | .post d e => by
    simp only [Blang.genL, costE]
    exact ((Grow.genL e).bind fun _ => (Grow.needLval _).bind fun _ => (Grow.genPostfix _ _).bind fun _ => .pure _).mono (by omega)
  | .pre d e => by
    simp only [Blang.genL, costE]
    exact ((Grow.genL e).bind fun _ => (Grow.needLval _).bind fun _ => (Grow.genPrefix _ _).bind fun _ => .pure _).mono (by omega)
  | .not e => by
    simp only [Blang.genL, costE]
    exact ((Grow.genL e).bind fun _ => (Grow.genNot _).bind fun _ => .pure _)
  | .neg e => by
    simp only [Blang.genL, costE]
    exact ((Grow.genL e).bind fun _ => (Grow.genNeg _).bind fun _ => .pure _)
  | .deref e => by
    simp only [Blang.genL, costE]
    exact ((Grow.genL e).bind fun _ => (Grow.genDeref _).bind fun _ => .pure _)
  | .addr e => by
    simp only [Blang.genL, costE]
    exact ((Grow.genL e).bind fun _ => (Grow.needLval _).bind fun _ => (Grow.emit1).bind fun _ => .pure _).mono (by simp)
  | .bin o l r => by
    simp only [Blang.genL, costE]
    exact ((Grow.genL l).bind fun _ => (Grow.rval _).bind fun _ => (Grow.genL r).bind fun _ => (Grow.rval _).bind fun _ =>
      (Grow.genOp _ _ _).bind fun _ => .pure _).mono (by omega)
  | .cond x t e => by
    simp only [Blang.genL, costE]
    refine ((Grow.genL x).bind fun _ => (Grow.rval _).bind fun v => (Grow.condStart v).bind (l := costE t + costE e + 5) fun b => ?_).mono (by omega)
    exact ((Grow.setInsertPoint _).bind fun _ => (Grow.genL t).bind fun _ => (Grow.rval _).bind fun _ => Grow.getInsertBlock.bind fun _ =>
      (Grow.setTerm1).bind fun _ => (Grow.setInsertPoint _).bind fun _ => (Grow.genL e).bind fun _ => (Grow.rval _).bind fun _ =>
      Grow.getInsertBlock.bind fun _ => (Grow.setTerm1).bind fun _ => (Grow.setInsertPoint _).bind fun _ => (Grow.emit1).bind fun _ =>
      .pure _).mono (by omega)
  | .assign o l r => by
    simp only [Blang.genL, costE]
    exact ((Grow.genL l).bind fun _ => (Grow.needLval _).bind fun _ => (Grow.genL r).bind fun _ => (Grow.rval _).bind fun _ =>
      (Grow.genAssign _ _ _).bind fun _ => .pure _).mono (by omega)

/-- the argument slots of the call are counted here -/
theorem Grow.genArgs : ∀ (es : List Ex) c vs c', genArgs es c = .ok vs c' → csize c' + es.length ≤ csize c + costA es
  | [], c, vs, c', h => by simp [Blang.genArgs] at h; simp [h.2, costA]
  | e :: es, c, vs, c', h => by
    simp only [Blang.genArgs] at h
    obind h v s h1
    obind h v' s' h2
    obind h vs' s'' h3
    simp at h
    rw [← h.2]
    have := Grow.genL e _ _ _ h1
    have := Grow.rval _ _ _ _ h2
    have := Grow.genArgs es _ _ _ h3
    simp [costA]; omega
end

theorem Grow.genR (e : Ex) : Grow (costE e + 1) (genR e) := (Grow.genL e).bind fun v => Grow.rval v


/-! ### statements -/

/-- an upper bound for the code of a statement -/
def costS : St → Nat
  | .skip => 0
  | .seq s t => costS s + costS t
  | .expr e => costE e + 1
  | .ret none => 1
  | .ret (some e) => costE e + 2
  | .auto ds => 5 * ds.length
  | .extrn xs => 2 * xs.length
  | .ifThen c t => costE c + costS t + 8
  | .ifElse c t e => costE c + costS t + costS e + 8
  | .while c b => costE c + costS b + 8
  | .switch e b => costE e + costS b + 7
  | .case _ s => costS s + 4
  | .label _ s => costS s + 2
  | .goto _ => 3

theorem Grow.brIfOpen (b : Nat) : Grow 1 (brIfOpen b) := by
  refine (Grow.get.bind (l := 1) fun c => ?_).mono (by omega)
  exact .ite .setTerm1 ((Grow.pure _).mono (by omega))

theorem Grow.modLocals (f : CState → List (Name × Val)) : Grow 0 (M.modify fun c => { c with locals := f c } : B Unit) := by
  intro c a c' h
  simp only [M.modify_apply, R.ok.injEq, true_and] at h
  subst h
  simp [csize]

theorem Grow.declareOne (x : Name) (n : W) : Grow 5 (declareOne x n) := by
  unfold Blang.declareOne
  refine .ite ?_ ?_
  · exact ((Grow.emit1).bind fun _ => (Grow.emit1).bind fun _ => Grow.modLocals _).mono (by omega)
  · exact ((Grow.emit1).bind fun _ => (Grow.emit1).bind fun _ => (Grow.emit1).bind fun _ => (Grow.emit1).bind fun _ =>
      (Grow.emit1).bind fun _ => Grow.modLocals _)

theorem Grow.declareAll : ∀ ds : List (Name × W), Grow (5 * ds.length) (declareAll ds)
  | [] => .pure _
  | (x, n) :: ds => ((Grow.declareOne x n).bind fun _ => Grow.declareAll ds).mono (by simp only [List.length_cons]; omega)

theorem Grow.autoCheck : ∀ (ds : List (Name × Option Word)) (seen : List Name), Grow 0 (autoCheck seen ds)
  | [], _ => .pure _
  | d :: ds, seen => by
    refine Grow.get.bind (l := 0) fun c => ?_
    exact .ite .fail (Grow.autoCheck ds _)

theorem Grow.declareExtrn (x : Name) : Grow 2 (declareExtrn x) := by
  intro c a c' h
  unfold Blang.declareExtrn at h
  split at h
  · cases h; simp [csize]
  · split at h
    · cases h; simp [csize, newGlobalDef, globalUnits, initUnits]; omega
    · cases h

theorem Grow.genExtrn : ∀ xs : List Name, Grow (2 * xs.length) (genExtrn xs)
  | [] => .pure _
  | x :: xs => ((Grow.declareExtrn x).bind fun _ => Grow.genExtrn xs).mono (by simp only [List.length_cons]; omega)

theorem Grow.genLabel (l : Name) : Grow 2 (genLabel l) :=
  ((Grow.getOrCreateLabel l).bind fun _ => (Grow.brIfOpen _).bind fun _ => .setInsertPoint _)

theorem Grow.genGoto (l : Name) : Grow 3 (genGoto l) :=
  ((Grow.getOrCreateLabel l).bind fun _ => (Grow.setTerm1).bind fun _ => Grow.get.bind fun _ => (Grow.newBlock _).bind fun _ =>
    Grow.freshLabelID.bind fun _ => .setInsertPoint _)

theorem Grow.ifStart (v : Val) : Grow 5 (ifStart v) :=
  Grow.freshLabelID.bind fun _ => (Grow.newBlock _).bind fun _ => (Grow.newBlock _).bind fun _ =>
    (Grow.newBlock _).bind fun _ => (Grow.emit1).bind fun _ => (Grow.setTerm1).bind fun _ => .pure _

theorem Grow.whileStart : Grow 4 whileStart :=
  Grow.freshLabelID.bind fun _ => (Grow.newBlock _).bind fun _ => (Grow.newBlock _).bind fun _ =>
    (Grow.newBlock _).bind fun _ => (Grow.setTerm1).bind fun _ => (Grow.setInsertPoint _).bind fun _ => .pure _

theorem Grow.switchStart (n : Nat) : Grow 4 (switchStart n) :=
  (Grow.newBlock _).bind fun _ => (Grow.newBlock _).bind fun _ =>
    (Grow.newBlock _).bind fun _ => (Grow.setTerm1).bind fun _ => (Grow.setInsertPoint _).bind fun _ => .pure _

theorem Grow.switchCases (k : Nat) : ∀ (vs : Cases) c r c', switchCases k vs c = .ok r c' →
    csize c' ≤ csize c + vs.length ∧ r.length = vs.length
  | [], c, r, c', h => by
    simp [Blang.switchCases] at h
    obtain ⟨rfl, rfl⟩ := h
    simp
  | v :: vs, c, r, c', h => by
    simp only [Blang.switchCases] at h
    obind h b s h1
    obind h rest s2 h2
    simp at h
    obtain ⟨rfl, rfl⟩ := h
    have g1 := Grow.getOrCreateLabel _ _ _ _ h1
    have g2 := Grow.switchCases k vs _ _ _ h2
    simp only [List.length_cons]
    omega

theorem Grow.switchTerm (k : Nat) (v : Val) (e : Nat) (vs : Cases) : Grow (2 * vs.length + 1) (switchTerm k v e vs) := by
  unfold Blang.switchTerm
  refine .ite ?_ ((Grow.setTerm1).mono (by omega))
  intro c a c' h
  obind h cs s h1
  have g1 := Grow.switchCases k vs _ _ _ h1
  have g2 := Grow.setTerm _ _ _ _ h
  simp only [termUnits] at g2
  omega

/-- a case costs two units more when the switch instruction is made -/
theorem Grow.genSt : ∀ (s : St) (sw : Option Nat) (cs : Cases) c cs' c', genSt s sw cs c = .ok cs' c' →
    csize c' + 2 * cs'.length ≤ csize c + 2 * cs.length + costS s := by
  intro s
  induction s with
  | skip => intro sw cs c cs' c' h; simp [Blang.genSt] at h; obtain ⟨rfl, rfl⟩ := h; simp
  | seq s t ihs iht =>
    intro sw cs c cs' c' h
    simp only [Blang.genSt] at h
    obind h cs1 c1 h1
    have := ihs _ _ _ _ _ h1
    have := iht _ _ _ _ _ h
    simp only [costS]; omega
  | expr e =>
    intro sw cs c cs' c' h
    simp only [Blang.genSt] at h
    obind h v c1 h1
    have := Grow.genR e _ _ _ h1
    simp at h; obtain ⟨rfl, rfl⟩ := h
    simp only [costS]; omega
  | ret o =>
    intro sw cs c cs' c' h
    cases o with
    | none =>
      simp only [Blang.genSt] at h
      obind h v c1 h1
      have := Grow.setTerm1 rfl _ _ _ h1
      simp at h; obtain ⟨rfl, rfl⟩ := h
      simp only [costS]; omega
    | some e =>
      simp only [Blang.genSt] at h
      obind h v c1 h1
      obind h v c2 h2
      have := Grow.genR e _ _ _ h1
      have := Grow.setTerm1 rfl _ _ _ h2
      simp at h; obtain ⟨rfl, rfl⟩ := h
      simp only [costS]; omega
  | auto ds =>
    intro sw cs c cs' c' h
    simp only [Blang.genSt] at h
    obind h v c1 h1
    obind h v c2 h2
    have := Grow.autoCheck ds [] _ _ _ h1
    have := Grow.declareAll _ _ _ _ h2
    simp at h; obtain ⟨rfl, rfl⟩ := h
    simp only [costS]; simp at this; omega
  | extrn xs =>
    intro sw cs c cs' c' h
    simp only [Blang.genSt] at h
    obind h v c1 h1
    have := Grow.genExtrn xs _ _ _ h1
    simp at h; obtain ⟨rfl, rfl⟩ := h
    simp only [costS]; omega
  | ifThen e t iht =>
    intro sw cs c cs' c' h
    simp only [Blang.genSt] at h
    obind h v c1 h1
    obind h b c2 h2
    obind h u c3 h3
    obind h cs1 c4 h4
    obind h u c5 h5
    obind h u c6 h6
    obind h u c7 h7
    obind h u c8 h8
    have := Grow.genR e _ _ _ h1
    have := Grow.ifStart _ _ _ _ h2
    have := Grow.setInsertPoint _ _ _ _ h3
    have := iht _ _ _ _ _ h4
    have := Grow.brIfOpen _ _ _ _ h5
    have := Grow.setInsertPoint _ _ _ _ h6
    have := Grow.brIfOpen _ _ _ _ h7
    have := Grow.setInsertPoint _ _ _ _ h8
    simp at h; obtain ⟨rfl, rfl⟩ := h
    simp only [costS, List.length_nil] at *; omega
  | ifElse e t f iht ihf =>
    intro sw cs c cs' c' h
    simp only [Blang.genSt] at h
    obind h v c1 h1
    obind h b c2 h2
    obind h u c3 h3
    obind h cs1 c4 h4
    obind h u c5 h5
    obind h u c6 h6
    obind h cs2 c7 h7
    obind h u c8 h8
    obind h u c9 h9
    have := Grow.genR e _ _ _ h1
    have := Grow.ifStart _ _ _ _ h2
    have := Grow.setInsertPoint _ _ _ _ h3
    have := iht _ _ _ _ _ h4
    have := Grow.brIfOpen _ _ _ _ h5
    have := Grow.setInsertPoint _ _ _ _ h6
    have := ihf _ _ _ _ _ h7
    have := Grow.brIfOpen _ _ _ _ h8
    have := Grow.setInsertPoint _ _ _ _ h9
    simp at h; obtain ⟨rfl, rfl⟩ := h
    simp only [costS, List.length_nil] at *; omega
  | «while» e b ih =>
    intro sw cs c cs' c' h
    simp only [Blang.genSt] at h
    obind h v c1 h1
    obind h b c2 h2
    obind h u c3 h3
    obind h u c4 h4
    obind h u c5 h5
    obind h cs1 c6 h6
    obind h u c7 h7
    obind h u c8 h8
    have := Grow.whileStart _ _ _ h1
    have := Grow.genR e _ _ _ h2
    have := Grow.emit1 rfl _ _ _ h3
    have := Grow.setTerm1 rfl _ _ _ h4
    have := Grow.setInsertPoint _ _ _ _ h5
    have := ih _ _ _ _ _ h6
    have := Grow.brIfOpen _ _ _ _ h7
    have := Grow.setInsertPoint _ _ _ _ h8
    simp at h; obtain ⟨rfl, rfl⟩ := h
    simp only [costS, List.length_nil] at *; omega
  | switch e b ih =>
    intro sw cs c cs' c' h
    simp only [Blang.genSt] at h
    obind h v c1 h1
    obind h b c2 h2
    obind h u c3 h3
    obind h cs1 c4 h4
    obind h u c5 h5
    obind h u c6 h6
    obind h u c7 h7
    obind h u c8 h8
    have := Grow.freshLabelID _ _ _ h1
    have := Grow.genR e _ _ _ h2
    have := Grow.switchStart _ _ _ _ h3
    have := ih _ _ _ _ _ h4
    have := Grow.brIfOpen _ _ _ _ h5
    have := Grow.setInsertPoint _ _ _ _ h6
    have := Grow.switchTerm _ _ _ _ _ _ _ h7
    have := Grow.setInsertPoint _ _ _ _ h8
    simp at h; obtain ⟨rfl, rfl⟩ := h
    simp only [costS, List.length_nil] at *; omega
  | case v s ih =>
    intro sw cs c cs' c' h
    cases sw with
    | none => cases h
    | some k =>
      simp only [Blang.genSt] at h
      obind h u c1 h1
      have := Grow.genLabel _ _ _ _ h1
      have := ih _ _ _ _ _ h
      simp only [costS, List.length_append, List.length_cons, List.length_nil] at *; omega
  | label l s ih =>
    intro sw cs c cs' c' h
    simp only [Blang.genSt] at h
    obind h u c1 h1
    have := Grow.genLabel _ _ _ _ h1
    have := ih _ _ _ _ _ h
    simp only [costS]; omega
  | goto l =>
    intro sw cs c cs' c' h
    simp only [Blang.genSt] at h
    obind h u c1 h1
    have := Grow.genGoto _ _ _ _ h1
    simp at h; obtain ⟨rfl, rfl⟩ := h
    simp only [costS]; omega

/-! ### declarations -/

def costV : Ival → Nat
  | .int _ => 0
  | .str s => 2 * s.length + 2

/-- initial values; every value takes a word later -/
def costVs (vs : List Ival) : Nat := (vs.map fun v => costV v + 1).sum

/-- an upper bound for the code of a declaration -/
def costD : Decl → Nat
  | .global _ vals => costVs vals + 2
  | .vector x n vals => costVs vals + Decl.filled (.vector x n vals) + 4
  | .func _ ps b => 3 * ps.length + costS b + 16

theorem Grow.genIvals : ∀ (vs : List Ival) c ks c', genIvals vs c = .ok ks c' →
    csize c' + ks.length ≤ csize c + costVs vs ∧ ks.length = vs.length ∧ c'.blocks = c.blocks
  | [], c, ks, c', h => by
    simp [Blang.genIvals] at h
    obtain ⟨rfl, rfl⟩ := h
    simp [costVs]
  | v :: vs, c, ks, c', h => by
    simp only [Blang.genIvals] at h
    obind h k s h1
    obind h ks' s2 h2
    simp at h
    obtain ⟨rfl, rfl⟩ := h
    have g2 := Grow.genIvals vs _ _ _ h2
    have g1 : csize s ≤ csize c + costV v ∧ s.blocks = c.blocks := by
      cases v with
      | int n => simp [genIval] at h1; simp [h1.2]
      | str t =>
        refine ⟨?_, ?_⟩
        · have := ((Grow.createString (t.map Char.ofNat)).bind fun _ => .pure _) _ _ _ h1
          simpa [costV] using this
        · simp only [genIval] at h1
          obind h1 g s1 h3
          cases h3
          simp at h1
          rw [← h1.2]; rfl
    refine ⟨?_, by simp [g2.2.1], by rw [g2.2.2, g1.2]⟩
    simp only [costVs, List.map_cons, List.sum_cons, List.length_cons] at *
    omega

theorem Grow.vaParams (v : Val) : ∀ ps : List Name, Grow (3 * ps.length) (vaParams v ps)
  | [] => .pure _
  | p :: ps => ((Grow.emit1).bind fun _ => (Grow.emit1).bind fun _ => (Grow.emit1).bind fun _ => (Grow.modLocals _).bind fun _ =>
      Grow.vaParams v ps).mono (by simp only [List.length_cons]; omega)

theorem Grow.firstParam (p : Name) : Grow 2 (firstParam p) :=
  (Grow.emit1).bind fun _ => (Grow.emit1).bind fun _ => Grow.modLocals _

theorem Grow.paramCode (ps : List Name) : Grow (3 * ps.length + 12) (paramCode ps) := by
  unfold Blang.paramCode
  split
  · exact (Grow.pure _).mono (by omega)
  · exact (Grow.firstParam _).mono (by omega)
  · rename_i p ps _
    have g : ∀ (f a : Val), Grow 2 (Blang.emit (.call f [a])) := fun f a => Grow.emit _
    refine (Grow.bind (k := 2) (l := 3 * ps.length + 10) (Grow.firstParam _) fun _ => ?_).mono (by simp only [List.length_cons]; omega)
    refine (Grow.bind (k := 1) (l := 3 * ps.length + 9) Grow.emit1 fun _ => ?_).mono (by omega)
    refine (Grow.bind (k := 1) (l := 3 * ps.length + 8) Grow.emit1 fun _ => ?_).mono (by omega)
    refine (Grow.bind (k := 2) (l := 3 * ps.length + 6) (Grow.getOrCreateFunc _) fun _ => ?_).mono (by omega)
    refine (Grow.bind (k := 2) (l := 3 * ps.length + 4) (g _ _) fun _ => ?_).mono (by omega)
    refine (Grow.bind (l := 4) (Grow.vaParams _ _) fun _ => ?_)
    refine (Grow.bind (k := 2) (l := 2) (Grow.getOrCreateFunc _) fun _ => ?_)
    exact (Grow.bind (k := 2) (l := 0) (g _ _) fun _ => .pure _)

theorem sum_closed (c : CState) : ((closed c).map blockUnits).sum ≤ (c.blocks.map blockUnits).sum + 1 := by
  unfold closed
  split
  · exact sum_modify blockUnits _ 1 (fun b => by simp [blockUnits, termUnits]) c.blocks c.cur
  · omega

/-- storing the blocks in the only function of that name -/
theorem sum_store (bs : List Block) (s : Name) : ∀ fs : List Func, (fs.map Func.sym).Nodup →
    ((fs.map fun g => if g.sym = s then { g with blocks := bs } else g).map funcUnits).sum ≤
      (fs.map funcUnits).sum + (bs.map blockUnits).sum
  | [], _ => by simp
  | f :: fs, h => by
    simp only [List.map_cons, List.nodup_cons] at h
    by_cases hs : f.sym = s
    · have : (fs.map fun g => if g.sym = s then { g with blocks := bs } else g) = fs := by
        rw [List.map_congr_left (g := id)]
        · simp
        · intro g hg
          rw [if_neg]; · rfl
          · intro e; exact h.1 (by rw [hs, ← e]; exact List.mem_map_of_mem hg)
      simp only [List.map_cons, List.sum_cons, hs, if_true, this]
      simp [funcUnits]; omega
    · have := sum_store bs s fs h.2
      simp only [List.map_cons, List.sum_cons, hs, if_false]
      omega

theorem csize_remove (c : CState) (x : Name) : csize (removeGlobalByName c x) ≤ csize c := by
  have := sum_eraseP globalUnits (fun g => decide (g.sym = globalName x)) c.globals
  simp only [csize, removeGlobalByName]
  omega

/-- one declaration; no function is being built before or after it -/
theorem Grow.genDecl {d : Decl} {c c' : CState} {ss : List (List Nat)} (hI : ProgInv c ss) (hb : c.blocks = []) (hn : d.All NameOk)
    (h : genDecl d c = .ok () c') : csize c' ≤ csize c + costD d ∧ c'.blocks = [] := by
  cases d with
  | func f ps b =>
    obtain ⟨hf, hp, hb'⟩ := hn
    obtain ⟨bs, r, rfl⟩ := genDecl_func hI.functions h
    refine ⟨?_, rfl⟩
    obtain ⟨fs, k1, k2, k3⟩ := r.funcs hp hb'
    have g1 := Grow.paramCode ps _ _ _ r.entry
    have g2 := Grow.genSt _ _ _ _ _ _ r.body
    have g3 := sum_closed r.c3
    have g4 := sum_store bs r.c3.curSym r.c3.funcs (k3 hI.nodup)
    rw [← r.blocks] at g3
    have g0 : csize (entered (defFunc f ps) r.c1) ≤ csize c + 3 := by
      have := sum_eraseP funcUnits (fun g => decide (g.sym = globalName f)) c.funcs
      rw [r.c1_eq]
      have e : (ps.take 1).length ≤ 1 := by simp; omega
      simp only [csize, entered, hb, List.map_append, List.sum_append, List.map_cons, List.map_nil, List.sum_cons, List.sum_nil,
        blockUnits, defFunc, funcUnits, Option.map_none, Option.getD_none]
      omega
    simp only [csize, costD, List.map_nil, List.sum_nil, List.length_nil] at *
    omega
  | global x vals =>
    obtain ⟨ks, c1, h1, rfl⟩ := genDecl_global h
    have g1 := Grow.genIvals _ _ _ _ h1
    have g2 := csize_remove c x
    have hb1 : c1.blocks = [] := g1.2.2.trans hb
    refine ⟨?_, hb1⟩
    have : initUnits (valsInit ks) ≤ ks.length + 1 := by
      match ks with
      | [] => simp [valsInit, initUnits]
      | [k] => simp [valsInit, initUnits]
      | k :: k' :: ks => simp [valsInit, initUnits]
    simp only [csize, newGlobalDef, costD, List.map_append, List.sum_append, List.map_cons, List.map_nil, List.sum_cons, List.sum_nil,
      globalUnits] at *
    omega
  | vector x n vals =>
    obtain ⟨ks, c1, c2, g, h1, h2, rfl⟩ := genDecl_vector h
    have g1 := Grow.genIvals _ _ _ _ h1
    have g2 := csize_remove c x
    have hb1 : c1.blocks = [] := g1.2.2.trans hb
    cases h2 with
    | separate e1 e2 e3 e4 =>
      subst e3 e4
      refine ⟨?_, hb1⟩
      simp only [csize, newGlobalDef, costD, List.map_append, List.sum_append, List.map_cons, List.map_nil, List.sum_cons, List.sum_nil,
        globalUnits, initUnits, List.length_cons, List.length_nil] at *
      omega
    | inline m e1 e2 e3 e4 =>
      subst e3 e4
      refine ⟨?_, hb1⟩
      have : m.toInt.toNat ≤ ks.length + 1 + Decl.filled (.vector x n vals) := by
        rw [e1]
        cases vals with
        | nil =>
          have : ks = [] := List.length_eq_zero_iff.1 g1.2.1
          subst this
          rw [← e1]
          have e2 : ¬ (1 : Int) < m.toInt := fun h => e2 ⟨rfl, h⟩
          simp only [Decl.filled]
          omega
        | cons v vs =>
          simp only [Decl.filled]
          have hk : ks ≠ [] := by intro e; rw [e] at g1; simp at g1
          rw [if_neg (by simp [hk])]
          split
          · have : (BitVec.ofNat 64 ks.length).toInt.toNat ≤ ks.length := by
              rw [BitVec.toInt_eq_toNat_cond, BitVec.toNat_ofNat]
              split <;> omega
            omega
          · omega
      simp only [csize, newGlobalDef, costD, List.map_append, List.sum_append, List.map_cons, List.map_nil, List.sum_cons, List.sum_nil,
        globalUnits, initUnits, List.length_cons, List.length_map, List.length_range] at *
      omega


/-- between two declarations -/
theorem Grow.between {p : Program} {c c' : CState} (h : Between p c c') : ∀ {ss : List (List Nat)}, ProgInv c ss → c.blocks = [] →
    (∀ d ∈ p, d.All NameOk) → csize c' ≤ csize c + (p.map costD).sum ∧ c'.blocks = [] := by
  induction h with
  | nil => intro ss hI hb hn; exact ⟨by simp, hb⟩
  | cons h1 _ ih =>
    intro ss hI hb hn
    have g1 := Grow.genDecl hI hb (hn _ (by simp)) h1
    have g2 := ih (hI.decl (hn _ (by simp)) h1) g1.2 (fun d hd => hn d (by simp [hd]))
    refine ⟨?_, g2.2⟩
    simp only [csize, List.map_cons, List.sum_cons] at *
    omega

end Blang
