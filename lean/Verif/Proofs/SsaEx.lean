import Verif.Proofs.SsaSt
import Verif.Proofs.CompLex
/-
Expressions keep the invariant.
-/
namespace Blang
open Spec

theorem all0 {P : Val → Prop} : ∀ v ∈ ([] : List Val), P v := nofun
theorem all1 {P : Val → Prop} {a : Val} (h : P a) : ∀ v ∈ [a], P v := by intro v hv; simp at hv; subst hv; exact h
theorem all2 {P : Val → Prop} {a b : Val} (h : P a) (h' : P b) : ∀ v ∈ [a, b], P v := by
  intro v hv; simp at hv; rcases hv with rfl | rfl
  · exact h
  · exact h'
theorem allCons {P : Val → Prop} {a : Val} {l : List Val} (h : P a) (h' : ∀ v ∈ l, P v) : ∀ v ∈ a :: l, P v := by
  intro v hv; rcases List.mem_cons.1 hv with rfl | hv
  · exact h
  · exact h' v hv

theorem VA.const {g : GS} {n : W} : VA g (.const n) := .noReg nofun
theorem VA.param {g : GS} : VA g .param := .noReg nofun
theorem VA.glob {g : GS} {d : GlobalDef} : VA g d.val := .noReg nofun
theorem VA.func {g : GS} {d : Func} : VA g d.val := .noReg nofun

macro "vcarry" : tactic => `(tactic| repeat (first | assumption | exact VA.const | (refine EE.va (by assumption) ?_)))

section
variable {g : GS}
set_option quotPrecheck false
local notation "LOK" => fun (g : GS) (v : LV) => VA g v.1

theorem XE.em0 (i : Inst) (hp : ¬ Inst.isPhi i) (hi : Inst.operands i = []) : XE g (Blang.emit i) VA := XE.emitV i hp (by rw [hi]; nofun)

theorem XE.rval (v : LV) (hv : VA g v.1) : XE g (rval v) VA :=
  XE.ite (fun _ => XE.emitV _ id (all1 hv)) (fun _ => XE.pure _ hv)

theorem XE.cmpOp (p : Pred) (x y : Val) (hx : VA g x) (hy : VA g y) : XE g (cmpOp p x y) VA :=
  XE.bind (XE.emitV _ id (all2 hx hy)) fun _ _ _ ha => XE.emitV _ id (all1 ha)

theorem XE.genOp (o : Op) (x y : Val) (hx : VA g x) (hy : VA g y) : XE g (genOp o x y) VA := by
  cases o
  · exact XE.emitV _ id (all2 hx hy)
  · exact XE.cmpOp _ _ _ hx hy

theorem XE.needLval (v : LV) (hv : VA g v.1) : XE g (needLval v) VA :=
  XE.ite (fun _ => XE.pure _ hv) (fun _ => XE.fail)

theorem XE.genCall (f : Val) (as : List Val) (hf : VA g f) (ha : ∀ a ∈ as, VA g a) : XE g (genCall f as) VA := by
  unfold Blang.genCall
  split
  · exact XE.ite (fun _ => XE.bind (XE.emitV _ id (all1 hf)) fun a g1 h1 h => XE.emitV _ id (allCons h fun a hm => h1.va (ha a hm)))
      (fun _ => XE.emitV _ id (allCons hf ha))
  · exact XE.bind (XE.emitV _ id (all1 hf)) fun a g1 h1 h => XE.emitV _ id (allCons h fun a hm => h1.va (ha a hm))

theorem XE.genStr (s : List Char) : XE g (genStr s) VA :=
  XE.bind (XE.createString _) fun _ _ _ _ => XE.bind (XE.emitV _ id (all1 .glob)) fun _ _ _ ha => XE.emitV _ id (all1 ha)

theorem XE.genPostfix (o : BinOp) (v : Val) (hv : VA g v) : XE g (genPostfix o v) VA :=
  XE.bind (XE.emitV _ id (all1 hv)) fun a g1 h1 ha => XE.bind (XE.emitV _ id (all2 ha .const)) fun b g2 h2 hb =>
    XE.bind (XE.emitV _ id (all2 hb (by vcarry))) fun d g3 h3 _ => XE.pure _ (by vcarry)

theorem XE.genPrefix (o : BinOp) (v : Val) (hv : VA g v) : XE g (genPrefix o v) (fun _ _ => True) :=
  XE.bind (XE.emitV _ id (all1 hv)) fun a g1 h1 ha => XE.bind (XE.emitV _ id (all2 ha .const)) fun b g2 h2 hb =>
    XE.bind (XE.emitV _ id (all2 hb (by vcarry))) fun d g3 h3 _ => XE.pure _ trivial

theorem XE.genAssign (o : Option Op) (l r : Val) (hl : VA g l) (hr : VA g r) : XE g (genAssign o l r) VA := by
  unfold Blang.genAssign
  split
  · exact XE.bind (XE.emitV _ id (all1 hl)) fun a g1 h1 ha => XE.bind (XE.genOp _ _ _ ha (by vcarry)) fun b g2 h2 hb =>
      XE.bind (XE.emitV _ id (all2 hb (by vcarry))) fun d g3 h3 _ => XE.pure _ (by vcarry)
  · exact XE.bind (XE.emitV _ id (all2 hr hl)) fun a g1 h1 ha => XE.pure _ (by vcarry)

theorem XE.getAddress (x : Name) : XE g (getAddress x) (fun g r => ∀ v, r = some v → VA g v) := by
  refine XE.get fun hf => ?_
  cases hl : lookup x g.c.locals with
  | some v =>
    refine XE.pure _ (fun w hw => ?_)
    cases hw
    obtain ⟨a, rfl, ha⟩ := hf.locals _ _ hl
    intro a' e; cases e; exact .inl ha
  | none =>
    cases hx : lookup x g.c.ctx with
    | none => exact XE.pure _ (fun w hw => by cases hw)
    | some v =>
      have hn := hf.ctx _ _ hx
      cases v with
      | glob s t =>
        cases t with
        | i64 => exact XE.pure _ (fun w hw => by cases hw; exact .noReg hn)
        | arr n => exact XE.bind (XE.emitV _ id (all1 (.noReg hn))) fun a c1 h1 ha => XE.pure _ (fun w hw => by cases hw; exact ha)
        | bytes n => exact XE.bind (XE.emitV _ id (all1 (.noReg hn))) fun a c1 h1 ha => XE.pure _ (fun w hw => by cases hw; exact ha)
      | _ => exact XE.pure _ (fun w hw => by cases hw; exact .noReg hn)

theorem XE.genVar (x : Name) : XE g (genVar x) LOK := by
  refine XE.bind (XE.getAddress x) fun r g1 h1 hr => ?_
  cases r with
  | some a => exact XE.pure _ (hr _ rfl)
  | none =>
    refine XE.get fun hf => ?_
    cases hx : findFuncByName g1.c x with
    | some fn => exact XE.bind (XE.emitV _ id (all1 .func)) fun a c1 h1 ha => XE.pure _ ha
    | none =>
      refine XE.bind (XE.getOrDeclareFunction x) fun r c2 h2 hr => ?_
      cases r with
      | some fn => exact XE.bind (XE.emitV _ id (all1 (.noReg (hr _ rfl)))) fun a c1 h1 ha => XE.pure _ ha
      | none => exact XE.fail

theorem XE.genCallee (x : Name) : XE g (genCallee x) LOK := by
  refine XE.get fun hf => ?_
  cases hx : findFuncByName g.c x with
  | some fn => exact XE.pure _ .func
  | none =>
    cases hx : lookup x g.c.ctx with
    | some v => exact XE.pure _ (.noReg (hf.ctx _ _ hx))
    | none =>
      refine XE.bind (XE.getOrDeclareFunction x) fun r c2 h2 hr => ?_
      cases r with
      | some fn => exact XE.pure _ (.noReg (hr _ rfl))
      | none => exact XE.fail

theorem XE.genNeg (v : LV) (hv : VA g v.1) : XE g (genNeg v) VA :=
  XE.bind (XE.rval _ hv) fun _ _ _ hb => XE.emitV _ id (all2 .const hb)

theorem XE.genDeref (v : LV) (hv : VA g v.1) : XE g (genDeref v) VA :=
  XE.bind (XE.rval _ hv) fun _ _ _ hb => XE.emitV _ id (all1 hb)

/-! ### the conditional expression -/

/-- block `b` is new, special, empty and open; entering it needs the registers `S`; `b` can be reached from the blocks in `P` only -/
structure Fresh (g : GS) (b : Nat) (S : Nat → Prop) (P : Nat → Prop) : Prop where
  pos : 0 < b
  lt : b < g.len
  k : g.G.K b
  d : ∀ a, g.G.D b a ↔ S a
  ne : b ≠ g.c.cur
  empty : ∃ nm, g.c.blocks[b]? = some ⟨nm, [], none⟩
  pred : ∀ i, Edge g.c.blocks i b → P i

theorem Fresh.term {b : Nat} {S : Nat → Prop} {P : Nat → Prop} (h : Fresh g b S P) : termAt g.c.blocks b = none := by
  obtain ⟨nm, e⟩ := h.empty
  unfold termAt; rw [e]; rfl

theorem Fresh.insts {b : Nat} {S : Nat → Prop} {P : Nat → Prop} (h : Fresh g b S P) : ∀ B, g.c.blocks[b]? = some B → B.insts = [] := by
  obtain ⟨nm, e⟩ := h.empty
  intro B hB; rw [e] at hB; cases hB; rfl

theorem Fresh.ee {g' : GS} {b : Nat} {S : Nat → Prop} {P : Nat → Prop} (h : Fresh g b S P) (l : EE g g') : Fresh g' b S P := by
  have hl := h.lt
  refine ⟨h.pos, Nat.lt_of_lt_of_le hl l.len, (l.K b hl).2 h.k, fun a => by rw [l.D b a hl]; exact h.d a, ?_, ?_, fun i he => h.pred i (l.edges i b hl he)⟩
  · rcases l.cur with e | e
    · rw [e]; exact h.ne
    · have := e.1; omega
  · obtain ⟨nm, e⟩ := h.empty
    exact ⟨nm, by rw [l.keep b hl h.ne, e]⟩

/-- the terminator of the current block is set to a jump to fresh blocks -/
theorem SsaInv.putTerm (h : SsaInv g) (t : Term) (hv : ∀ v ∈ Term.operands t, VA g v)
    (ht : ∀ j ∈ Term.targets t, ∃ S P, Fresh g j S P ∧ ∀ a, S a → Out g.G g.c.blocks g.c.cur a) :
    SsaInv ⟨{ g.c with blocks := g.c.blocks.modify g.c.cur (Blang.putTerm t) }, g.G⟩ := by
  have hl : (g.c.blocks.modify g.c.cur (Blang.putTerm t)).length = g.c.blocks.length := List.length_modify ..
  have hc := h.core.setTerm t hv fun j hj => by
    obtain ⟨S, P, f, hS⟩ := ht j hj
    exact ⟨f.pos, f.lt, .inr ⟨fun a ha => hS a ((f.d a).1 ha), f.insts⟩⟩
  refine ⟨hc, ?_, ?_, h.ctx, h.funs⟩
  · intro l j hj; exact ⟨(h.labels l j hj).pos, Nat.lt_of_lt_of_eq (h.labels l j hj).lt hl.symm, (h.labels l j hj).nk⟩
  · intro x v hv
    obtain ⟨a, e, ha⟩ := h.locals x v hv
    exact ⟨a, e, putTerm_le.localAddr ha⟩

theorem Fresh.putTerm {b : Nat} {S : Nat → Prop} {P : Nat → Prop} (h : Fresh g b S P) (t : Term) {P' : Nat → Prop} (hP : ∀ i, P i → P' i) (hc : b ∈ Term.targets t → P' g.c.cur) :
    Fresh ⟨{ g.c with blocks := g.c.blocks.modify g.c.cur (Blang.putTerm t) }, g.G⟩ b S P' := by
  have hl : (g.c.blocks.modify g.c.cur (Blang.putTerm t)).length = g.c.blocks.length := List.length_modify ..
  refine ⟨h.pos, Nat.lt_of_lt_of_eq h.lt hl.symm, h.k, h.d, h.ne, ?_, ?_⟩
  · obtain ⟨nm, e⟩ := h.empty
    exact ⟨nm, by rw [← e]; exact modify_ne (Ne.symm h.ne)⟩
  · intro i he
    rcases edge_putTerm he with ⟨rfl, hj⟩ | ⟨_, he⟩
    · exact hc hj
    · exact hP _ (h.pred i he)

theorem Fresh.move {b m : Nat} {S : Nat → Prop} {P : Nat → Prop} (h : Fresh g b S P) (hm : b ≠ m) : Fresh ⟨{ g.c with cur := m }, g.G⟩ b S P :=
  ⟨h.pos, h.lt, h.k, h.d, hm, h.empty, h.pred⟩

/-- a new block is marked -/
theorem SsaInv.mark (h : SsaInv g) (m : Nat) (S : Nat → Prop) (hm : NK g m) (hl : ∀ l j, lookup l g.c.labels = some j → j ≠ m) (he : ∀ j, ¬ Edge g.c.blocks j m) :
    SsaInv ⟨g.c, g.G.mark m S⟩ := by
  refine ⟨h.core.mark m S hm.pos hm.lt he, ?_, h.locals, h.ctx, h.funs⟩
  intro l j hj
  have := h.labels l j hj
  refine ⟨this.pos, this.lt, ?_⟩
  rintro (hk | rfl)
  · exact this.nk hk
  · exact hl l j hj rfl

/-- a new block that is special from the start -/
theorem XE.newFresh (nm : Name) (S : Nat → Prop) : XE g (Blang.newBlock nm) (fun g' b => Fresh g' b S (fun _ => False) ∧ b = g.len ∧ g'.len = g.len + 1) := by
  intro v c' hc h
  cases hc
  obtain ⟨h1, h2, h3⟩ := h.append nm g.c.labels (fun _ _ => .inl)
  have he : ∀ j, ¬ Edge (g.c.blocks ++ [⟨nm, [], none⟩]) j g.len := by
    intro j he
    exact Nat.lt_irrefl _ (h.core.edges j _ (edge_append he)).2.1
  have hne : ∀ i, i < g.len → i ≠ g.len := fun i hi => by omega
  have h4 := h1.mark g.len S h3 (fun l j hj => hne _ (h.labels l j hj).lt) he
  refine ⟨_, h4, ⟨h2.le, h2.keep, ?_, ?_, h2.edges, .inl rfl, h2.lt, fun a ha => ?_⟩, ⟨h3.pos, h3.lt, .inr rfl, fun a => ?_, (hne _ h.core.lt).symm, ⟨nm, ?_⟩, fun i hi => he i hi⟩, rfl, by simp [GS.len]⟩
  · intro i hi
    exact ⟨fun hk => hk.elim id (fun e => absurd e (hne i hi)), .inl⟩
  · intro i a hi
    exact ⟨fun hk => hk.elim id (fun e => absurd e.1 (hne i hi)), .inl⟩
  · exact (BsLe.refl _).out (G := g.G) (fun _ h => .inl h) (h2.out a ha)
  · exact ⟨fun hk => hk.elim (fun hk => absurd (h.core.nk _ _ hk) h3.nk) (·.2), fun hS => .inr ⟨rfl, hS⟩⟩
  · exact List.getElem?_concat_length

/-- what happens to the first `L` blocks, apart from block `k` -/
structure Low (L k : Nat) (g g' : GS) : Prop where
  le : BsLe g.c.blocks g'.c.blocks
  keep : ∀ i, i < L → i ≠ k → g'.c.blocks[i]? = g.c.blocks[i]?
  K : ∀ i, i < L → (g'.G.K i ↔ g.G.K i)
  D : ∀ i a, i < L → (g'.G.D i a ↔ g.G.D i a)
  edges : ∀ i j, j < L → Edge g'.c.blocks i j → Edge g.c.blocks i j

theorem Low.trans {L k : Nat} {g g1 g2 : GS} (h1 : Low L k g g1) (h2 : Low L k g1 g2) : Low L k g g2 :=
  ⟨h1.le.trans h2.le, fun i hi hk => by rw [h2.keep i hi hk, h1.keep i hi hk], fun i hi => by rw [h2.K i hi, h1.K i hi],
   fun i a hi => by rw [h2.D i a hi, h1.D i a hi], fun i j hj he => h1.edges i j hj (h2.edges i j hj he)⟩

theorem EE.low {L k : Nat} {g g' : GS} (h : EE g g') (hl : L ≤ g.len) (hk : g.c.cur = k ∨ L ≤ g.c.cur) : Low L k g g' :=
  ⟨h.le, fun i hi hik => h.keep i (by omega) (by omega), fun i hi => h.K i (by omega), fun i a hi => h.D i a (by omega), fun i j hj => h.edges i j (by omega)⟩

theorem Low.putTerm {L k : Nat} {g : GS} (t : Term) (hk : g.c.cur = k ∨ L ≤ g.c.cur) (ht : ∀ j ∈ Term.targets t, L ≤ j) :
    Low L k g ⟨{ g.c with blocks := g.c.blocks.modify g.c.cur (Blang.putTerm t) }, g.G⟩ := by
  refine ⟨putTerm_le, fun i hi hik => modify_ne (by omega), fun _ _ => .rfl, fun _ _ _ => .rfl, fun i j hj he => ?_⟩
  rcases edge_putTerm he with ⟨_, h⟩ | ⟨_, he⟩
  · have := ht j h; omega
  · exact he

theorem Low.move {L k m : Nat} {g : GS} : Low L k g ⟨{ g.c with cur := m }, g.G⟩ :=
  ⟨.refl _, fun _ _ _ => rfl, fun _ _ => .rfl, fun _ _ _ => .rfl, fun _ _ _ h => h⟩

/-- the code of `?:` behind the code of the condition -/
def condCode (v : Val) (mt me : B Val) : B Val := do
  let (thenBlock, elseBlock, endBlock) ← condStart v
  setInsertPoint thenBlock
  let thenVal ← mt
  let thenEnd ← getInsertBlock
  setTerm (.br endBlock)
  setInsertPoint elseBlock
  let elseVal ← me
  let elseEnd ← getInsertBlock
  setTerm (.br endBlock)
  setInsertPoint endBlock
  emit (.phi thenVal thenEnd elseVal elseEnd)

/-- the blocks of `?:`, up to the branch to them -/
def condPre (cond : Val) : B (Nat × Nat × Nat × Val) := do
  let condID ← freshLabelID
  let thenBlock ← newBlock ("cond.then.".toList ++ natDec condID)
  let elseBlock ← newBlock ("cond.else.".toList ++ natDec condID)
  let endBlock ← newBlock ("cond.end.".toList ++ natDec condID)
  let cmp ← emit (.icmp .ne cond (.const 0))
  pure (thenBlock, elseBlock, endBlock, cmp)

theorem condStart_pre {v : Val} {c c' : CState} {t e n : Nat} (h : condStart v c = .ok (t, e, n) c') :
    ∃ c1 cmp, condPre v c = .ok (t, e, n, cmp) c1 ∧ c' = { c1 with blocks := c1.blocks.modify c1.cur (putTerm (.condbr cmp t e)) } := by
  unfold condStart at h
  obind h i c1 h1
  obind h b1 c2 h2
  obind h b2 c3 h3
  obind h b3 c4 h4
  obind h cmp c5 h5
  obind h u c6 h6
  simp at h
  obtain ⟨⟨rfl, rfl, rfl⟩, rfl⟩ := h
  cases h6
  refine ⟨c5, cmp, ?_, rfl⟩
  unfold condPre
  rw [M.bind_ok h1, M.bind_ok h2, M.bind_ok h3, M.bind_ok h4, M.bind_ok h5]; rfl

structure CondPre (S : Nat → Prop) (L : Nat) (g : GS) (r : Nat × Nat × Nat × Val) : Prop where
  ft : Fresh g r.1 S (fun _ => False)
  fe : Fresh g r.2.1 S (fun _ => False)
  fn : Fresh g r.2.2.1 S (fun _ => False)
  t : r.1 = L
  e : r.2.1 = L + 1
  n : r.2.2.1 = L + 2
  cmp : VA g r.2.2.2

theorem XE.condPre (v : Val) (hv : VA g v) : XE g (Blang.condPre v) (CondPre (Out g.G g.c.blocks g.c.cur) g.len) := by
  refine XE.bind XE.freshLabelID fun i g1 h1 e1 => ?_
  refine XE.bind (XE.newFresh _ (Out g.G g.c.blocks g.c.cur)) fun b1 g2 h2 f1 => ?_
  refine XE.bind (XE.newFresh _ (Out g.G g.c.blocks g.c.cur)) fun b2 g3 h3 f2 => ?_
  refine XE.bind (XE.newFresh _ (Out g.G g.c.blocks g.c.cur)) fun b3 g4 h4 f3 => ?_
  refine XE.bind (XE.emitV _ id (all2 (by vcarry) .const)) fun cmp g5 h5 hc => ?_
  obtain ⟨f1, e2, l2⟩ := f1
  obtain ⟨f2, e3, l3⟩ := f2
  obtain ⟨f3, e4, l4⟩ := f3
  have l1 : g1.len = g.len := by unfold GS.len; rw [e1]
  exact XE.pure _ ⟨((f1.ee h3).ee h4).ee h5, (f2.ee h4).ee h5, f3.ee h5, by dsimp only; omega, by dsimp only; omega, by dsimp only; omega, hc⟩

theorem termAt_put {bs : List Block} {k : Nat} {t : Term} (h : k < bs.length) : termAt (bs.modify k (putTerm t)) k = some t := by
  unfold termAt; rw [modify_eq (List.getElem?_eq_getElem h)]; rfl

theorem XE.condCode (v : Val) (hv : VA g v) {mt me : B Val} (ht : ∀ g, XE g mt VA) (he : ∀ g, XE g me VA) : XE g (condCode v mt me) VA := by
  intro a c' hc hi
  unfold Blang.condCode at hc
  obind hc r c5 h5
  obtain ⟨t, e, n⟩ := r
  obtain ⟨c4, cmp, h4, rfl⟩ := condStart_pre h5
  obtain ⟨G4, i4, l4, p⟩ := XE.condPre v hv _ _ h4 hi
  obtain ⟨ft, fe, fn, rfl, rfl, rfl, vc⟩ := p
  dsimp only at ft fe fn vc hc
  have hlen : g.len + 2 < (GS.mk c4 G4).len := fn.lt
  have cl4 := l4.cur
  have x4 := l4.low (L := g.len) (k := g.c.cur) (Nat.le_refl _) (.inl rfl)
  -- the branch
  have i5 := i4.putTerm (.condbr cmp g.len (g.len + 1)) (all1 vc) (by
    intro j hj
    rcases List.mem_cons.1 hj with rfl | hj
    · exact ⟨_, _, ft, l4.out⟩
    · rw [List.mem_singleton.1 hj]; exact ⟨_, _, fe, l4.out⟩)
  have x5 := x4.trans (Low.putTerm (g := ⟨c4, G4⟩) (L := g.len) (k := g.c.cur) (.condbr cmp g.len (g.len + 1)) (by
    rcases cl4 with e | e
    · exact .inl e
    · exact .inr e.1) (by
    intro j hj
    rcases List.mem_cons.1 hj with rfl | hj
    · omega
    · rw [List.mem_singleton.1 hj]; omega))
  have ft5 := ft.putTerm (.condbr cmp g.len (g.len + 1)) (P' := fun _ => True) (fun _ _ => trivial) (fun _ => trivial)
  have fe5 := fe.putTerm (.condbr cmp g.len (g.len + 1)) (P' := fun _ => True) (fun _ _ => trivial) (fun _ => trivial)
  have fn5 := fn.putTerm (.condbr cmp g.len (g.len + 1)) (P' := fun _ => False) (fun _ h => h) (fun h => by simp [Term.targets] at h)
  obind hc u c6 h6
  cases h6
  -- the first branch
  have i6 := i5.move _ ft5.lt (.inr ft5.term)
  have x6 := x5.trans (Low.move (m := g.len))
  have fe6 := fe5.move (m := g.len) (by omega)
  have fn6 := fn5.move (m := g.len) (by omega)
  have dt : ∀ a, Out g.G g.c.blocks g.c.cur a → G4.D g.len a := fun a h => (ft5.d a).2 h
  have kt : G4.K g.len := ft5.k
  generalize hg6 : GS.mk _ G4 = g6 at i6 x6 fe6 fn6
  have cur6 : g6.c.cur = g.len := by rw [← hg6]
  have G6 : g6.G = G4 := by rw [← hg6]
  have len6 : g6.len = c4.blocks.length := by rw [← hg6]; simp [GS.len, List.length_modify]
  obind hc tv c7 h7
  obtain ⟨G7, i7, l7, v7⟩ := ht g6 _ _ (by rw [← hg6]; exact h7) i6
  have hlen6 : g.len + 2 < g6.len := by rw [len6]; exact hlen
  have x7 := x6.trans (l7.low (L := g.len) (by omega) (.inr (by omega)))
  have fe7 := fe6.ee l7
  have fn7 := fn6.ee l7
  have o7 : ∀ a, Out g.G g.c.blocks g.c.cur a → Out G7 c7.blocks c7.cur a := fun a h => l7.out a (.inl (by rw [cur6, G6]; exact dt a h))
  have k7 : G7.K c7.cur := by
    rcases l7.cur with e | e
    · have e : c7.cur = g.len := e.trans cur6
      rw [e]; exact (l7.K g.len (by omega)).2 (by rw [G6]; exact kt)
    · exact e.2
  have b7 : c7.cur = g.len ∨ g6.len ≤ c7.cur := by
    rcases l7.cur with e | e
    · exact .inl (e.trans cur6)
    · exact .inr e.1
  have lt7 : c7.cur < c7.blocks.length := l7.lt
  have ln7 : g6.len ≤ c7.blocks.length := l7.len
  obind hc te c7' h7'
  cases h7'
  obind hc u8 c8 h8
  cases h8
  have i8 := i7.putTerm (.br (g.len + 2)) nofun (by
    intro j hj
    rw [List.mem_singleton.1 hj]; exact ⟨_, _, fn7, o7⟩)
  have x8 := x7.trans (Low.putTerm (g := ⟨c7, G7⟩) (L := g.len) (k := g.c.cur) (.br (g.len + 2)) (.inr (by show _ ≤ c7.cur; omega)) (by
    intro j hj; rw [List.mem_singleton.1 hj]; omega))
  have fe8 := fe7.putTerm (.br (g.len + 2)) (P' := fun _ => True) (fun _ _ => trivial) (fun _ => trivial)
  have fn8 := fn7.putTerm (.br (g.len + 2)) (P' := fun i => i = c7.cur) (fun _ h => h.elim) (fun _ => rfl)
  have t8 : termAt (c7.blocks.modify c7.cur (putTerm (.br (g.len + 2)))) c7.cur = some (.br (g.len + 2)) := termAt_put lt7
  have v8 : VOut G7 (c7.blocks.modify c7.cur (putTerm (.br (g.len + 2)))) c7.cur tv := putTerm_le.vout (fun _ h => h) v7
  obind hc u9 c9 h9
  cases h9
  -- the second branch
  have i9 := i8.move _ fe8.lt (.inr fe8.term)
  have x9 := x8.trans (Low.move (m := g.len + 1))
  have fn9 := fn8.move (m := g.len + 1) (by omega)
  have de : ∀ a, Out g.G g.c.blocks g.c.cur a → G7.D (g.len + 1) a := fun a h => (fe8.d a).2 h
  have ke : G7.K (g.len + 1) := fe8.k
  generalize hg9 : GS.mk _ G7 = g9 at i9 x9 fn9
  have cur9 : g9.c.cur = g.len + 1 := by rw [← hg9]
  have G9 : g9.G = G7 := by rw [← hg9]
  have len9 : g9.len = c7.blocks.length := by rw [← hg9]; simp [GS.len, List.length_modify]
  have t9 : termAt g9.c.blocks c7.cur = some (.br (g.len + 2)) := by rw [← hg9]; exact t8
  have v9 : VOut g9.G g9.c.blocks c7.cur tv := by rw [← hg9]; exact v8
  obind hc ev c10 h10
  obtain ⟨G10, i10, l10, v10⟩ := he g9 _ _ (by rw [← hg9]; exact h10) i9
  have x10 := x9.trans (l10.low (L := g.len) (by omega) (.inr (by omega)))
  have fn10 := fn9.ee l10
  have o10 : ∀ a, Out g.G g.c.blocks g.c.cur a → Out G10 c10.blocks c10.cur a := fun a h => l10.out a (.inl (by rw [cur9, G9]; exact de a h))
  have k10 : G10.K c10.cur := by
    rcases l10.cur with e | e
    · have e : c10.cur = g.len + 1 := e.trans cur9
      rw [e]; exact (l10.K (g.len + 1) (by omega)).2 (by rw [G9]; exact ke)
    · exact e.2
  have b10 : c10.cur = g.len + 1 ∨ g9.len ≤ c10.cur := by
    rcases l10.cur with e | e
    · exact .inl (e.trans cur9)
    · exact .inr e.1
  have lt10 : c10.cur < c10.blocks.length := l10.lt
  have t10 : termAt c10.blocks c7.cur = some (.br (g.len + 2)) := by
    rw [← t9]; unfold termAt; rw [l10.keep c7.cur (by omega) (by omega)]
  have kt10 : G10.K c7.cur := (l10.K _ (by omega)).2 (by rw [G9]; exact k7)
  have vt10 : VOut G10 c10.blocks c7.cur tv := l10.le.vout (fun a h => (l10.D _ a (by omega)).2 h) v9
  obind hc ee c10' h10'
  cases h10'
  obind hc u11 c11 h11
  cases h11
  have i11 := i10.putTerm (.br (g.len + 2)) nofun (by
    intro j hj
    rw [List.mem_singleton.1 hj]; exact ⟨_, _, fn10, o10⟩)
  have x11 := x10.trans (Low.putTerm (g := ⟨c10, G10⟩) (L := g.len) (k := g.c.cur) (.br (g.len + 2)) (.inr (by show _ ≤ c10.cur; omega)) (by
    intro j hj; rw [List.mem_singleton.1 hj]; omega))
  have fn11 := fn10.putTerm (.br (g.len + 2)) (P' := fun i => i = c7.cur ∨ i = c10.cur) (fun _ h => .inl h) (fun _ => .inr rfl)
  have t11 : termAt (c10.blocks.modify c10.cur (putTerm (.br (g.len + 2)))) c10.cur = some (.br (g.len + 2)) := termAt_put lt10
  have t11' : termAt (c10.blocks.modify c10.cur (putTerm (.br (g.len + 2)))) c7.cur = some (.br (g.len + 2)) := by
    rw [termAt_putTerm_ne (by omega)]; exact t10
  obind hc u12 c12 h12
  cases h12
  have i12 := i11.move _ fn11.lt (.inr fn11.term)
  have x12 := x11.trans (Low.move (m := g.len + 2))
  cases hc
  -- the phi instruction
  have hphi : PhiOk G10 (c10.blocks.modify c10.cur (putTerm (.br (g.len + 2)))) (g.len + 2) (g.len + 2) 0 tv c7.cur ev c10.cur :=
    ⟨rfl, fn11.k, kt10, k10, by omega, by omega, by omega, t11', t11, fn11.pred, putTerm_le.vout (fun _ h => h) vt10, putTerm_le.vout (fun _ h => h) v10⟩
  have hcore := i12.core.emit c10.nextReg (.phi tv c7.cur ev c10.cur) (fun h => absurd trivial h) (by
    rintro x b y b' e; cases e; exact ⟨fn11.insts, hphi⟩)
  obtain ⟨i13, l13⟩ := i12.addInst c10.nextReg (.phi tv c7.cur ev c10.cur) (c10.nextReg + 1) hcore
  have x13 := x12.trans (l13.low (L := g.len) (Nat.le_trans (by omega) (Nat.le_of_lt fn11.lt)) (.inr (by show g.len ≤ g.len + 2; omega)))
  refine ⟨G10, i13, ⟨x13.le, x13.keep, x13.K, x13.D, x13.edges, .inr ⟨by show g.len ≤ g.len + 2; omega, fn11.k⟩, l13.lt, fun a ha => .inl ((fn11.d a).2 ha)⟩, ?_⟩
  intro a e
  cases e
  obtain ⟨B, hB, hm⟩ := out_addInst (g := ⟨{ c10 with blocks := c10.blocks.modify c10.cur (putTerm (.br (g.len + 2))), cur := g.len + 2 }, G10⟩)
    (r := c10.nextReg) (i := .phi tv c7.cur ev c10.cur) fn11.lt
  exact .inr (.inr ⟨B, _, hB, hm⟩)

theorem genL_cond (c t e : Ex) : genL (.cond c t e) = (do
    let v ← genL c
    let cond ← rval v
    let v ← condCode cond (genL t >>= rval) (genL e >>= rval)
    pure (v, false)) := by
  simp only [genL, condCode, M.bind_assoc']

mutual
theorem XE.genL : ∀ (e : Ex) (g : GS), XE g (genL e) LOK
  | .num _, _ => XE.pure _ .const
  | .str _, _ => XE.bind (XE.genStr _) fun a c1 h1 ha => XE.pure _ ha
  | .var x, _ => XE.genVar x
  | .paren e, n => XE.bind (XE.genL e n) fun a c1 h1 ha => XE.bind (XE.rval _ ha) fun b c2 h2 hb => XE.pure _ hb
  | .index a i, n => XE.bind (XE.genL a n) fun v c1 h1 hv => XE.bind (XE.rval _ hv) fun b c2 h2 hb => XE.bind (XE.emitV _ id (all1 hb)) fun p c3 h3 hp =>
      XE.bind (XE.genL i c3) fun w c4 h4 hw => XE.bind (XE.rval _ hw) fun w' c5 h5 hw' => XE.bind (XE.emitV _ id (all2 (by vcarry) hw')) fun r c6 h6 hr =>
      XE.pure _ hr
  | .callName f as, n => XE.bind (XE.genCallee f) fun v c1 h1 hv => XE.bind (XE.rval _ hv) fun b c2 h2 hb => XE.bind (XE.genArgs as c2) fun vs c3 h3 hvs =>
      XE.bind (XE.genCall _ _ (by vcarry) hvs) fun r c4 h4 hr => XE.pure _ hr
  | .call f as, n => XE.bind (XE.genL f n) fun v c1 h1 hv => XE.bind (XE.rval _ hv) fun b c2 h2 hb => XE.bind (XE.genArgs as c2) fun vs c3 h3 hvs =>
      XE.bind (XE.genCall _ _ (by vcarry) hvs) fun r c4 h4 hr => XE.pure _ hr
  | .post _ e, n => XE.bind (XE.genL e n) fun v c1 h1 hv => XE.bind (XE.needLval _ hv) fun b c2 h2 hb => XE.bind (XE.genPostfix _ _ hb) fun r c3 h3 hr =>
      XE.pure _ hr
  | .pre _ e, n => XE.bind (XE.genL e n) fun v c1 h1 hv => XE.bind (XE.needLval _ hv) fun b c2 h2 hb => XE.bind (XE.genPrefix _ _ hb) fun r c3 h3 hr =>
      XE.pure _ (h3.va hb)
  | .not e, n => XE.bind (XE.genL e n) fun v c1 h1 hv => XE.bind (XE.bind (XE.rval _ hv) fun b c2 h2 hb => XE.cmpOp _ _ _ hb .const) fun r c3 h3 hr =>
      XE.pure _ hr
  | .neg e, n => XE.bind (XE.genL e n) fun v c1 h1 hv => XE.bind (XE.genNeg _ hv) fun r c3 h3 hr => XE.pure _ hr
  | .deref e, n => XE.bind (XE.genL e n) fun v c1 h1 hv => XE.bind (XE.genDeref _ hv) fun r c3 h3 hr => XE.pure _ hr
  | .addr e, n => XE.bind (XE.genL e n) fun v c1 h1 hv => XE.bind (XE.needLval _ hv) fun b c2 h2 hb => XE.bind (XE.emitV _ id (all1 hb)) fun r c3 h3 hr =>
      XE.pure _ hr
  | .bin _ l r, n => XE.bind (XE.genL l n) fun v c1 h1 hv => XE.bind (XE.rval _ hv) fun b c2 h2 hb => XE.bind (XE.genL r c2) fun w c3 h3 hw =>
      XE.bind (XE.rval _ hw) fun w' c4 h4 hw' => XE.bind (XE.genOp _ _ _ (by vcarry) hw') fun r c5 h5 hr => XE.pure _ hr
  | .cond cn t e, n => by
      rw [genL_cond]
      exact XE.bind (XE.genL cn n) fun v c1 h1 hv => XE.bind (XE.rval _ hv) fun b c2 h2 hb =>
        XE.bind (XE.condCode _ hb (fun g => XE.bind (XE.genL t g) fun _ _ _ h => XE.rval _ h) (fun g => XE.bind (XE.genL e g) fun _ _ _ h => XE.rval _ h))
          fun r c3 h3 hr => XE.pure _ hr
  | .assign _ l r, n => XE.bind (XE.genL l n) fun v c1 h1 hv => XE.bind (XE.needLval _ hv) fun b c2 h2 hb => XE.bind (XE.genL r c2) fun w c3 h3 hw =>
      XE.bind (XE.rval _ hw) fun w' c4 h4 hw' => XE.bind (XE.genAssign _ _ _ (by vcarry) hw') fun r c5 h5 hr => XE.pure _ hr

theorem XE.genArgs : ∀ (es : List Ex) (g : GS), XE g (genArgs es) (fun g vs => ∀ v ∈ vs, VA g v)
  | [], n => XE.pure _ nofun
  | e :: es, n => XE.bind (XE.genL e n) fun v c1 h1 hv => XE.bind (XE.rval _ hv) fun b c2 h2 hb => XE.bind (XE.genArgs es c2) fun vs c3 h3 hvs =>
      XE.pure _ (allCons (by vcarry) hvs)
end

theorem XE.genR (e : Ex) (g : GS) : XE g (genR e) VA := XE.bind (XE.genL e g) fun v c1 h1 hv => XE.rval _ hv
end
end Blang
