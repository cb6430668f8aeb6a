import Verif.Proofs.Declared
/-
Definite declaration: elementary operations and expressions.
-/
namespace Blang
open Spec

/-- block `b` exists and has been given `S` -/
def Bk (S : Names) (g : Gd) (c : CState) (b : Nat) : Prop := b < c.blocks.length ∧ g.A b = S

theorem Bk.dn {S : Names} {N : List Name} {g g' : Gd} {c c' : CState} {b : Nat} (h : Bk S g c b) (l : Dn N g c g' c') : Bk S g' c' b :=
  ⟨Nat.lt_of_lt_of_le h.1 l.len, by rw [l.A b h.1]; exact h.2⟩

/-- the name is not that of a case of a switch still to come -/
def Named (c : CState) (l : Name) : Prop := ∀ id v, l = caseName id v → id < c.labelID

theorem Named.dn {N : List Name} {g g' : Gd} {c c' : CState} {l : Name} (h : Named c l) (d : Dn N g c g' c') : Named c' l :=
  fun id v e => Nat.lt_of_lt_of_le (h id v e) d.id

section
variable {α β : Type} {g : Gd} {c : CState} {D D' D1 S : Names} {N : List Name}

theorem XD.newBlock (nm : Name) (S : Names) : XD g c D D N (newBlock nm) (Bk S) := by
  intro v c' hc h hd
  cases hc
  obtain ⟨h1, h2, h3, h4⟩ := h.append (N := N) nm c.labels S (fun _ _ h => h) (fun _ _ h => .inl h) h.fresh
  exact ⟨_, h1, h2, fun x hx => h3 x (hd x hx), by simp, h4⟩

theorem XD.getOrCreateLabel (l : Name) (hl : Named c l) : XD g c D D N (getOrCreateLabel l) (Bk (g.Lab l)) := by
  intro v c' hc h hd
  unfold Blang.getOrCreateLabel at hc
  cases he : lookup l c.labels with
  | some b => rw [he] at hc; cases hc; exact ⟨g, h, .refl _ _ _, hd, h.labels _ _ he⟩
  | none =>
    rw [he] at hc; cases hc
    obtain ⟨h1, h2, h3, h4⟩ := h.append (N := N) l (insert l c.blocks.length c.labels) (g.Lab l) (fun l' j hj => by
      rw [lookup_insert_ne]
      · exact hj
      · rintro rfl; rw [he] at hj; cases hj) (fun l' j hj => by
      by_cases e : l' = l
      · subst e; rw [lookup_insert, if_pos rfl] at hj; cases hj; exact .inr ⟨rfl, rfl⟩
      · rw [lookup_insert_ne (Ne.symm e)] at hj; exact .inl hj) (fun id v hid => by
        rw [lookup_insert_ne]
        · exact h.fresh id v hid
        · intro e; have := hl id v e; omega)
    exact ⟨_, h1, h2, fun x hx => h3 x (hd x hx), by simp, h4⟩

theorem XD.setInsertPoint (b : Nat) (hb : Bk S g c b) : XD g c D S N (setInsertPoint b) (fun _ _ _ => True) := by
  intro v c' hc h hd
  cases hc
  exact ⟨g, ⟨hb.1, h.reg, h.ops, h.tops, h.edges, h.labels, h.fresh, h.start, h.ctx, h.funs⟩,
    ⟨Nat.le_refl _, fun _ _ => rfl, fun _ _ => rfl, fun _ _ h => h, fun _ _ h => .inl h, Nat.le_refl _, fun _ h => h, fun _ _ h => h⟩,
    fun x hx => .inl (by show g.A b x; rw [hb.2]; exact hx), trivial⟩

theorem XD.getInsertBlock : XD g c D D N getInsertBlock (fun _ _ _ => True) := by
  intro v c' hc h hd
  cases hc; exact ⟨g, h, .refl _ _ _, hd, trivial⟩

theorem XD.freshLabelID : XD g c D D N freshLabelID (fun _ _ _ => True) :=
  XD.tables fun a c' hc h => by
    cases hc
    exact ⟨rfl, rfl, rfl, rfl, rfl, Nat.le_succ _, h.ctx, h.funs, trivial⟩

theorem XD.getOrDeclareFunction (x : Name) : XD g c D D N (getOrDeclareFunction x) (fun _ _ r => ∀ v, r = some v → NoReg v) :=
  XD.tables fun v c' hc h => by
    unfold Blang.getOrDeclareFunction at hc
    cases hl : lookup x c.functions with
    | some f =>
      rw [hl] at hc; cases hc
      exact ⟨rfl, rfl, rfl, rfl, rfl, Nat.le_refl _, h.ctx, h.funs, fun v hv => by cases hv; exact h.funs _ _ hl⟩
    | none =>
      rw [hl] at hc
      cases hx : lookup x c.ctx with
      | some _ => rw [hx] at hc; cases hc; exact ⟨rfl, rfl, rfl, rfl, rfl, Nat.le_refl _, h.ctx, h.funs, fun v hv => by cases hv⟩
      | none =>
        rw [hx] at hc; cases hc
        refine ⟨rfl, rfl, rfl, rfl, rfl, Nat.le_refl _, h.ctx, fun y w hw => ?_, fun v hv => by cases hv; nofun⟩
        rcases lookup_insert_or hw with rfl | hw
        · nofun
        · exact h.funs _ _ hw

theorem XD.createString (s : List Char) : XD g c D D N (createStringConstant s) (fun _ _ _ => True) :=
  XD.tables fun a c' hc h => by
    cases hc
    exact ⟨rfl, rfl, rfl, rfl, rfl, Nat.le_refl _, h.ctx, h.funs, trivial⟩

theorem XD.declareExtrn (x : Name) : XD g c D D N (declareExtrn x) (fun _ c' _ => c'.blocks = c.blocks ∧ c'.cur = c.cur) :=
  XD.tables fun v c' hc h => by
    unfold Blang.declareExtrn at hc
    have key : ∀ (d : GlobalDef) (y : Name) (w : Val), lookup y (insert x d.val c.ctx) = some w → NoReg w := by
      intro d y w hw
      rcases lookup_insert_or hw with rfl | hw'
      · nofun
      · exact h.ctx _ _ hw'
    split at hc
    · cases hc
      rename_i d _
      exact ⟨rfl, rfl, rfl, rfl, rfl, Nat.le_refl _, key _, h.funs, rfl, rfl⟩
    · split at hc
      · cases hc
        exact ⟨rfl, rfl, rfl, rfl, rfl, Nat.le_refl _, key _, h.funs, rfl, rfl⟩
      · cases hc

/-! ### expressions -/

macro "dcarry" : tactic => `(tactic| repeat (first | assumption | exact VD.const | (refine VD.dn ?_ (by assumption)) | (refine Bk.dn ?_ (by assumption))))

set_option quotPrecheck false in
local notation "LOK" => fun (D : Names) (_ : Gd) (c : CState) (v : LV) => VD D c v.1
local notation "VOK" => fun (D : Names) (_ : Gd) (c : CState) (v : Val) => VD D c v

theorem XD.rval (v : LV) (hv : VD D c v.1) : XD g c D D N (rval v) (VOK D) :=
  XD.ite (fun _ => XD.emitV _ id (all1 hv)) (fun _ => XD.pure _ hv)

theorem XD.cmpOp (p : Pred) (x y : Val) (hx : VD D c x) (hy : VD D c y) : XD g c D D N (cmpOp p x y) (VOK D) :=
  XD.bind (N1 := N) (N2 := N) (XD.emitV _ id (all2 hx hy)) fun _ _ _ _ ha => XD.emitV _ id (all1 ha)

theorem XD.genOp (o : Op) (x y : Val) (hx : VD D c x) (hy : VD D c y) : XD g c D D N (genOp o x y) (VOK D) := by
  cases o
  · exact XD.emitV _ id (all2 hx hy)
  · exact XD.cmpOp _ _ _ hx hy

theorem XD.needLval (v : LV) (hv : VD D c v.1) : XD g c D D N (needLval v) (VOK D) :=
  XD.ite (fun _ => XD.pure _ hv) (fun _ => XD.fail)

theorem XD.genCall (f : Val) (as : List Val) (hf : VD D c f) (ha : ∀ a ∈ as, VD D c a) : XD g c D D N (genCall f as) (VOK D) := by
  unfold Blang.genCall
  split
  · exact XD.ite (fun _ => XD.bind (N1 := N) (N2 := N) (XD.emitV _ id (all1 hf)) fun a g1 c1 h1 h => XD.emitV _ id (allCons h fun a hm => (ha a hm).dn h1))
      (fun _ => XD.emitV _ id (allCons hf ha))
  · exact XD.bind (N1 := N) (N2 := N) (XD.emitV _ id (all1 hf)) fun a g1 c1 h1 h => XD.emitV _ id (allCons h fun a hm => (ha a hm).dn h1)

theorem XD.genStr (s : List Char) : XD g c D D N (genStr s) (VOK D) :=
  XD.bind (N1 := N) (N2 := N) (XD.createString _) fun _ _ _ _ _ => XD.bind (N1 := N) (N2 := N) (XD.emitV _ id (all1 .glob)) fun _ _ _ _ ha => XD.emitV _ id (all1 ha)

theorem XD.genPostfix (o : BinOp) (v : Val) (hv : VD D c v) : XD g c D D N (genPostfix o v) (VOK D) :=
  XD.bind (N1 := N) (N2 := N) (XD.emitV _ id (all1 hv)) fun a g1 c1 h1 ha => XD.bind (N1 := N) (N2 := N) (XD.emitV _ id (all2 ha .const)) fun b g2 c2 h2 hb =>
    XD.bind (N1 := N) (N2 := N) (XD.emitV _ id (all2 hb (by dcarry))) fun d g3 c3 h3 _ => XD.pure _ (by dcarry)

theorem XD.genPrefix (o : BinOp) (v : Val) (hv : VD D c v) : XD g c D D N (genPrefix o v) (fun _ _ _ => True) :=
  XD.bind (N1 := N) (N2 := N) (XD.emitV _ id (all1 hv)) fun a g1 c1 h1 ha => XD.bind (N1 := N) (N2 := N) (XD.emitV _ id (all2 ha .const)) fun b g2 c2 h2 hb =>
    XD.bind (N1 := N) (N2 := N) (XD.emitV _ id (all2 hb (by dcarry))) fun d g3 c3 h3 _ => XD.pure _ trivial

theorem XD.genAssign (o : Option Op) (l r : Val) (hl : VD D c l) (hr : VD D c r) : XD g c D D N (genAssign o l r) (VOK D) := by
  unfold Blang.genAssign
  split
  · exact XD.bind (N1 := N) (N2 := N) (XD.emitV _ id (all1 hl)) fun a g1 c1 h1 ha => XD.bind (N1 := N) (N2 := N) (XD.genOp _ _ _ ha (by dcarry)) fun b g2 c2 h2 hb =>
      XD.bind (N1 := N) (N2 := N) (XD.emitV _ id (all2 hb (by dcarry))) fun d g3 c3 h3 _ => XD.pure _ (by dcarry)
  · exact XD.bind (N1 := N) (N2 := N) (XD.emitV _ id (all2 hr hl)) fun a g1 c1 h1 ha => XD.pure _ (by dcarry)

theorem XD.getAddress (x : Name) (hx : ∀ v, lookup x c.locals = some v → D x) : XD g c D D N (getAddress x) (fun _ c r => ∀ v, r = some v → VD D c v) := by
  refine XD.get fun hf => ?_
  cases hl : lookup x c.locals with
  | some v =>
    refine XD.pure _ (fun w hw => ?_)
    cases hw
    intro a e; subst e; exact .inr ⟨x, hx _ hl, hl⟩
  | none =>
    cases hx : lookup x c.ctx with
    | none => exact XD.pure _ (fun w hw => by cases hw)
    | some v =>
      have hn := hf.ctx _ _ hx
      cases v with
      | glob s t =>
        cases t with
        | i64 => exact XD.pure _ (fun w hw => by cases hw; exact .noReg hn)
        | arr n => exact XD.bind (N1 := N) (N2 := N) (XD.emitV _ id (all1 (.noReg hn))) fun a g1 c1 h1 ha => XD.pure _ (fun w hw => by cases hw; exact ha)
        | bytes n => exact XD.bind (N1 := N) (N2 := N) (XD.emitV _ id (all1 (.noReg hn))) fun a g1 c1 h1 ha => XD.pure _ (fun w hw => by cases hw; exact ha)
      | _ => exact XD.pure _ (fun w hw => by cases hw; exact .noReg hn)

theorem XD.genVar (x : Name) (hx : ∀ v, lookup x c.locals = some v → D x) : XD g c D D N (genVar x) (LOK D) := by
  refine XD.bind (N1 := N) (N2 := N) (XD.getAddress x hx) fun r g1 c1 h1 hr => ?_
  cases r with
  | some a => exact XD.pure _ (hr _ rfl)
  | none =>
    refine XD.get fun hf => ?_
    cases hx : findFuncByName c1 x with
    | some fn => exact XD.bind (N1 := N) (N2 := N) (XD.emitV _ id (all1 .func)) fun a g1 c1 h1 ha => XD.pure _ ha
    | none =>
      refine XD.bind (N1 := N) (N2 := N) (XD.getOrDeclareFunction x) fun r g2 c2 h2 hr => ?_
      cases r with
      | some fn => exact XD.bind (N1 := N) (N2 := N) (XD.emitV _ id (all1 (.noReg (hr _ rfl)))) fun a g1 c1 h1 ha => XD.pure _ ha
      | none => exact XD.fail

theorem XD.genCallee (x : Name) : XD g c D D N (genCallee x) (LOK D) := by
  refine XD.get fun hf => ?_
  cases hx : findFuncByName c x with
  | some fn => exact XD.pure _ .func
  | none =>
    cases hx : lookup x c.ctx with
    | some v => exact XD.pure _ (.noReg (hf.ctx _ _ hx))
    | none =>
      refine XD.bind (N1 := N) (N2 := N) (XD.getOrDeclareFunction x) fun r g2 c2 h2 hr => ?_
      cases r with
      | some fn => exact XD.pure _ (.noReg (hr _ rfl))
      | none => exact XD.fail

theorem XD.genNeg (v : LV) (hv : VD D c v.1) : XD g c D D N (genNeg v) (VOK D) :=
  XD.bind (N1 := N) (N2 := N) (XD.rval _ hv) fun _ _ _ _ hb => XD.emitV _ id (all2 .const hb)

theorem XD.genDeref (v : LV) (hv : VD D c v.1) : XD g c D D N (genDeref v) (VOK D) :=
  XD.bind (N1 := N) (N2 := N) (XD.rval _ hv) fun _ _ _ _ hb => XD.emitV _ id (all1 hb)

/-- targets that have been given no more than is available -/
theorem tg1 {b : Nat} (h : Bk S g c b) (hS : S.Within D) : ∀ j ∈ Term.targets (.br b), j < c.blocks.length ∧ (g.A j).Within D := by
  intro j hj; rw [List.mem_singleton.1 hj]; exact ⟨h.1, by rw [h.2]; exact hS⟩
theorem tg2 {S' : Names} {v : Val} {b b' : Nat} (h : Bk S g c b) (hS : S.Within D) (h' : Bk S' g c b') (hS' : S'.Within D) :
    ∀ j ∈ Term.targets (.condbr v b b'), j < c.blocks.length ∧ (g.A j).Within D := by
  intro j hj
  rcases List.mem_cons.1 hj with rfl | hj
  · exact ⟨h.1, by rw [h.2]; exact hS⟩
  · rw [List.mem_singleton.1 hj]; exact ⟨h'.1, by rw [h'.2]; exact hS'⟩

theorem _root_.Blang.Spec.Names.Within.refl {D : Names} : D.Within D := fun _ h => h

theorem XD.condStart (v : Val) (hv : VD D c v) : XD g c D D N (condStart v) (fun g c b => Bk D g c b.1 ∧ Bk D g c b.2.1 ∧ Bk D g c b.2.2) :=
  XD.bind (N1 := N) (N2 := N) XD.freshLabelID fun i g1 c1 h1 _ => XD.bind (N1 := N) (N2 := N) (XD.newBlock _ D) fun b1 g2 c2 h2 k1 =>
    XD.bind (N1 := N) (N2 := N) (XD.newBlock _ D) fun b2 g3 c3 h3 k2 => XD.bind (N1 := N) (N2 := N) (XD.newBlock _ D) fun b3 g4 c4 h4 k3 =>
    XD.bind (N1 := N) (N2 := N) (XD.emitV _ id (all2 (by dcarry) .const)) fun d g5 c5 h5 hd =>
    XD.bind (N1 := N) (N2 := N) (XD.setTerm _ (all1 hd) (tg2 (S := D) (S' := D) (by dcarry) .refl (by dcarry) .refl)) fun _ g6 c6 h6 _ =>
    XD.pure _ ⟨by dcarry, by dcarry, by dcarry⟩

theorem XD.condCode (v : Val) (hv : VD D c v) {mt me : B Val}
    (ht : ∀ g1 c1, Dn N g c g1 c1 → XD g1 c1 D D N mt (VOK D)) (he : ∀ g1 c1, Dn N g c g1 c1 → XD g1 c1 D D N me (VOK D)) :
    XD g c D D N (condCode v mt me) (VOK D) := by
  unfold Blang.condCode
  refine XD.bind (N1 := N) (N2 := N) (XD.condStart v hv) fun bs g1 c1 h1 hb => ?_
  obtain ⟨l1, l2, l3⟩ := hb
  refine XD.bind (N1 := N) (N2 := N) (XD.setInsertPoint _ l1) fun _ g2 c2 h2 _ => ?_
  refine XD.bind (N1 := N) (N2 := N) (ht g2 c2 (h1.trans h2 (N := N) (fun _ h => h) (fun _ h => h))) fun tv g3 c3 h3 ht3 => ?_
  refine XD.bind (N1 := N) (N2 := N) XD.getInsertBlock fun te g4 c4 h4 _ => ?_
  refine XD.bind (N1 := N) (N2 := N) (XD.setTerm _ nofun (tg1 (S := D) (by dcarry) .refl)) fun _ g5 c5 h5 _ => ?_
  refine XD.bind (N1 := N) (N2 := N) (XD.setInsertPoint (S := D) _ (by dcarry)) fun _ g6 c6 h6 _ => ?_
  have q := he g6 c6 (((((h1.trans h2 (N := N) (fun _ h => h) (fun _ h => h)).trans h3 (N := N) (fun _ h => h) (fun _ h => h)).trans h4 (N := N) (fun _ h => h) (fun _ h => h)).trans h5 (N := N) (fun _ h => h) (fun _ h => h)).trans h6 (N := N) (fun _ h => h) (fun _ h => h))
  refine XD.bind (N1 := N) (N2 := N) q fun ev g7 c7 h7 he7 => ?_
  refine XD.bind (N1 := N) (N2 := N) XD.getInsertBlock fun te g8 c8 h8 _ => ?_
  refine XD.bind (N1 := N) (N2 := N) (XD.setTerm _ nofun (tg1 (S := D) (by dcarry) .refl)) fun _ g9 c9 h9 _ => ?_
  refine XD.bind (N1 := N) (N2 := N) (XD.setInsertPoint (S := D) _ (by dcarry)) fun _ g10 c10 h10 _ => ?_
  exact XD.emitV _ id (all2 (by dcarry) (by dcarry))

/-- the names among the local variables have been declared -/
def Okay (xs : List Ident) (c : CState) (D : Names) : Prop := ∀ x ∈ xs, ∀ v, lookup x c.locals = some v → D x

theorem Okay.dn {xs : List Ident} {g' : Gd} {c' : CState} (h : Okay xs c D) (l : Dn [] g c g' c') : Okay xs c' D :=
  fun x hx v hv => h x hx v ((l.keys x v hv).resolve_right nofun)
theorem Okay.left {xs ys : List Ident} (h : Okay (xs ++ ys) c D) : Okay xs c D := fun x hx => h x (List.mem_append_left _ hx)
theorem Okay.right {xs ys : List Ident} (h : Okay (xs ++ ys) c D) : Okay ys c D := fun x hx => h x (List.mem_append_right _ hx)

macro "ocarry" : tactic => `(tactic| repeat (first | assumption | (refine Okay.dn ?_ (by assumption))))

mutual
theorem XD.genL : ∀ (e : Ex) (g : Gd) (c : CState) (D : Names), Okay e.vars c D → XD g c D D [] (genL e) (LOK D)
  | .num _, _, _, _, _ => XD.pure _ .const
  | .str _, _, _, _, _ => XD.bind (XD.genStr _) fun a g1 c1 h1 ha => XD.pure (N := []) _ ha
  | .var x, _, _, _, ho => XD.genVar x (ho x (by simp [Ex.vars]))
  | .paren e, g, c, D, ho => by
      simp only [Ex.vars] at ho
      exact XD.bind (XD.genL e g c D ho) fun a g1 c1 h1 ha => XD.bind (N1 := []) (N2 := []) (XD.rval _ ha) fun b g2 c2 h2 hb => XD.pure _ hb
  | .index a i, g, c, D, ho => by
      simp only [Ex.vars] at ho
      have ho1 := ho.left
      have ho2 := ho.right
      exact XD.bind (XD.genL a g c D ho1) fun v g1 c1 h1 hv => XD.bind (N1 := []) (N2 := []) (XD.rval _ hv) fun b g2 c2 h2 hb =>
        XD.bind (N1 := []) (N2 := []) (XD.emitV _ id (all1 hb)) fun p g3 c3 h3 hp =>
        XD.bind (N1 := []) (N2 := []) (XD.genL i g3 c3 D (by ocarry)) fun w g4 c4 h4 hw => XD.bind (N1 := []) (N2 := []) (XD.rval _ hw) fun w' g5 c5 h5 hw' =>
        XD.bind (N1 := []) (N2 := []) (XD.emitV _ id (all2 (by dcarry) hw')) fun r g6 c6 h6 hr => XD.pure _ hr
  | .callName f as, g, c, D, ho => by
      simp only [Ex.vars] at ho
      exact XD.bind (N1 := []) (N2 := []) (XD.genCallee f) fun v g1 c1 h1 hv => XD.bind (N1 := []) (N2 := []) (XD.rval _ hv) fun b g2 c2 h2 hb =>
        XD.bind (N1 := []) (N2 := []) (XD.genArgs as g2 c2 D (by ocarry)) fun vs g3 c3 h3 hvs =>
        XD.bind (N1 := []) (N2 := []) (XD.genCall _ _ (by dcarry) hvs) fun r g4 c4 h4 hr => XD.pure _ hr
  | .call f as, g, c, D, ho => by
      simp only [Ex.vars] at ho
      have ho1 := ho.left
      have ho2 := ho.right
      exact XD.bind (N1 := []) (N2 := []) (XD.genL f g c D ho1) fun v g1 c1 h1 hv => XD.bind (N1 := []) (N2 := []) (XD.rval _ hv) fun b g2 c2 h2 hb =>
        XD.bind (N1 := []) (N2 := []) (XD.genArgs as g2 c2 D (by ocarry)) fun vs g3 c3 h3 hvs =>
        XD.bind (N1 := []) (N2 := []) (XD.genCall _ _ (by dcarry) hvs) fun r g4 c4 h4 hr => XD.pure _ hr
  | .post _ e, g, c, D, ho => by
      simp only [Ex.vars] at ho
      exact XD.bind (XD.genL e g c D ho) fun v g1 c1 h1 hv => XD.bind (N1 := []) (N2 := []) (XD.needLval _ hv) fun b g2 c2 h2 hb =>
        XD.bind (N1 := []) (N2 := []) (XD.genPostfix _ _ hb) fun r g3 c3 h3 hr => XD.pure _ hr
  | .pre _ e, g, c, D, ho => by
      simp only [Ex.vars] at ho
      exact XD.bind (XD.genL e g c D ho) fun v g1 c1 h1 hv => XD.bind (N1 := []) (N2 := []) (XD.needLval _ hv) fun b g2 c2 h2 hb =>
        XD.bind (N1 := []) (N2 := []) (XD.genPrefix _ _ hb) fun r g3 c3 h3 hr => XD.pure _ (hb.dn h3)
  | .not e, g, c, D, ho => by
      simp only [Ex.vars] at ho
      exact XD.bind (XD.genL e g c D ho) fun v g1 c1 h1 hv => XD.bind (N1 := []) (N2 := []) (XD.bind (N1 := []) (N2 := []) (N := []) (XD.rval _ hv) fun b g2 c2 h2 hb => XD.cmpOp _ _ _ hb .const)
        fun r g3 c3 h3 hr => XD.pure _ hr
  | .neg e, g, c, D, ho => by
      simp only [Ex.vars] at ho
      exact XD.bind (XD.genL e g c D ho) fun v g1 c1 h1 hv => XD.bind (N1 := []) (N2 := []) (XD.genNeg _ hv) fun r g3 c3 h3 hr => XD.pure _ hr
  | .deref e, g, c, D, ho => by
      simp only [Ex.vars] at ho
      exact XD.bind (XD.genL e g c D ho) fun v g1 c1 h1 hv => XD.bind (N1 := []) (N2 := []) (XD.genDeref _ hv) fun r g3 c3 h3 hr => XD.pure _ hr
  | .addr e, g, c, D, ho => by
      simp only [Ex.vars] at ho
      exact XD.bind (XD.genL e g c D ho) fun v g1 c1 h1 hv => XD.bind (N1 := []) (N2 := []) (XD.needLval _ hv) fun b g2 c2 h2 hb =>
        XD.bind (N1 := []) (N2 := []) (XD.emitV _ id (all1 hb)) fun r g3 c3 h3 hr => XD.pure _ hr
  | .bin _ l r, g, c, D, ho => by
      simp only [Ex.vars] at ho
      have ho1 := ho.left
      have ho2 := ho.right
      exact XD.bind (XD.genL l g c D ho1) fun v g1 c1 h1 hv => XD.bind (N1 := []) (N2 := []) (XD.rval _ hv) fun b g2 c2 h2 hb =>
        XD.bind (N1 := []) (N2 := []) (XD.genL r g2 c2 D (by ocarry)) fun w g3 c3 h3 hw => XD.bind (N1 := []) (N2 := []) (XD.rval _ hw) fun w' g4 c4 h4 hw' =>
        XD.bind (N1 := []) (N2 := []) (XD.genOp _ _ _ (by dcarry) hw') fun r g5 c5 h5 hr => XD.pure _ hr
  | .cond cn t e, g, c, D, ho => by
      simp only [Ex.vars] at ho
      have ho1 := ho.left.left
      have ho2 := ho.left.right
      have ho3 := ho.right
      rw [genL_cond]
      exact XD.bind (XD.genL cn g c D ho1) fun v g1 c1 h1 hv => XD.bind (N1 := []) (N2 := []) (XD.rval _ hv) fun b g2 c2 h2 hb =>
        XD.bind (N1 := []) (N2 := []) (XD.condCode _ hb
          (fun g3 c3 h3 => XD.bind (N1 := []) (N2 := []) (XD.genL t g3 c3 D (by ocarry)) fun _ _ _ _ h => XD.rval _ h)
          (fun g3 c3 h3 => XD.bind (N1 := []) (N2 := []) (XD.genL e g3 c3 D (by ocarry)) fun _ _ _ _ h => XD.rval _ h))
          fun r g3 c3 h3 hr => XD.pure _ hr
  | .assign _ l r, g, c, D, ho => by
      simp only [Ex.vars] at ho
      have ho1 := ho.left
      have ho2 := ho.right
      exact XD.bind (XD.genL l g c D ho1) fun v g1 c1 h1 hv => XD.bind (N1 := []) (N2 := []) (XD.needLval _ hv) fun b g2 c2 h2 hb =>
        XD.bind (N1 := []) (N2 := []) (XD.genL r g2 c2 D (by ocarry)) fun w g3 c3 h3 hw =>
        XD.bind (N1 := []) (N2 := []) (XD.rval _ hw) fun w' g4 c4 h4 hw' => XD.bind (N1 := []) (N2 := []) (XD.genAssign _ _ _ (by dcarry) hw') fun r g5 c5 h5 hr => XD.pure _ hr

theorem XD.genArgs : ∀ (es : List Ex) (g : Gd) (c : CState) (D : Names), Okay (Ex.varsArgs es) c D → XD g c D D [] (genArgs es) (fun _ c vs => ∀ v ∈ vs, VD D c v)
  | [], g, c, D, ho => XD.pure _ nofun
  | e :: es, g, c, D, ho => by
      simp only [Ex.varsArgs] at ho
      have ho1 := ho.left
      have ho2 := ho.right
      exact XD.bind (XD.genL e g c D ho1) fun v g1 c1 h1 hv => XD.bind (N1 := []) (N2 := []) (XD.rval _ hv) fun b g2 c2 h2 hb =>
        XD.bind (N1 := []) (N2 := []) (XD.genArgs es g2 c2 D (by ocarry)) fun vs g3 c3 h3 hvs => XD.pure _ (allCons (by dcarry) hvs)
end

theorem XD.genR (e : Ex) (ho : Okay e.vars c D) : XD g c D D [] (genR e) (VOK D) :=
  XD.bind (XD.genL e g c D ho) fun v g1 c1 h1 hv => XD.rval _ hv

end
end Blang
