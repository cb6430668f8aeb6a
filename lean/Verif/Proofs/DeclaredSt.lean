import Verif.Proofs.DeclaredEx
import Verif.Proofs.Runs
/-
Definite declaration: statements and functions.
-/
namespace Blang
open Spec

/-! ### the end of the current block is not touched -/

def Stays {α : Type} (f : B α) : Prop := ∀ c a c', f c = .ok a c' → curTerm c ≠ none → curTerm c' ≠ none

section
variable {α β : Type}
theorem Stays.pure (a : α) : Stays (pure a : B α) := by intro c b c' h; simp at h; obtain ⟨_, rfl⟩ := h; exact id
theorem Stays.fail {s : String} : Stays (bfail s : B α) := by intro c b c' h; cases h
theorem Stays.bind {f : B α} {k : α → B β} (hf : Stays f) (hk : ∀ a, Stays (k a)) : Stays (f >>= k) := by
  intro c b c' h hc
  obind h a c1 h1
  exact hk a c1 b c' h (hf c a c1 h1 hc)
theorem Stays.ite {p : Prop} [Decidable p] {f k : B α} (hf : Stays f) (hk : Stays k) : Stays (if p then f else k) := by
  split
  · exact hf
  · exact hk
theorem Stays.get {k : CState → B β} (hk : ∀ c, Stays (k c)) : Stays ((M.get : B CState) >>= k) := by
  intro c b c' h
  rw [Blang.M.bind_ok (M.get_apply _)] at h
  exact hk c c b c' h
theorem curTerm_emitted (c : CState) (i : Inst) : curTerm (emitted c i) = curTerm c := by
  unfold curTerm emitted
  simp only [List.getElem?_modify, ↓reduceIte]
  cases c.blocks[c.cur]? <;> rfl
theorem Stays.emit (i : Inst) : Stays (emit i) := by
  intro c a c' h
  rw [emit_eq] at h; cases h
  rw [curTerm_emitted]; exact id
theorem Stays.same {f : B α} (hf : ∀ c a c', f c = .ok a c' → c'.blocks = c.blocks ∧ c'.cur = c.cur) : Stays f := by
  intro c a c' h
  obtain ⟨h1, h2⟩ := hf c a c' h
  unfold curTerm; rw [h1, h2]; exact id

theorem Stays.rval (v : LV) : Stays (rval v) := Stays.ite (Stays.emit _) (Stays.pure _)
theorem Stays.cmpOp (p : Pred) (x y : Val) : Stays (cmpOp p x y) := Stays.bind (Stays.emit _) fun _ => Stays.emit _
theorem Stays.genOp (o : Op) (x y : Val) : Stays (genOp o x y) := by
  cases o
  · exact Stays.emit _
  · exact Stays.cmpOp _ _ _
theorem Stays.needLval (v : LV) : Stays (needLval v) := Stays.ite (Stays.pure _) Stays.fail
theorem Stays.genCall (f : Val) (as : List Val) : Stays (genCall f as) := by
  unfold Blang.genCall
  split
  · exact Stays.ite (Stays.bind (Stays.emit _) fun _ => Stays.emit _) (Stays.emit _)
  · exact Stays.bind (Stays.emit _) fun _ => Stays.emit _
theorem Stays.genStr (s : List Char) : Stays (genStr s) :=
  Stays.bind (Stays.same fun c a c' h => by cases h; exact ⟨rfl, rfl⟩) fun _ => Stays.bind (Stays.emit _) fun _ => Stays.emit _
theorem Stays.genPostfix (o : BinOp) (v : Val) : Stays (genPostfix o v) :=
  Stays.bind (Stays.emit _) fun _ => Stays.bind (Stays.emit _) fun _ => Stays.bind (Stays.emit _) fun _ => Stays.pure _
theorem Stays.genPrefix (o : BinOp) (v : Val) : Stays (genPrefix o v) :=
  Stays.bind (Stays.emit _) fun _ => Stays.bind (Stays.emit _) fun _ => Stays.bind (Stays.emit _) fun _ => Stays.pure _
theorem Stays.genAssign (o : Option Op) (l r : Val) : Stays (genAssign o l r) := by
  unfold Blang.genAssign
  split
  · exact Stays.bind (Stays.emit _) fun _ => Stays.bind (Stays.genOp _ _ _) fun _ => Stays.bind (Stays.emit _) fun _ => Stays.pure _
  · exact Stays.bind (Stays.emit _) fun _ => Stays.pure _
theorem Stays.getOrDeclareFunction (x : Name) : Stays (getOrDeclareFunction x) := by
  refine Stays.same fun c a c' hc => ?_
  unfold Blang.getOrDeclareFunction at hc
  split at hc
  · cases hc; exact ⟨rfl, rfl⟩
  · split at hc <;> cases hc <;> exact ⟨rfl, rfl⟩
theorem Stays.getAddress (x : Name) : Stays (getAddress x) := by
  refine Stays.get fun c => ?_
  cases lookup x c.locals with
  | some v => exact Stays.pure _
  | none =>
    cases lookup x c.ctx with
    | none => exact Stays.pure _
    | some v =>
      cases v with
      | glob s t =>
        cases t with
        | i64 => exact Stays.pure _
        | arr n => exact Stays.bind (Stays.emit _) fun _ => Stays.pure _
        | bytes n => exact Stays.bind (Stays.emit _) fun _ => Stays.pure _
      | _ => exact Stays.pure _
theorem Stays.genVar (x : Name) : Stays (genVar x) := by
  refine Stays.bind (Stays.getAddress x) fun r => ?_
  cases r with
  | some a => exact Stays.pure _
  | none =>
    refine Stays.get fun c1 => ?_
    cases findFuncByName c1 x with
    | some fn => exact Stays.bind (Stays.emit _) fun _ => Stays.pure _
    | none =>
      refine Stays.bind (Stays.getOrDeclareFunction x) fun r => ?_
      cases r with
      | some fn => exact Stays.bind (Stays.emit _) fun _ => Stays.pure _
      | none => exact Stays.fail
theorem Stays.genCallee (x : Name) : Stays (genCallee x) := by
  refine Stays.get fun c => ?_
  cases findFuncByName c x with
  | some fn => exact Stays.pure _
  | none =>
    cases lookup x c.ctx with
    | some v => exact Stays.pure _
    | none =>
      refine Stays.bind (Stays.getOrDeclareFunction x) fun r => ?_
      cases r with
      | some fn => exact Stays.pure _
      | none => exact Stays.fail

mutual
theorem Stays.genL : ∀ e : Ex, e.branches = false → Stays (genL e)
  | .num v, _ => Stays.pure _
  | .str s, _ => Stays.bind (Stays.genStr _) fun _ => Stays.pure _
  | .var x, _ => Stays.genVar x
  | .paren e, h => Stays.bind (Stays.genL e (by simpa [Ex.branches] using h)) fun _ => Stays.bind (Stays.rval _) fun _ => Stays.pure _
  | .index a i, h => by
    simp only [Ex.branches, Bool.or_eq_false_iff] at h
    exact Stays.bind (Stays.genL a h.1) fun _ => Stays.bind (Stays.rval _) fun _ => Stays.bind (Stays.emit _) fun _ => Stays.bind (Stays.genL i h.2) fun _ =>
      Stays.bind (Stays.rval _) fun _ => Stays.bind (Stays.emit _) fun _ => Stays.pure _
  | .callName f as, h => by
    simp only [Ex.branches] at h
    exact Stays.bind (Stays.genCallee f) fun _ => Stays.bind (Stays.rval _) fun _ => Stays.bind (Stays.genArgs as h) fun _ =>
      Stays.bind (Stays.genCall _ _) fun _ => Stays.pure _
  | .call f as, h => by
    simp only [Ex.branches, Bool.or_eq_false_iff] at h
    exact Stays.bind (Stays.genL f h.1) fun _ => Stays.bind (Stays.rval _) fun _ => Stays.bind (Stays.genArgs as h.2) fun _ =>
      Stays.bind (Stays.genCall _ _) fun _ => Stays.pure _
  | .post d e, h => Stays.bind (Stays.genL e (by simpa [Ex.branches] using h)) fun _ => Stays.bind (Stays.needLval _) fun _ => Stays.bind (Stays.genPostfix _ _) fun _ => Stays.pure _
  | .pre d e, h => Stays.bind (Stays.genL e (by simpa [Ex.branches] using h)) fun _ => Stays.bind (Stays.needLval _) fun _ => Stays.bind (Stays.genPrefix _ _) fun _ => Stays.pure _
  | .not e, h => Stays.bind (Stays.genL e (by simpa [Ex.branches] using h)) fun _ => Stays.bind (Stays.bind (Stays.rval _) fun _ => Stays.cmpOp _ _ _) fun _ => Stays.pure _
  | .neg e, h => Stays.bind (Stays.genL e (by simpa [Ex.branches] using h)) fun _ => Stays.bind (Stays.bind (Stays.rval _) fun _ => Stays.emit _) fun _ => Stays.pure _
  | .deref e, h => Stays.bind (Stays.genL e (by simpa [Ex.branches] using h)) fun _ => Stays.bind (Stays.bind (Stays.rval _) fun _ => Stays.emit _) fun _ => Stays.pure _
  | .addr e, h => Stays.bind (Stays.genL e (by simpa [Ex.branches] using h)) fun _ => Stays.bind (Stays.needLval _) fun _ => Stays.bind (Stays.emit _) fun _ => Stays.pure _
  | .bin o l r, h => by
    simp only [Ex.branches, Bool.or_eq_false_iff] at h
    exact Stays.bind (Stays.genL l h.1) fun _ => Stays.bind (Stays.rval _) fun _ => Stays.bind (Stays.genL r h.2) fun _ =>
      Stays.bind (Stays.rval _) fun _ => Stays.bind (Stays.genOp _ _ _) fun _ => Stays.pure _
  | .cond c t e, h => by simp [Ex.branches] at h
  | .assign o l r, h => by
    simp only [Ex.branches, Bool.or_eq_false_iff] at h
    exact Stays.bind (Stays.genL l h.1) fun _ => Stays.bind (Stays.needLval _) fun _ => Stays.bind (Stays.genL r h.2) fun _ =>
      Stays.bind (Stays.rval _) fun _ => Stays.bind (Stays.genAssign _ _ _) fun _ => Stays.pure _
theorem Stays.genArgs : ∀ es : List Ex, Ex.branchesAny es = false → Stays (genArgs es)
  | [], _ => Stays.pure _
  | e :: es, h => by
    simp only [Ex.branchesAny, Bool.or_eq_false_iff] at h
    exact Stays.bind (Stays.genL e h.1) fun _ => Stays.bind (Stays.rval _) fun _ => Stays.bind (Stays.genArgs es h.2) fun _ => Stays.pure _
end

theorem Stays.genR (e : Ex) (h : e.branches = false) : Stays (genR e) := Stays.bind (Stays.genL e h) fun _ => Stays.rval _

theorem Stays.declareLocal (x : Name) : Stays (declareLocal x) :=
  Stays.bind (Stays.emit _) fun _ => Stays.bind (Stays.emit _) fun _ => Stays.same fun c a c' h => by cases h; exact ⟨rfl, rfl⟩
theorem Stays.declareLocalArray (x : Name) (n : W) : Stays (declareLocalArray x n) :=
  Stays.bind (Stays.emit _) fun _ => Stays.bind (Stays.emit _) fun _ => Stays.bind (Stays.emit _) fun _ => Stays.bind (Stays.emit _) fun _ =>
    Stays.bind (Stays.emit _) fun _ => Stays.same fun c a c' h => by cases h; exact ⟨rfl, rfl⟩
theorem Stays.declareAll : ∀ ds : List (Name × W), Stays (declareAll ds)
  | [] => Stays.pure _
  | d :: ds => Stays.bind (Stays.ite (Stays.declareLocal _) (Stays.declareLocalArray _ _)) fun _ => Stays.declareAll ds
theorem Stays.autoCheck : ∀ (ds : List (Name × Option Word)) (seen : List Name), Stays (autoCheck seen ds)
  | [], _ => Stays.pure _
  | d :: ds, _ => Stays.get fun _ => Stays.ite Stays.fail (Stays.autoCheck ds _)
theorem Stays.genExtrn : ∀ xs : List Name, Stays (genExtrn xs)
  | [] => Stays.pure _
  | x :: xs => Stays.bind (by
      intro c a c' h
      unfold Blang.declareExtrn at h
      split at h
      · cases h; exact id
      · split at h
        · cases h; exact id
        · cases h) fun _ => Stays.genExtrn xs
end

/-! ### declarations -/

section
variable {g : Gd} {c : CState} {D D' S : Names} {N : List Name}

/-- the register has been assigned in the current block -/
def Here (c : CState) (a : Nat) : Prop := ∃ B inst, c.blocks[c.cur]? = some B ∧ (a, inst) ∈ B.insts

theorem Here.vr {a : Nat} (h : Here c a) : VRd g c (.reg a) := by
  intro b e; cases e
  obtain ⟨B, inst, hB, hm⟩ := h
  exact ⟨B, hB, .inr (.inl ⟨inst, hm⟩)⟩

theorem Here.emitted {a : Nat} (h : Here c a) (i : Inst) : Here (emitted c i) a := by
  obtain ⟨B, inst, hB, hm⟩ := h
  exact ⟨_, inst, modify_eq hB, List.mem_append_left _ hm⟩

theorem VRd.noReg {v : Val} (h : NoReg v) : VRd g c v := fun a e => absurd e (h a)

theorem DI.emitted (h : DI g c) (i : Inst) (hv : ∀ v ∈ Inst.operands i, VRd g c v) (N : List Name) :
    DI g (emitted c i) ∧ Dn N g c g (Blang.emitted c i) ∧ (∀ x, Now g c x → Now g (Blang.emitted c i) x) ∧ Here (Blang.emitted c i) c.nextReg := by
  obtain ⟨h1, h2, h3, _⟩ := h.emit (N := N) i hv
  obtain ⟨B, hB⟩ := h.block
  exact ⟨h1, h2, h3, _, i, modify_eq hB, by simp⟩

theorem DI.local (h : DI g c) {x : Name} {a : Nat} (hx : lookup x c.locals = none) (ha : Here c a) :
    DI g { c with locals := insert x (.reg a) c.locals } ∧ Dn [x] g c g { c with locals := insert x (.reg a) c.locals } ∧
    (∀ y, Now g c y ∨ y = x → Now g { c with locals := insert x (.reg a) c.locals } y) := by
  have hl : ∀ y v, lookup y c.locals = some v → lookup y (insert x (.reg a) c.locals) = some v := by
    intro y v hy
    rw [lookup_insert_ne]
    · exact hy
    · rintro rfl; rw [hx] at hy; cases hy
  refine ⟨⟨h.lt, h.reg, ?_, ?_, ?_, h.labels, h.fresh, h.start, h.ctx, h.funs⟩,
    ⟨Nat.le_refl _, fun _ _ => rfl, fun _ _ => rfl, hl, ?_, Nat.le_refl _, fun _ h => h, fun _ _ h => h⟩, ?_⟩
  · intro i B k r inst hB hk b hb; exact (h.ops i B k r inst hB hk b hb).mono (fun _ h => h) (fun _ h => h) hl rfl
  · intro i B t hB hk b hb; exact (h.tops i B t hB hk b hb).mono (fun _ h => h) (fun _ h => h) hl rfl
  · intro i B t hB hk j hj
    obtain ⟨e1, e2⟩ := h.edges i B t hB hk j hj
    exact ⟨e1, fun y hy => (e2 y hy).imp id fun q => q.mono (fun _ h => h) hl⟩
  · intro y v hy
    rcases lookup_insert_or' hy with ⟨_, rfl⟩ | hy
    · exact .inr (List.mem_singleton_self _)
    · exact .inl hy
  · rintro y ((q | ⟨B, hB, q⟩) | rfl)
    · exact .inl q
    · exact .inr ⟨B, hB, q.mono (fun _ h => h) hl⟩
    · obtain ⟨B, inst, hB, hm⟩ := ha
      exact .inr ⟨B, hB, a, inst, by show lookup y (insert y _ _) = _; rw [lookup_insert, if_pos rfl], hm⟩

theorem XD.declareLocal (x : Name) (hx : lookup x c.locals = none) :
    XD g c D (fun y => D y ∨ y = x) [x] (declareLocal x) (fun _ _ _ => True) := by
  intro u c' hc hi hd
  obtain ⟨i1, d1, n1, e1⟩ := hi.emitted (.alloca .i64) nofun [x]
  obtain ⟨i2, d2, n2, e2⟩ := i1.emitted (.store (.const 0) (.reg c.nextReg)) (all2 (.noReg nofun) e1.vr) [x]
  have hx2 : lookup x (Blang.emitted (Blang.emitted c (.alloca .i64)) (.store (.const 0) (.reg c.nextReg))).locals = none := hx
  obtain ⟨i3, d3, n3⟩ := i2.local hx2 (e1.emitted (.store (.const 0) (.reg c.nextReg)))
  cases hc
  exact ⟨g, i3, (d1.trans d2 (N := [x]) (fun _ h => h) (fun _ h => h)).trans d3 (fun _ h => h) (fun _ h => h),
    fun y hy => n3 y (hy.imp (fun h => n2 y (n1 y (hd y h))) id), trivial⟩

theorem XD.declareLocalArray (x : Name) (n : W) (hx : lookup x c.locals = none) :
    XD g c D (fun y => D y ∨ y = x) [x] (declareLocalArray x n) (fun _ _ _ => True) := by
  intro u c' hc hi hd
  unfold Blang.declareLocalArray at hc
  generalize (if n = 0 then 1 else n) = n' at hc
  generalize Ty.arr (n' + 1).toNat = t at hc
  rw [M.bind_ok (emit_eq _ _), M.bind_ok (emit_eq _ _), M.bind_ok (emit_eq _ _), M.bind_ok (emit_eq _ _), M.bind_ok (emit_eq _ _)] at hc
  obtain ⟨i1, d1, n1, e1⟩ := hi.emitted (.alloca t) nofun [x]
  obtain ⟨i2, d2, n2, e2⟩ := i1.emitted (.gepField t (.reg c.nextReg) 1) (all1 e1.vr) [x]
  obtain ⟨i3, d3, n3, e3⟩ := i2.emitted (.ptrtoint (.reg (c.nextReg + 1))) (all1 e2.vr) [x]
  obtain ⟨i4, d4, n4, e4⟩ := i3.emitted (.gepField t (.reg c.nextReg) 0) (all1 (((e1.emitted _).emitted _).vr)) [x]
  obtain ⟨i5, d5, n5, e5⟩ := i4.emitted (.store (.reg (c.nextReg + 2)) (.reg (c.nextReg + 3))) (all2 (e3.emitted _).vr e4.vr) [x]
  obtain ⟨i6, d6, n6⟩ := i5.local (x := x) (by exact hx) (e4.emitted _)
  cases hc
  have d := ((((d1.trans d2 (N := [x]) (fun _ h => h) (fun _ h => h)).trans d3 (N := [x]) (fun _ h => h) (fun _ h => h)).trans d4 (N := [x])
    (fun _ h => h) (fun _ h => h)).trans d5 (N := [x]) (fun _ h => h) (fun _ h => h)).trans d6 (N := [x]) (fun _ h => h) (fun _ h => h)
  exact ⟨g, i6, d, fun y hy => n6 y (hy.imp (fun h => n5 y (n4 y (n3 y (n2 y (n1 y (hd y h)))))) id), trivial⟩

theorem XD.declareAll : ∀ (ds : List (Name × W)) (g : Gd) (c : CState) (D : Names), (∀ d ∈ ds, lookup d.1 c.locals = none) → (ds.map (·.1)).Nodup →
    XD g c D (fun y => D y ∨ y ∈ ds.map (·.1)) (ds.map (·.1)) (declareAll ds) (fun _ _ _ => True)
  | [], g, c, D, _, _ => (XD.pure _ trivial).within (E := D) (E' := D) .refl (fun x h => h.elim id (by simp))
  | d :: ds, g, c, D, hn, hd => by
    have hd := List.nodup_cons.1 hd
    have h0 := hn d (List.mem_cons_self)
    refine XD.bind (N1 := [d.1]) (N2 := ds.map (·.1)) (D1 := fun y => D y ∨ y = d.1)
      (XD.ite (fun _ => XD.declareLocal _ h0) (fun _ => XD.declareLocalArray _ _ h0)) (fun _ g1 c1 h1 _ => ?_) (by simp) (by intro x hx; exact List.mem_cons_of_mem _ hx)
    refine (XD.declareAll ds g1 c1 _ (fun d' hd' => ?_) hd.2).within .refl (fun x hx => ?_)
    · cases hl : lookup d'.1 c1.locals with
      | none => rfl
      | some v =>
        rcases h1.keys _ _ hl with h | h
        · rw [hn d' (List.mem_cons_of_mem _ hd')] at h; cases h
        · have e : d'.1 = d.1 := by simpa using h
          exact absurd (e ▸ List.mem_map_of_mem (f := (·.1)) hd' : d.1 ∈ ds.map (·.1)) hd.1
    · rcases hx with hx | hx
      · exact .inl (.inl hx)
      · rcases List.mem_cons.1 hx with rfl | hx
        · exact .inl (.inr rfl)
        · exact .inr hx

theorem XD.autoCheck (ds : List (Name × Option Word)) : XD g c D D N (autoCheck [] ds)
    (fun _ c' _ => (∀ d ∈ ds, lookup d.1 c'.locals = none) ∧ (ds.map (·.1)).Nodup) := by
  intro u c' hc hi hd
  obtain ⟨rfl, h1, h2⟩ := autoCheck_ok ds [] hc
  exact ⟨g, hi, .refl _ _ _, hd, fun d h => (h1 d h).2, h2⟩

theorem XD.genExtrn : ∀ (xs : List Name) (g : Gd) (c : CState), XD g c D D N (genExtrn xs) (fun _ _ _ => True)
  | [], g, c => XD.pure _ trivial
  | x :: xs, g, c => XD.bind (N1 := N) (N2 := N) (XD.declareExtrn x) fun _ g1 c1 h1 _ => XD.genExtrn xs g1 c1

/-- a condition on the result that does not depend on the ghost state -/
theorem XD.and {α : Type} {ok : Gd → CState → α → Prop} {f : B α} {q : CState → α → Prop} (hf : XD g c D D' N f ok) (hq : ∀ a c', f c = .ok a c' → q c' a) :
    XD g c D D' N f (fun g' c' a => ok g' c' a ∧ q c' a) := by
  intro a c' hc hi hd
  obtain ⟨g', i, l, d, o⟩ := hf a c' hc hi hd
  exact ⟨g', i, l, d, o, hq a c' hc⟩

/-! ### statements -/

theorem XD.brIfOpen (b : Nat) (hb : Bk S g c b) (hS : curTerm c = none → S.Within D) : XD g c D D N (brIfOpen b) (fun _ _ _ => True) :=
  XD.get fun _ => XD.ite (fun h => (XD.setTerm (.br b) nofun (tg1 hb (hS h))).imp fun _ _ _ _ => trivial) (fun _ => XD.pure _ trivial)

theorem XD.assume {α : Type} {ok : Gd → CState → α → Prop} {f : B α} (h : DI g c → XD g c D D' N f ok) : XD g c D D' N f ok :=
  fun a c' hc hi hd => h hi a c' hc hi hd

theorem XD.genLabel (l : Name) (hl : Named c l) (hS : curTerm c = none → (g.Lab l).Within D) : XD g c D (g.Lab l) N (genLabel l) (fun _ _ _ => True) := by
  refine XD.assume fun hi => ?_
  refine XD.bind (N1 := N) (N2 := N) ((XD.getOrCreateLabel l hl).and (q := fun c' _ => curTerm c' = none → curTerm c = none) ?_) fun b g1 c1 h1 hb => ?_
  · intro a c' hc
    unfold Blang.getOrCreateLabel at hc
    split at hc
    · cases hc; exact id
    · cases hc
      intro h
      unfold curTerm at h ⊢
      rw [List.getElem?_append_left hi.lt] at h
      exact h
  · exact XD.bind (N1 := N) (N2 := N) (N := N) (XD.brIfOpen b hb.1 fun h => hS (hb.2 h)) fun _ g2 c2 h2 _ => XD.setInsertPoint b (hb.1.dn h2)

theorem XD.genGoto (l : Name) (hl : Named c l) (hS : (g.Lab l).Within D) : XD g c D D' N (genGoto l) (fun _ _ _ => True) :=
  XD.bind (N1 := N) (N2 := N) (XD.getOrCreateLabel l hl) fun b g1 c1 h1 hb => XD.bind (N1 := N) (N2 := N) (XD.setTerm (.br b) nofun (tg1 hb hS)) fun _ g2 c2 h2 _ =>
    XD.get fun _ => XD.bind (N1 := N) (N2 := N) (XD.newBlock _ D') fun d g3 c3 h3 hd => XD.bind (N1 := N) (N2 := N) XD.freshLabelID fun _ g4 c4 h4 _ =>
    XD.setInsertPoint _ (hd.dn h4)

theorem XD.ifStart (v : Val) (E : Names) (hv : VD D c v) : XD g c D D N (ifStart v) (fun g c b => Bk D g c b.1 ∧ Bk D g c b.2.1 ∧ Bk E g c b.2.2) :=
  XD.bind (N1 := N) (N2 := N) XD.freshLabelID fun i g1 c1 h1 _ => XD.bind (N1 := N) (N2 := N) (XD.newBlock _ D) fun b1 g2 c2 h2 k1 =>
    XD.bind (N1 := N) (N2 := N) (XD.newBlock _ D) fun b2 g3 c3 h3 k2 => XD.bind (N1 := N) (N2 := N) (XD.newBlock _ E) fun b3 g4 c4 h4 k3 =>
    XD.bind (N1 := N) (N2 := N) (XD.emitV _ id (all2 (by dcarry) .const)) fun d g5 c5 h5 hd =>
    XD.bind (N1 := N) (N2 := N) (XD.setTerm _ (all1 hd) (tg2 (S := D) (S' := D) (by dcarry) .refl (by dcarry) .refl)) fun _ g6 c6 h6 _ =>
    XD.pure _ ⟨by dcarry, by dcarry, by dcarry⟩

theorem XD.whileStart (I E : Names) (hI : I.Within D) : XD g c D I N whileStart (fun g c b => Bk I g c b.1 ∧ Bk I g c b.2.1 ∧ Bk E g c b.2.2) :=
  XD.bind (N1 := N) (N2 := N) XD.freshLabelID fun i g1 c1 h1 _ => XD.bind (N1 := N) (N2 := N) (XD.newBlock _ I) fun b1 g2 c2 h2 k1 =>
    XD.bind (N1 := N) (N2 := N) (XD.newBlock _ I) fun b2 g3 c3 h3 k2 => XD.bind (N1 := N) (N2 := N) (XD.newBlock _ E) fun b3 g4 c4 h4 k3 =>
    XD.bind (N1 := N) (N2 := N) (XD.setTerm _ nofun (tg1 (S := I) (b := b1) (by dcarry) hI)) fun _ g6 c6 h6 _ =>
    XD.bind (N1 := N) (N2 := N) (XD.setInsertPoint (S := I) _ (by dcarry)) fun _ g7 c7 h7 _ => XD.pure _ ⟨by dcarry, by dcarry, by dcarry⟩

theorem XD.switchStart (id : Nat) (E : Names) : XD g c D (fun _ => True) N (switchStart id) (fun g c b => Bk D g c b.1 ∧ Bk E g c b.2) :=
  XD.bind (N1 := N) (N2 := N) (XD.newBlock _ (fun _ => True)) fun b1 g2 c2 h2 k1 =>
    XD.bind (N1 := N) (N2 := N) (XD.newBlock _ D) fun b2 g3 c3 h3 k2 => XD.bind (N1 := N) (N2 := N) (XD.newBlock _ E) fun b3 g4 c4 h4 k3 =>
    XD.bind (N1 := N) (N2 := N) (XD.setTerm _ nofun (tg1 (S := D) (b := b2) (by dcarry) .refl)) fun _ g6 c6 h6 _ =>
    XD.bind (N1 := N) (N2 := N) (XD.setInsertPoint (S := fun _ => True) _ (by dcarry)) fun _ g7 c7 h7 _ => XD.pure _ ⟨by dcarry, by dcarry⟩

/-- a new number, for a switch whose cases are going to have `K` -/
theorem XD.freshSwitch (K : Word → Names) : XD g c D D N Blang.freshLabelID (fun g' c' id => id < c'.labelID ∧ ∀ v, g'.Lab (caseName id v) = K v) := by
  intro id c' hc h hd
  cases hc
  let g' : Gd := ⟨g.A, fun l x => (∃ v, l = caseName c.labelID v ∧ K v x) ∨ ((∀ v, l ≠ caseName c.labelID v) ∧ g.Lab l x)⟩
  have e1 : ∀ v, g'.Lab (caseName c.labelID v) = K v := by
    intro v; funext x; apply propext
    constructor
    · rintro (⟨w, e, hk⟩ | ⟨hne, _⟩)
      · rw [(caseName_inj e).2]; exact hk
      · exact absurd rfl (hne v)
    · exact fun hk => .inl ⟨v, rfl, hk⟩
  have e2 : ∀ l, (∀ v, l ≠ caseName c.labelID v) → g'.Lab l = g.Lab l := by
    intro l hl; funext x; apply propext
    constructor
    · rintro (⟨w, e, hk⟩ | ⟨_, hx⟩)
      · exact absurd e (hl w)
      · exact hx
    · exact fun hx => .inr ⟨hl, hx⟩
  refine ⟨g', ⟨h.lt, h.reg, h.ops, h.tops, h.edges, ?_, ?_, h.start, h.ctx, h.funs⟩,
    ⟨Nat.le_refl _, fun _ _ => rfl, fun l hl => e2 l ?_, fun _ _ h => h, fun _ _ h => .inl h, Nat.le_succ _, fun _ h => h, fun _ _ h => h⟩, hd, Nat.lt_succ_self _, e1⟩
  · intro l j hj
    refine ⟨(h.labels l j hj).1, ?_⟩
    rw [e2 l, ← (h.labels l j hj).2]
    rintro v rfl
    rw [h.fresh _ v (Nat.le_refl _)] at hj; cases hj
  · intro id v hid; exact h.fresh id v (Nat.le_of_succ_le hid)
  · intro v e
    exact absurd (hl _ v e) (Nat.lt_irrefl _)

theorem XD.switchCases (id : Nat) : ∀ (vs : Cases) (g : Gd) (c : CState), id < c.labelID → (∀ v ∈ vs, (g.Lab (caseName id v)).Within D) →
    XD g c D D N (switchCases id vs) (fun g c ps => ∀ p ∈ ps, p.2 < c.blocks.length ∧ (g.A p.2).Within D)
  | [], g, c, _, _ => XD.pure _ nofun
  | v :: vs, g, c, hid, hv => XD.bind (N1 := N) (N2 := N) (XD.getOrCreateLabel _ (fun id' v' e => by rw [← (caseName_inj e).1]; exact hid)) fun b g1 c1 h1 hb =>
      XD.bind (N1 := N) (N2 := N) (XD.switchCases id vs g1 c1 (Nat.lt_of_lt_of_le hid h1.id) (fun w hw => by
        rw [h1.Lab]
        · exact hv w (List.mem_cons_of_mem _ hw)
        · intro id' v' e; rw [← (caseName_inj e).1]; exact hid)) fun ps g2 c2 h2 hps => XD.pure _ (by
      intro p hp
      rcases List.mem_cons.1 hp with rfl | hp
      · have := hb.dn h2
        exact ⟨this.1, by rw [this.2]; exact hv v List.mem_cons_self⟩
      · exact hps p hp)

theorem XD.switchTerm (id : Nat) (v : Val) (b : Nat) (vs : Cases) (hid : id < c.labelID) (hc : ∀ v ∈ vs, (g.Lab (caseName id v)).Within D)
    (hv : VD D c v) (hb : Bk S g c b) (hS : S.Within D) : XD g c D D N (switchTerm id v b vs) (fun _ _ _ => True) := by
  unfold Blang.switchTerm
  refine XD.ite (fun _ => XD.bind (N1 := N) (N2 := N) (XD.switchCases id vs g c hid hc) fun ps g1 c1 h1 hps => (XD.setTerm (.switch v b ps) (all1 (hv.dn h1)) ?_).imp fun _ _ _ _ => trivial)
    (fun _ => (XD.setTerm (.br b) nofun (tg1 hb hS)).imp fun _ _ _ _ => trivial)
  intro j hj
  rcases List.mem_cons.1 hj with rfl | hj
  · have := hb.dn h1
    exact ⟨this.1, by rw [this.2]; exact hS⟩
  · obtain ⟨p, hp, rfl⟩ := List.mem_map.1 hj
    exact hps p hp

/-- what surrounds a statement -/
structure SH (L : Ident → Names) (Ps : Names) (K : Word → Names) (sw : Option Nat) (V : List Ident) (g : Gd) (c : CState) : Prop where
  lab : ∀ l, NameOk l → g.Lab l = fun x => L l x ∨ Ps x
  sw : ∀ id, sw = some id → id < c.labelID ∧ ∀ v, g.Lab (caseName id v) = fun x => K v x ∨ Ps x
  keys : ∀ x v, lookup x c.locals = some v → x ∈ V ∨ Ps x

theorem named_ok {l : Name} (h : NameOk l) : Named c l := fun id v e => absurd e (nameOk_ne_case h id v)

variable {L : Ident → Names} {Ps : Names} {K : Word → Names} {sw : Option Nat} {V : List Ident}

theorem SH.dn {g' : Gd} {c' : CState} (h : SH L Ps K sw V g c) (l : Dn N g c g' c') : SH L Ps K sw (V ++ N) g' c' := by
  refine ⟨fun x hx => ?_, fun id hs => ?_, fun x v hv => ?_⟩
  · rw [l.Lab x (named_ok hx), h.lab x hx]
  · obtain ⟨h1, h2⟩ := h.sw id hs
    refine ⟨Nat.lt_of_lt_of_le h1 l.id, fun v => ?_⟩
    rw [l.Lab, h2]
    intro id' v' e; rw [← (caseName_inj e).1]; exact h1
  · rcases l.keys x v hv with hv | hv
    · exact (h.keys x v hv).imp (List.mem_append_left _) id
    · exact .inl (List.mem_append_right _ hv)

theorem SH.dn0 {g' : Gd} {c' : CState} (h : SH L Ps K sw V g c) (l : Dn [] g c g' c') : SH L Ps K sw V g' c' := by
  have := h.dn l; rwa [List.append_nil] at this

theorem SH.inner (h : SH L Ps K sw V g c) (K' : Word → Names) : SH L Ps K' none V g c := ⟨h.lab, nofun, h.keys⟩

theorem SH.okay (h : SH L Ps K sw V g c) {e : Ex} (he : e.Declared V D) : Okay e.vars c (fun x => D x ∨ Ps x) := by
  intro x hx v hv
  rcases h.keys x v hv with hV | hP
  · exact .inl (he x hx hV)
  · exact .inr hP

theorem up_within {Ps : Names} (h : D'.Within D) : Names.Within (fun x => D' x ∨ Ps x) (fun x => D x ∨ Ps x) := fun x hx => hx.imp (h x) id

theorem ne_of_flows {b : Bool} {c : CState} (h : b = false → curTerm c ≠ none) (h' : curTerm c = none) : b = true := by
  cases b
  · exact absurd h' (h rfl)
  · rfl

macro "scarry" : tactic => `(tactic| repeat (first | assumption | (refine SH.dn0 ?_ (by assumption))))

local notation "UP" D => fun x => D x ∨ Ps x

theorem XD.genSt : ∀ (s : St) (sw : Option Nat) (cs : Cases) (K : Word → Names) (V : List Ident) (r : Bool) (D D' : Names) (g : Gd) (c : CState),
    s.All NameOk → SH L Ps K sw V g c → s.Declared L K V r D D' → (r = false → curTerm c ≠ none) →
    XD g c (UP D) (UP D') s.autos (genSt s sw cs) (fun _ c' cs' => cs' = cs ++ s.cases ∧ (s.flows r = false → curTerm c' ≠ none))
  | .skip, sw, cs, K, V, r, D, D', g, c, hn, hs, hd, hr =>
    (XD.pure _ ⟨by simp [St.cases], hr⟩).within .refl (up_within hd)
  | .seq s t, sw, cs, K, V, r, D, D', g, c, hn, hs, ⟨D1, hd1, hd2⟩, hr => by
    refine XD.bind (N1 := s.autos) (N2 := t.autos) (XD.genSt s sw cs K V r D D1 g c hn.1 hs hd1 hr) (fun cs1 g1 c1 h1 o1 => ?_)
      (fun x hx => List.mem_append_left _ hx) (fun x hx => List.mem_append_right _ hx)
    exact (XD.genSt t sw cs1 K _ _ D1 D' g1 c1 hn.2 (hs.dn h1) hd2 o1.2).imp fun _ _ _ o => ⟨by rw [o.1, o1.1, List.append_assoc]; rfl, o.2⟩
  | .expr e, sw, cs, K, V, r, D, D', g, c, hn, hs, hd, hr => by
    have q := (XD.genR (g := g) e (hs.okay hd.1)).and (q := fun c' _ => (r || e.branches) = false → curTerm c' ≠ none) (fun a c' hc h => by
      rw [Bool.or_eq_false_iff] at h
      exact Stays.genR e h.2 _ _ _ hc (hr h.1))
    exact XD.bind (N1 := []) (N2 := []) (q.within .refl .refl) (fun _ g1 c1 h1 o => (XD.pure _ ⟨by simp [St.cases], o.2⟩).within .refl (up_within hd.2)) 
  | .ret none, sw, cs, K, V, r, D, D', g, c, hn, hs, hd, hr =>
    XD.bind (N1 := []) (N2 := []) (XD.setTerm (.ret (.const 0)) (all1 .const) nofun) (fun _ g1 c1 h1 o => (XD.pure _ ⟨by simp [St.cases], fun _ => o⟩).within .refl (up_within hd))
  | .ret (some e), sw, cs, K, V, r, D, D', g, c, hn, hs, hd, hr =>
    XD.bind (N1 := []) (N2 := []) (XD.genR (g := g) e (hs.okay hd.1)) fun v g1 c1 h1 hv =>
    XD.bind (N1 := []) (N2 := []) (XD.setTerm (.ret v) (all1 hv) nofun) (fun _ g1 c1 h1 o => (XD.pure _ ⟨by simp [St.cases], fun _ => o⟩).within .refl (up_within hd.2))
  | .auto ds, sw, cs, K, V, r, D, D', g, c, hn, hs, hd, hr => by
    have em : (ds.map autoSizeOf).map (·.1) = ds.map (·.1) := by rw [List.map_map]; rfl
    have e0 : (St.auto ds).autos = ds.map (·.1) := rfl
    rw [e0]
    refine XD.bind (N1 := ds.map (·.1)) (N2 := ds.map (·.1)) ((XD.autoCheck ds).and (q := fun c' _ => r = false → curTerm c' ≠ none) (fun a c' hc h => Stays.autoCheck _ _ _ _ _ hc (hr h)))
      fun _ g1 c1 h1 o => ?_
    refine XD.bind (N1 := ds.map (·.1)) (N2 := ds.map (·.1)) (D1 := UP D') ((XD.and (D' := UP D') (q := fun c' _ => r = false → curTerm c' ≠ none) (em ▸ ((XD.declareAll (ds.map autoSizeOf) g1 c1 (UP D) ?_ ?_).within .refl ?_))
      (fun a c' hc h => Stays.declareAll _ _ _ _ hc (o.2 h)))) fun _ g2 c2 h2 o2 => XD.pure _ ⟨by simp [St.cases], o2.2⟩
    · intro d hd
      obtain ⟨d', hd', rfl⟩ := List.mem_map.1 hd
      exact o.1.1 d' hd'
    · rw [em]; exact o.1.2
    · rw [em]
      rintro x (hx | hx)
      · exact (hd x hx).imp .inl id
      · exact .inl (.inr hx)
  | .extrn xs, sw, cs, K, V, r, D, D', g, c, hn, hs, hd, hr =>
    XD.bind (N1 := []) (N2 := []) ((XD.genExtrn xs g c).and (q := fun c' _ => r = false → curTerm c' ≠ none) (fun a c' hc h => Stays.genExtrn _ _ _ _ hc (hr h)))
      fun _ g1 c1 h1 o => (XD.pure _ ⟨by simp [St.cases], o.2⟩).within .refl (up_within hd)
  | .ifThen cn t, sw, cs, K, V, r, D, D', g, c, hn, hs, ⟨he, D1, ht, hf, hE⟩, hr => by
    have e0 : (St.ifThen cn t).autos = t.autos := rfl
    rw [e0]
    refine XD.bind (N1 := []) (N2 := t.autos) (XD.genR (g := g) cn (hs.okay he)) (fun v g1 c1 h1 hv => ?_) nofun
    refine XD.bind (N1 := []) (N2 := t.autos) (XD.ifStart v (UP D') hv) (fun bs g2 c2 h2 hb => ?_) nofun
    obtain ⟨l1, l2, l3⟩ := hb
    refine XD.bind (N1 := []) (N2 := t.autos) (XD.setInsertPoint _ l1) (fun _ g3 c3 h3 _ => ?_) nofun
    have hs3 : SH L Ps K sw V g3 c3 := by scarry
    refine XD.bind (N1 := t.autos) (N2 := []) (XD.genSt t none [] K V true D D1 g3 c3 hn.2 (hs3.inner K) ht nofun) (fun vs g4 c4 h4 o4 => ?_) (fun _ h => h) nofun
    refine XD.bind (N1 := []) (N2 := []) (XD.brIfOpen (S := UP D') _ (by dcarry) (fun h => up_within (hf (ne_of_flows o4.2 h)))) fun _ g5 c5 h5 _ => ?_
    refine XD.bind (N1 := []) (N2 := []) (XD.setInsertPoint (S := UP D) _ (by dcarry)) fun _ g6 c6 h6 _ => ?_
    refine XD.bind (N1 := []) (N2 := []) (XD.brIfOpen (S := UP D') _ (by dcarry) (fun h => up_within hE)) fun _ g7 c7 h7 _ => ?_
    exact XD.bind (N1 := []) (N2 := []) (XD.setInsertPoint (S := UP D') _ (by dcarry)) fun _ g8 c8 h8 _ => XD.pure _ ⟨by simp [St.cases], nofun⟩
  | .ifElse cn t e, sw, cs, K, V, r, D, D', g, c, hn, hs, ⟨he, D1, D2, ht, ht', hf, hf'⟩, hr => by
    have e0 : (St.ifElse cn t e).autos = t.autos ++ e.autos := rfl
    rw [e0]
    refine XD.bind (N1 := []) (N2 := t.autos ++ e.autos) (XD.genR (g := g) cn (hs.okay he)) (fun v g1 c1 h1 hv => ?_) nofun
    refine XD.bind (N1 := []) (N2 := t.autos ++ e.autos) (XD.ifStart v (UP D') hv) (fun bs g2 c2 h2 hb => ?_) nofun
    obtain ⟨l1, l2, l3⟩ := hb
    refine XD.bind (N1 := []) (N2 := t.autos ++ e.autos) (XD.setInsertPoint _ l1) (fun _ g3 c3 h3 _ => ?_) nofun
    have hs3 : SH L Ps K sw V g3 c3 := by scarry
    refine XD.bind (N1 := t.autos) (N2 := e.autos) (XD.genSt t none [] K V true D D1 g3 c3 hn.2.1 (hs3.inner K) ht nofun) (fun vs g4 c4 h4 o4 => ?_)
      (fun x hx => List.mem_append_left _ hx) (fun x hx => List.mem_append_right _ hx)
    have hs4 := hs3.dn h4
    refine XD.bind (N1 := []) (N2 := e.autos) (XD.brIfOpen (S := UP D') _ (by dcarry) (fun h => up_within (hf (ne_of_flows o4.2 h)))) (fun _ g5 c5 h5 _ => ?_) nofun
    refine XD.bind (N1 := []) (N2 := e.autos) (XD.setInsertPoint (S := UP D) _ (by dcarry)) (fun _ g6 c6 h6 _ => ?_) nofun
    have hs6 : SH L Ps K sw (V ++ t.autos) g6 c6 := by scarry
    refine XD.bind (N1 := e.autos) (N2 := []) (XD.genSt e none [] K _ true D D2 g6 c6 hn.2.2 (hs6.inner K) ht' nofun) (fun vs g7 c7 h7 o7 => ?_) (fun _ h => h) nofun
    refine XD.bind (N1 := []) (N2 := []) (XD.brIfOpen (S := UP D') _ (by dcarry) (fun h => up_within (hf' (ne_of_flows o7.2 h)))) fun _ g8 c8 h8 _ => ?_
    exact XD.bind (N1 := []) (N2 := []) (XD.setInsertPoint (S := UP D') _ (by dcarry)) fun _ g9 c9 h9 _ => XD.pure _ ⟨by simp [St.cases], nofun⟩
  | .while cn b, sw, cs, K, V, r, D, D', g, c, hn, hs, ⟨I, D1, hI, he, hb', hf, hE⟩, hr => by
    have e0 : (St.while cn b).autos = b.autos := rfl
    rw [e0]
    refine XD.bind (N1 := []) (N2 := b.autos) (XD.whileStart (UP I) (UP D') (up_within hI)) (fun bs g1 c1 h1 hb => ?_) nofun
    obtain ⟨l1, l2, l3⟩ := hb
    have hs1 := hs.dn0 h1
    refine XD.bind (N1 := []) (N2 := b.autos) (XD.genR (g := g1) cn (hs1.okay he)) (fun v g2 c2 h2 hv => ?_) nofun
    refine XD.bind (N1 := []) (N2 := b.autos) (XD.emitV _ id (all2 hv .const)) (fun d g3 c3 h3 hd3 => ?_) nofun
    refine XD.bind (N1 := []) (N2 := b.autos) (XD.setTerm (.condbr d bs.2.1 bs.2.2) (all1 hd3) (tg2 (S := UP I) (S' := UP D') (by dcarry) .refl (by dcarry) (up_within hE)))
      (fun _ g4 c4 h4 _ => ?_) nofun
    refine XD.bind (N1 := []) (N2 := b.autos) (XD.setInsertPoint (S := UP I) _ (by dcarry)) (fun _ g5 c5 h5 _ => ?_) nofun
    have hs5 : SH L Ps K sw V g5 c5 := by scarry
    refine XD.bind (N1 := b.autos) (N2 := []) (XD.genSt b none [] K V true I D1 g5 c5 hn.2 (hs5.inner K) hb' nofun) (fun vs g6 c6 h6 o6 => ?_) (fun _ h => h) nofun
    refine XD.bind (N1 := []) (N2 := []) (XD.brIfOpen (S := UP I) _ (by dcarry) (fun h => up_within (hf (ne_of_flows o6.2 h)))) fun _ g7 c7 h7 _ => ?_
    exact XD.bind (N1 := []) (N2 := []) (XD.setInsertPoint (S := UP D') _ (by dcarry)) fun _ g8 c8 h8 _ => XD.pure _ ⟨by simp [St.cases], nofun⟩
  | .switch e b, sw, cs, K, V, r, D, D', g, c, hn, hs, ⟨he, K', D1, hK, hb', hf, hE⟩, hr => by
    have e0 : (St.switch e b).autos = b.autos := rfl
    rw [e0]
    refine XD.bind (N1 := []) (N2 := b.autos) (XD.freshSwitch (fun v => UP (K' v))) (fun id g1 c1 h1 hid => ?_) nofun
    have hs1 : SH L Ps K' (some id) V g1 c1 := ⟨(hs.dn0 h1).lab, fun id' e => by cases e; exact hid, (hs.dn0 h1).keys⟩
    refine XD.bind (N1 := []) (N2 := b.autos) (XD.genR (g := g1) e (hs1.okay he)) (fun v g2 c2 h2 hv => ?_) nofun
    refine XD.bind (N1 := []) (N2 := b.autos) (XD.switchStart id (UP D')) (fun bs g3 c3 h3 hb => ?_) nofun
    obtain ⟨l1, l2⟩ := hb
    have hs3 : SH L Ps K' (some id) V g3 c3 := (hs1.dn0 h2).dn0 h3
    refine XD.bind (N1 := b.autos) (N2 := []) ((XD.genSt b (some id) [] K' V true (fun _ => True) D1 g3 c3 hn.2 hs3 hb' nofun).within (fun _ _ => trivial) .refl)
      (fun vs g4 c4 h4 o4 => ?_) (fun _ h => h) nofun
    have hs4 := hs3.dn h4
    refine XD.bind (N1 := []) (N2 := []) (XD.brIfOpen (S := UP D') _ (by dcarry) (fun h => up_within (hf (ne_of_flows o4.2 h)))) fun _ g5 c5 h5 _ => ?_
    refine XD.bind (N1 := []) (N2 := []) (XD.setInsertPoint (S := UP D) _ (by dcarry)) fun _ g6 c6 h6 _ => ?_
    have hs6 : SH L Ps K' (some id) (V ++ b.autos) g6 c6 := by scarry
    obtain ⟨i1, i2⟩ := hs6.sw id rfl
    refine XD.bind (N1 := []) (N2 := []) (XD.switchTerm (S := UP D') id v _ vs i1 (fun w hw => ?_) (by dcarry) (by dcarry) (up_within hE)) fun _ g7 c7 h7 _ => ?_
    · rw [i2]
      rw [o4.1] at hw
      exact up_within (hK w (by simpa using hw))
    exact XD.bind (N1 := []) (N2 := []) (XD.setInsertPoint (S := UP D') _ (by dcarry)) fun _ g8 c8 h8 _ => XD.pure _ ⟨by simp [St.cases], nofun⟩
  | .case v s, none, cs, K, V, r, D, D', g, c, hn, hs, hd, hr => XD.fail
  | .case v s, some id, cs, K, V, r, D, D', g, c, hn, hs, ⟨h1, h2⟩, hr => by
    obtain ⟨i1, i2⟩ := hs.sw id rfl
    have e0 : (St.case v s).autos = s.autos := rfl
    rw [e0]
    have q := XD.genLabel (g := g) (c := c) (D := UP D) (N := []) (caseName id v) (fun id' v' e => by rw [← (caseName_inj e).1]; exact i1)
      (fun h => by rw [i2]; exact up_within (h1 (ne_of_flows hr h)))
    rw [i2] at q
    refine XD.bind (N1 := []) (N2 := s.autos) q (fun _ g1 c1 l1 _ => ?_) nofun
    exact (XD.genSt s (some id) _ K V true (K v) D' g1 c1 hn (hs.dn0 l1) h2 nofun).imp fun _ _ _ o => ⟨by rw [o.1, List.append_assoc]; rfl, o.2⟩
  | .label l s, sw, cs, K, V, r, D, D', g, c, hn, hs, ⟨h1, h2⟩, hr => by
    have e0 : (St.label l s).autos = s.autos := rfl
    rw [e0]
    have q := XD.genLabel (g := g) (c := c) (D := UP D) (N := []) l (named_ok hn.1) (fun h => by rw [hs.lab l hn.1]; exact up_within (h1 (ne_of_flows hr h)))
    rw [hs.lab l hn.1] at q
    refine XD.bind (N1 := []) (N2 := s.autos) q (fun _ g1 c1 l1 _ => ?_) nofun
    exact XD.genSt s sw cs K V true (L l) D' g1 c1 hn.2 (hs.dn0 l1) h2 nofun
  | .goto l, sw, cs, K, V, r, D, D', g, c, hn, hs, hd, hr =>
    XD.bind (N1 := []) (N2 := []) (XD.genGoto (D' := UP D') l (named_ok hn) (by rw [hs.lab l hn]; exact up_within hd)) fun _ g1 c1 h1 _ =>
      XD.pure _ ⟨by simp [St.cases], nofun⟩

end

/-! ### functions -/

/-- the state while the parameters are stored -/
structure PI (g : Gd) (c : CState) : Prop where
  di : DI g c
  keys : ∀ x v, lookup x c.locals = some v → ∃ a, v = .reg a ∧ Here c a

section
variable {g : Gd} {c c' : CState}

theorem PI.emitted (h : PI g c) (i : Inst) (hv : ∀ v ∈ Inst.operands i, VRd g c v) :
    PI g (emitted c i) ∧ Here (Blang.emitted c i) c.nextReg := by
  obtain ⟨h1, _, _, h4⟩ := h.di.emitted i hv []
  refine ⟨⟨h1, fun x v hx => ?_⟩, h4⟩
  obtain ⟨a, e, ha⟩ := h.keys x v hx
  exact ⟨a, e, ha.emitted i⟩

theorem PI.local (h : PI g c) (hA : ∀ i x, ¬ g.A i x) {x : Name} {a : Nat} (ha : Here c a) : PI g { c with locals := insert x (.reg a) c.locals } := by
  have hr : ∀ {i ls b}, Rdy g c i ls b → Rdy g { c with locals := insert x (.reg a) c.locals } i ls b := by
    rintro i ls b (q | q | ⟨y, _, q⟩)
    · exact .inl q
    · exact .inr (.inl q)
    · exact absurd q (hA _ _)
  have h0 := h.di
  refine ⟨⟨h0.lt, h0.reg, fun i B k r inst hB hk b hb => hr (h0.ops i B k r inst hB hk b hb), fun i B t hB hk b hb => hr (h0.tops i B t hB hk b hb),
    fun i B t hB hk j hj => ⟨(h0.edges i B t hB hk j hj).1, fun y hy => absurd hy (hA _ _)⟩, h0.labels, h0.fresh, h0.start, h0.ctx, h0.funs⟩, fun y v hy => ?_⟩
  rcases lookup_insert_or hy with rfl | hy
  · exact ⟨a, rfl, ha⟩
  · exact h.keys y v hy

theorem PI.func (h : PI g c) {x : Name} {v : Val} (hc : getOrCreateFunc x c = .ok v c') : PI g c' ∧ NoReg v ∧ ∀ a, Here c a → Here c' a := by
  unfold getOrCreateFunc at hc
  split at hc <;> cases hc
  · exact ⟨h, nofun, fun _ h => h⟩
  · obtain ⟨i, _, _⟩ := h.di.tables (N := []) (c' := newFunc c ⟨x, [[]], false, []⟩) rfl rfl rfl rfl rfl (Nat.le_refl _) h.di.ctx h.di.funs
    exact ⟨⟨i, h.keys⟩, nofun, fun _ h => h⟩

theorem PI.firstParam (h : PI g c) (hA : ∀ i x, ¬ g.A i x) {p : Name} {u : Unit} (hc : firstParam p c = .ok u c') : PI g c' := by
  obtain ⟨i1, e1⟩ := h.emitted (.alloca .i64) nofun
  obtain ⟨i2, e2⟩ := i1.emitted (.store .param (.reg c.nextReg)) (all2 (.noReg nofun) e1.vr)
  cases hc
  exact i2.local hA (e1.emitted (.store .param (.reg c.nextReg)))

theorem PI.vaParams (hA : ∀ i x, ¬ g.A i x) {v : Nat} : ∀ (ps : List Name) {c c' : CState} {u : Unit}, PI g c → Here c v → vaParams (.reg v) ps c = .ok u c' →
    PI g c' ∧ Here c' v
  | [], c, c', u, h, hv, hc => by cases hc; exact ⟨h, hv⟩
  | p :: ps, c, c', u, h, hv, hc => by
    unfold Blang.vaParams at hc
    rw [M.bind_ok (emit_eq _ _), M.bind_ok (emit_eq _ _), M.bind_ok (emit_eq _ _)] at hc
    obtain ⟨i1, e1⟩ := h.emitted (.alloca .i64) nofun
    obtain ⟨i2, e2⟩ := i1.emitted (.vaarg (.reg v)) (all1 (hv.emitted _).vr)
    obtain ⟨i3, e3⟩ := i2.emitted (.store (.reg (c.nextReg + 1)) (.reg c.nextReg)) (all2 e2.vr (e1.emitted _).vr)
    have i4 := i3.local hA (x := p) ((e1.emitted (.vaarg (.reg v))).emitted (.store (.reg (c.nextReg + 1)) (.reg c.nextReg)))
    exact PI.vaParams hA ps i4 (((hv.emitted (.alloca .i64)).emitted (.vaarg (.reg v))).emitted (.store (.reg (c.nextReg + 1)) (.reg c.nextReg))) hc

theorem PI.paramCode (h : PI g c) (hA : ∀ i x, ¬ g.A i x) (ps : List Name) {u : Unit} (hc : paramCode ps c = .ok u c') : PI g c' := by
  unfold Blang.paramCode at hc
  split at hc
  · cases hc; exact h
  · exact h.firstParam hA hc
  · obind hc u1 c1 h1
    have i1 := h.firstParam hA h1
    rw [M.bind_ok (emit_eq _ _), M.bind_ok (emit_eq _ _)] at hc
    obtain ⟨i2, e2⟩ := i1.emitted (.alloca (.bytes 48)) nofun
    obtain ⟨i3, e3⟩ := i2.emitted (.gepField (.bytes 48) (.reg c1.nextReg) 0) (all1 e2.vr)
    obind hc f c4 h4
    obtain ⟨i4, n4, k4⟩ := i3.func h4
    have e4 := k4 _ e3
    rw [M.bind_ok (emit_eq _ _)] at hc
    obtain ⟨i5, _⟩ := i4.emitted (.call f [.reg (c1.nextReg + 1)]) (all2 (.noReg n4) e4.vr)
    have e5 := e4.emitted (.call f [.reg (c1.nextReg + 1)])
    obind hc u6 c6 h6
    obtain ⟨i6, e6⟩ := PI.vaParams hA _ i5 e5 h6
    obind hc f' c7 h7
    obtain ⟨i7, n7, k7⟩ := i6.func h7
    have e7 := k7 _ e6
    obtain ⟨i8, _⟩ := i7.emitted (.call f' [.reg (c1.nextReg + 1)]) (all2 (.noReg n7) e7.vr)
    cases hc
    exact i8

theorem FuncRun.declared {f : Name} {ps : List Name} {b : St} {c : CState} {bs : List Block} (r : FuncRun f ps b c bs)
    (hn : b.All NameOk) (hx : ∀ x v, lookup x r.c1.ctx = some v → NoReg v) (hf : ∀ x v, lookup x r.c1.functions = some v → NoReg v)
    (hd : b.DeclaredFirst) : ∃ g c', DI g c' ∧ c'.blocks = bs := by
  obtain ⟨L, K, D', hd⟩ := hd
  have hentry := r.entry
  have hB : ∀ (i : Nat) (B : Block), (entered (defFunc f ps) r.c1).blocks[i]? = some B → B = ⟨"entry".toList, [], none⟩ := by
    intro i B hB
    simp only [entered] at hB
    rw [List.getElem?_singleton] at hB
    split at hB <;> cases hB
    rfl
  let g0 : Gd := ⟨fun _ _ => False, fun l x => L l x ∨ ∃ v, lookup x r.c2.locals = some v⟩
  have p0 : PI g0 (entered (defFunc f ps) r.c1) := by
    refine ⟨⟨by simp [entered], ?_, ?_, ?_, ?_, ?_, ?_, fun _ h => h, hx, hf⟩, ?_⟩
    · intro i B h p hp; rw [hB i B h] at hp; cases hp
    · intro i B k r inst h hk; rw [hB i B h] at hk; simp at hk
    · intro i B t h hk; rw [hB i B h] at hk; cases hk
    · intro i B t h hk; rw [hB i B h] at hk; cases hk
    · intro l j hj; simp [entered, lookup] at hj
    · intro id v _; simp [entered, lookup]
    · intro x v hv; simp [entered, lookup] at hv
  have p1 := p0.paramCode (fun _ _ h => h) ps r.entry
  obtain ⟨g2, i2, _, _, _⟩ := XD.genSt (Ps := fun x => ∃ v, lookup x r.c2.locals = some v) (L := L) b none [] K [] true (fun _ => False) D' g0 r.c2 hn
    ⟨fun _ _ => rfl, nofun, fun x v hv => .inr ⟨v, hv⟩⟩ hd nofun _ _ r.body p1.di (by
      rintro x (h | ⟨v, hv⟩)
      · exact h.elim
      · obtain ⟨a, rfl, B, inst, hB, hm⟩ := p1.keys x v hv
        exact .inr ⟨B, hB, a, inst, hv, hm⟩)
  rw [r.blocks]
  unfold closed
  split
  · obtain ⟨g3, i3, _⟩ := XD.setTerm (N := []) (D := fun _ => False) (.ret (.const 0)) (all1 .const) nofun _ _ (setTerm_eq _ _) i2 (fun _ h => h.elim)
    exact ⟨g3, _, i3, rfl⟩
  · exact ⟨g2, _, i2, rfl⟩

theorem DI.path (h : DI g c) {done : List Nat} {i k : Nat} (p : Path c.blocks done i k) :
    (∀ x a, g.A i x → lookup x c.locals = some (.reg a) → a ∈ done) ∧
    ∀ (B : Block) (k' a : Nat) (inst : Inst), k' < k → c.blocks[i]? = some B → B.insts[k']? = some (a, inst) → a ∈ done := by
  induction p with
  | start => exact ⟨fun x a ha => absurd ha (h.start x), fun _ k' _ _ hk => by omega⟩
  | step p hB hk ih =>
    refine ⟨fun x a ha hl => List.mem_cons_of_mem _ (ih.1 x a ha hl), fun B' k' a inst' hk' hB' hi => ?_⟩
    rw [hB] at hB'; cases hB'
    rcases Nat.lt_succ_iff_lt_or_eq.1 hk' with hk' | rfl
    · exact List.mem_cons_of_mem _ (ih.2 _ k' a inst' hk' hB hi)
    · rw [hk] at hi; cases hi; exact List.mem_cons_self
  | jump p hB ht hj ih =>
    refine ⟨fun x a ha hl => ?_, fun _ k' _ _ hk => by omega⟩
    rcases (h.edges _ _ _ hB ht _ hj).2 x ha with hd | ⟨b, inst, hb, hm⟩
    · exact ih.1 x a hd hl
    · rw [hl] at hb; cases hb
      obtain ⟨k', hk'⟩ := List.mem_iff_getElem?.1 hm
      exact ih.2 _ k' a inst (List.getElem?_eq_some_iff.1 hk').1 hB hk'

theorem DI.computed (h : DI g c) {a : Nat} (ha : LocalAddr c.blocks a) : ComputedBeforeUse c.blocks a := by
  have key : ∀ {done i k B}, Path c.blocks done i k → c.blocks[i]? = some B → Rdy g c i (B.insts.take k) a → a ∈ done := by
    intro done i k B p hB hr
    rcases hr with q | ⟨inst, q⟩ | ⟨x, q1, q2⟩
    · exact absurd ha q.2
    · obtain ⟨k', hk'⟩ := List.mem_iff_getElem?.1 q
      obtain ⟨hlt, _⟩ := List.getElem?_eq_some_iff.1 hk'
      have hlt' : k' < k := by have := List.length_take_le k B.insts; omega
      rw [List.getElem?_take_of_lt hlt'] at hk'
      exact (h.path p).2 B k' a inst hlt' hB hk'
    · exact (h.path p).1 x a q2 q1
  intro done i k B p hB
  refine ⟨fun r inst hk hm => key p hB (h.ops i B k r inst hB hk a hm), ?_⟩
  rintro t rfl ht hm
  exact key p hB (by rw [List.take_length]; exact h.tops i B t hB ht a hm)

end

/-! ### declarations at the beginning -/

theorem autos_of_not {s : St} (h : ¬ s.hasAuto) : s.autos = [] := by
  induction s with
  | auto ds => exact absurd trivial h
  | seq s t ih1 ih2 | ifElse _ s t ih1 ih2 =>
    simp only [St.hasAuto, not_or] at h
    simp [St.autos, ih1 h.1, ih2 h.2]
  | ifThen _ s ih | «while» _ s ih | switch _ s ih | case _ s ih | label _ s ih => simpa [St.autos] using ih h
  | _ => rfl

theorem declared_plain {E : Names} : ∀ (s : St) (V : List Ident) (r : Bool) (D : Names), ¬ s.hasAuto → (∀ x ∈ V, E x) → E.Within D →
    s.Declared (fun _ => E) (fun _ => E) V r D E := by
  intro s
  induction s with
  | skip | extrn => intro V r D _ _ hE; exact hE
  | auto => intro V r D h; exact absurd trivial h
  | seq s t ih1 ih2 =>
    intro V r D h hV hE
    simp only [St.hasAuto, not_or] at h
    refine ⟨E, ih1 V r D h.1 hV hE, ih2 _ _ _ h.2 ?_ .refl⟩
    rw [autos_of_not h.1, List.append_nil]; exact hV
  | expr e => intro V r D _ hV hE; exact ⟨fun x _ hx => hE x (hV x hx), hE⟩
  | ret o =>
    intro V r D _ hV hE
    cases o with
    | none => exact hE
    | some e => exact ⟨fun x _ hx => hE x (hV x hx), hE⟩
  | ifThen cn t ih =>
    intro V r D h hV hE
    exact ⟨fun x _ hx => hE x (hV x hx), E, ih V true D h hV hE, fun _ => .refl, hE⟩
  | ifElse cn t e ih1 ih2 =>
    intro V r D h hV hE
    simp only [St.hasAuto, not_or] at h
    refine ⟨fun x _ hx => hE x (hV x hx), E, E, ih1 V true D h.1 hV hE, ih2 _ true D h.2 ?_ hE, fun _ => .refl, fun _ => .refl⟩
    rw [autos_of_not h.1, List.append_nil]; exact hV
  | «while» cn b ih =>
    intro V r D h hV hE
    exact ⟨E, E, hE, fun x _ hx => hV x hx, ih V true E h hV .refl, fun _ => .refl, .refl⟩
  | switch e b ih =>
    intro V r D h hV hE
    exact ⟨fun x _ hx => hE x (hV x hx), fun _ => E, E, fun _ _ => hE, ih V true _ h hV (fun _ _ => trivial), fun _ => .refl, hE⟩
  | case v s ih => intro V r D h hV hE; exact ⟨fun _ => hE, ih V true E h hV .refl⟩
  | label l s ih => intro V r D h hV hE; exact ⟨fun _ => hE, ih V true E h hV .refl⟩
  | goto l => intro V r D h hV hE; exact hE

theorem declared_decls {L : Ident → Names} {K : Word → Names} : ∀ (s : St) (V : List Ident) (r : Bool) (D D' : Names), s.Declares → (∀ x, D' x → D x ∨ x ∈ s.autos) →
    s.Declared L K V r D D' := by
  intro s
  induction s with
  | skip | extrn => intro V r D D' _ h x hx; exact (h x hx).resolve_right nofun
  | auto ds => intro V r D D' _ h; exact h
  | seq s t ih1 ih2 =>
    intro V r D D' hd h
    refine ⟨fun x => D x ∨ x ∈ s.autos, ih1 V r D _ hd.1 fun _ h => h, ih2 _ _ _ _ hd.2 fun x hx => ?_⟩
    rcases h x hx with h | h
    · exact .inl (.inl h)
    · rcases List.mem_append.1 h with h | h
      · exact .inl (.inr h)
      · exact .inr h
  | _ => intro V r D D' h; exact h.elim

theorem declared_first {E : Names} : ∀ (s : St) (V : List Ident) (r : Bool) (D : Names), s.AutosFirst → (∀ x, E x ↔ x ∈ V ∨ x ∈ s.autos) → (∀ x ∈ V, D x) →
    s.Declared (fun _ => E) (fun _ => E) V r D E := by
  intro s
  induction s with
  | seq s t ih1 ih2 =>
    intro V r D h hE hD
    have hE' : ∀ x, E x ↔ x ∈ V ++ s.autos ∨ x ∈ t.autos := fun x => by rw [hE x]; simp [St.autos, or_assoc]
    rcases h with ⟨h1, h2⟩ | ⟨h1, h2⟩
    · refine ⟨fun x => D x ∨ x ∈ s.autos, declared_decls s V r D _ h1 fun _ h => h, ih2 _ _ _ h2 hE' fun x hx => ?_⟩
      rcases List.mem_append.1 hx with hx | hx
      · exact .inl (hD x hx)
      · exact .inr hx
    · have e := autos_of_not h2
      refine ⟨E, ih1 V r D h1 (fun x => by rw [hE' x, e]; simp) hD, declared_plain t _ _ _ h2 (fun x hx => (hE' x).2 (.inl hx)) .refl⟩
  | _ =>
    intro V r D h hE hD
    rcases h with h | h
    · exact declared_decls _ V r D E h fun x hx => ((hE x).1 hx).imp (hD x) id
    · have e := autos_of_not h
      exact declared_plain _ V r D h (fun x hx => (hE x).2 (.inl hx)) fun x hx => by
        rcases (hE x).1 hx with hx | hx
        · exact hD x hx
        · rw [e] at hx; cases hx

/-- declarations at the beginning are declared first -/
theorem autosFirst_declared {b : St} (h : b.AutosFirst) : b.DeclaredFirst :=
  ⟨_, _, _, declared_first (E := fun x => x ∈ b.autos) b [] true _ h (fun x => by simp) nofun⟩

end Blang
