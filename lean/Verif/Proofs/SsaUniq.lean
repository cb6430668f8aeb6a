import Verif.Proofs.SsaStmt
/-
Every register is assigned once.
-/
namespace Blang
open Spec

theorem assigned_modify_term {bs : List Block} {k : Nat} {t : Term} : assigned (bs.modify k fun b => { b with term := some t }) = assigned bs := by
  induction bs generalizing k with
  | nil => cases k <;> rfl
  | cons B bs ih =>
    cases k with
    | zero => rfl
    | succ k => exact congrArg (B.insts.map (·.1) ++ ·) (ih (k := k))

theorem assigned_modify_inst {bs : List Block} {k r : Nat} {i : Inst} :
    assigned (bs.modify k fun b => { b with insts := b.insts ++ [(r, i)] }) = assigned bs ∨
    (assigned (bs.modify k fun b => { b with insts := b.insts ++ [(r, i)] })).Perm (r :: assigned bs) := by
  induction bs generalizing k with
  | nil => cases k <;> exact .inl rfl
  | cons B bs ih =>
    cases k with
    | zero =>
      right
      show ((B.insts ++ [(r, i)]).map (·.1) ++ assigned bs).Perm (r :: (B.insts.map (·.1) ++ assigned bs))
      rw [List.map_append, List.append_assoc]
      exact List.perm_middle
    | succ k =>
      rcases ih (k := k) with h | h
      · left; exact congrArg (B.insts.map (·.1) ++ ·) h
      · right
        show (B.insts.map (·.1) ++ assigned _).Perm (r :: (B.insts.map (·.1) ++ assigned bs))
        exact (h.append_left _).trans List.perm_middle

theorem assigned_append {bs : List Block} {nm : Name} : assigned (bs ++ [⟨nm, [], none⟩]) = assigned bs := by
  simp [assigned, List.flatMap_append]

structure UniqC (c : CState) : Prop where
  nodup : (assigned c.blocks).Nodup
  lt : ∀ r ∈ assigned c.blocks, r < c.nextReg

def UR (c c' : CState) : Prop := UniqC c → UniqC c'

theorem UR.of_eq {c c' : CState} (h : assigned c'.blocks = assigned c.blocks) (h' : c'.nextReg = c.nextReg) : UR c c' :=
  fun u => ⟨by rw [h]; exact u.nodup, by rw [h, h']; exact u.lt⟩

theorem UR.stable : SStable NameOk UR where
  refl c := id
  trans h1 h2 := fun u => h2 (h1 u)
  emit i c a c' h := by
    cases h
    intro u
    rcases assigned_modify_inst (bs := c.blocks) (k := c.cur) (r := c.nextReg) (i := i) with e | e
    · exact ⟨by show (assigned _).Nodup; rw [e]; exact u.nodup, by show ∀ r ∈ assigned _, r < c.nextReg + 1; rw [e]; exact fun r hr => Nat.lt_succ_of_lt (u.lt r hr)⟩
    · refine ⟨e.nodup_iff.2 (List.nodup_cons.2 ⟨fun h => Nat.lt_irrefl _ (u.lt _ h), u.nodup⟩), fun r hr => ?_⟩
      rcases List.mem_cons.1 (e.mem_iff.1 hr) with rfl | hr
      · exact Nat.lt_succ_self _
      · exact Nat.lt_succ_of_lt (u.lt r hr)
  setTerm t c a c' h := by cases h; exact .of_eq assigned_modify_term rfl
  newBlock n c a c' h := by cases h; exact .of_eq assigned_append rfl
  setInsertPoint n c a c' h := by cases h; exact .of_eq rfl rfl
  freshLabelID c a c' h := by cases h; exact .of_eq rfl rfl
  declFn c x v c' hP hf hx h := by
    unfold getOrDeclareFunction at h
    cases hl : lookup x c.functions with
    | some f => rw [hl] at h; cases h; exact .of_eq rfl rfl
    | none => rw [hl, hx] at h; cases h; exact .of_eq rfl rfl
  getOrCreateLabel n _ c a c' h := by
    unfold Blang.getOrCreateLabel at h
    cases hl : lookup n c.labels with
    | some b => rw [hl] at h; cases h; exact .of_eq rfl rfl
    | none => rw [hl] at h; cases h; exact .of_eq assigned_append rfl
  declareExtrn n _ c a c' h := by
    unfold Blang.declareExtrn at h
    split at h
    · cases h; exact .of_eq rfl rfl
    · split at h
      · cases h; exact .of_eq rfl rfl
      · cases h
  addLocal c k v _ := .of_eq rfl rfl
  createString s c a c' h := by cases h; exact .of_eq rfl rfl

theorem UR.getOrCreateFunc (x : Name) : Keeps UR (getOrCreateFunc x) := by
  intro c a c' h
  unfold Blang.getOrCreateFunc at h
  split at h <;> cases h <;> exact .of_eq rfl rfl

theorem FuncRun.uniq {f : Name} {ps : List Name} {b : St} {c : CState} {bs : List Block} (r : FuncRun f ps b c bs)
    (hp : ∀ p ∈ ps, NameOk p) (hb : b.All NameOk) : (assigned bs).Nodup := by
  have u0 : UniqC (entered (defFunc f ps) r.c1) := ⟨List.nodup_nil, nofun⟩
  have u1 := paramCode_keeps UR.stable.toQStable (UR.getOrCreateFunc _) (UR.getOrCreateFunc _) ps hp _ _ _ r.entry u0
  have u2 := UR.stable.genSt b none [] hb _ _ _ r.body u1
  rw [r.blocks]
  unfold closed
  split
  · rw [assigned_modify_term]; exact u2.nodup
  · exact u2.nodup

theorem nodup_fst {l : List (Nat × Inst)} (h : (l.map (·.1)).Nodup) {a : Nat} {i j : Inst} (hi : (a, i) ∈ l) (hj : (a, j) ∈ l) : i = j := by
  induction l with
  | nil => cases hi
  | cons p l ih =>
    rw [List.map_cons, List.nodup_cons] at h
    rcases List.mem_cons.1 hi with rfl | hi
    · rcases List.mem_cons.1 hj with e | hj
      · exact (congrArg (·.2) e).symm
      · exact absurd (List.mem_map_of_mem (f := (·.1)) hj) h.1
    · rcases List.mem_cons.1 hj with e | hj
      · rw [← e] at h; exact absurd (List.mem_map_of_mem (f := (·.1)) hi) h.1
      · exact ih h.2 hi hj

theorem assigned_unique {bs : List Block} (h : (assigned bs).Nodup) {a : Nat} {i j : Inst} {B B' : Block} (hB : B ∈ bs) (hB' : B' ∈ bs)
    (hi : (a, i) ∈ B.insts) (hj : (a, j) ∈ B'.insts) : i = j := by
  have e : assigned bs = (bs.flatMap (·.insts)).map (·.1) := by unfold assigned; rw [List.map_flatMap]
  rw [e] at h
  exact nodup_fst h (List.mem_flatMap.2 ⟨B, hB, hi⟩) (List.mem_flatMap.2 ⟨B', hB', hj⟩)

/-- with types and single assignment, the operands of phi instructions are not addresses -/
theorem phi_not_local {bs : List Block} (h : (assigned bs).Nodup) (ht : CodeTyped bs) {i a r : Nat} {inst : Inst} {B : Block} (hB : B ∈ bs) (hm : (r, inst) ∈ B.insts)
    (hp : PhiFrom i (.reg a) inst) : ¬ LocalAddr bs a := by
  rintro ⟨B', hB', j, hj, hl⟩
  have key : RegType bs a .word → False := by
    rintro ⟨B2, hB2, i2, hi2, e⟩
    rw [assigned_unique h hB2 hB' hi2 hj] at e
    cases j <;> first | exact hl.elim | skip
    · cases e
    · rename_i ty v _
      cases ty <;> cases e
  have t := (ht B hB).1 _ hm
  cases inst with
  | phi x b y b' =>
    rcases hp with ⟨_, rfl⟩ | ⟨_, rfl⟩
    · exact key t.1
    · exact key t.2
  | _ => exact hp.elim

end Blang
