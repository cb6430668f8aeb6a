import Verif.Proofs.Terminated
/-
A label that is the target of a `goto` and is not defined: its block gets no terminator.
-/
namespace Blang
open Spec

/-- the current block exists, labels have blocks of their own, and the block of the label `L`, if there
is one, is not written yet -/
structure Hang (L : Name) (c : CState) : Prop where
  cur : c.cur < c.blocks.length
  lab : LabOk c
  free : ∀ i, lookup L c.labels = some i → i ≠ c.cur ∧ ¬ Shut c i

/-- What code generation without the label `L` does. -/
structure UX (L : Name) (c c' : CState) : Prop where
  inv : Hang L c'
  len : c.blocks.length ≤ c'.blocks.length
  lab : ∀ l i, lookup l c.labels = some i → lookup l c'.labels = some i
  fresh : ∀ l i, lookup l c'.labels = some i → lookup l c.labels = some i ∨ c.blocks.length ≤ i

section
variable {L : Name} {a b c c' : CState}

theorem UX.refl (h : Hang L c) : UX L c c := ⟨h, Nat.le_refl _, fun _ _ h => h, fun _ _ h => .inl h⟩

theorem UX.then (h1 : UX L a b) (h2 : UX L b c) : UX L a c := by
  refine ⟨h2.inv, Nat.le_trans h1.len h2.len, fun l i h => h2.lab l i (h1.lab l i h), fun l i h => ?_⟩
  rcases h2.fresh l i h with e | e
  · exact h1.fresh l i e
  · exact .inr (Nat.le_trans h1.len e)

theorem UX.after (h1 : UX L a b) (h2 : UX L b c) : UX L a c := h1.then h2

theorem UX.same (h : Hang L c) (h1 : c'.blocks = c.blocks) (h2 : c'.cur = c.cur) (h3 : c'.labels = c.labels) : UX L c c' := by
  refine ⟨⟨by rw [h1, h2]; exact h.cur, ⟨by rw [h3]; exact h.lab.inj, by rw [h1, h3]; exact h.lab.lt⟩, ?_⟩, by rw [h1]; exact Nat.le_refl _,
    by rw [h3]; exact fun _ _ h => h, by rw [h3]; exact fun _ _ h => .inl h⟩
  intro i hi
  rw [h3] at hi
  obtain ⟨e1, e2⟩ := h.free i hi
  refine ⟨by rw [h2]; exact e1, ?_⟩
  rintro ⟨B, e3, e4⟩
  exact e2 ⟨B, by rw [← h1]; exact e3, e4⟩

theorem UX.modify {f : Block → Block} (h : Hang L c)
    (h1 : c'.blocks = c.blocks.modify c.cur f) (h2 : c'.cur = c.cur) (h3 : c'.labels = c.labels) : UX L c c' := by
  have hl : c'.blocks.length = c.blocks.length := by rw [h1]; simp
  refine ⟨⟨by rw [hl, h2]; exact h.cur, ⟨by rw [h3]; exact h.lab.inj, by rw [hl, h3]; exact h.lab.lt⟩, ?_⟩, by omega,
    by rw [h3]; exact fun _ _ h => h, by rw [h3]; exact fun _ _ h => .inl h⟩
  intro i hi
  rw [h3] at hi
  obtain ⟨e1, e2⟩ := h.free i hi
  refine ⟨by rw [h2]; exact e1, ?_⟩
  rintro ⟨B, e3, e4⟩
  rw [h1, List.getElem?_modify] at e3
  have hne : c.cur ≠ i := fun e => e1 e.symm
  simp [hne] at e3
  exact e2 ⟨B, e3, e4⟩

theorem UX.emitted (h : Hang L c) (i : Inst) : UX L c (emitted c i) := UX.modify (f := fun b => { b with insts := b.insts ++ [(c.nextReg, i)] }) h rfl rfl rfl

theorem UX.withTerm (h : Hang L c) (t : Term) : UX L c (withTerm c t) := UX.modify (f := fun b => { b with term := some t }) h rfl rfl rfl

theorem UX.brTo (h : Hang L c) (b : Nat) : UX L c (brTo c b) := by
  unfold Blang.brTo; split
  · exact UX.withTerm h _
  · exact UX.refl h

theorem UX.goto (h : Hang L c) {j : Nat} (hj : j < c.blocks.length) (hn : lookup L c.labels ≠ some j) : UX L c (goto' c j) := by
  refine ⟨⟨hj, ⟨h.lab.inj, h.lab.lt⟩, ?_⟩, Nat.le_refl _, fun _ _ h => h, fun _ _ h => .inl h⟩
  intro i hi
  refine ⟨?_, (h.free i hi).2⟩
  rintro rfl
  exact hn hi

theorem UX.append (h : Hang L c) (new : List Block) (h1 : c'.blocks = c.blocks ++ new) (h2 : c'.cur = c.cur) (h3 : c'.labels = c.labels) :
    UX L c c' := by
  have hl : c'.blocks.length = c.blocks.length + new.length := by rw [h1]; simp
  refine ⟨⟨?_, ⟨by rw [h3]; exact h.lab.inj, ?_⟩, ?_⟩, by omega, by rw [h3]; exact fun _ _ h => h, by rw [h3]; exact fun _ _ h => .inl h⟩
  · rw [hl, h2]; have := h.cur; omega
  · intro l i e
    rw [h3] at e
    have := h.lab.lt l i e
    omega
  · intro i hi
    rw [h3] at hi
    obtain ⟨e1, e2⟩ := h.free i hi
    refine ⟨by rw [h2]; exact e1, ?_⟩
    rintro ⟨B, e3, e4⟩
    rw [h1, List.getElem?_append_left (h.lab.lt _ _ hi)] at e3
    exact e2 ⟨B, e3, e4⟩

/-- a block made for other purposes is not that of a label -/
theorem UX.apart (h : UX L a b) {j : Nat} (h0 : j < a.blocks.length) (hn : lookup L a.labels ≠ some j) : lookup L b.labels ≠ some j := by
  intro e
  rcases h.fresh L j e with e | e
  · exact hn e
  · omega

theorem Hang.apart (h : Hang L c) {j : Nat} (hj : c.blocks.length ≤ j) : lookup L c.labels ≠ some j := by
  intro e
  have := h.lab.lt _ _ e
  omega

end

/-! ### expressions -/

/-- `f` behaves so -/
def KU (L : Name) {α : Type} (f : B α) : Prop := ∀ c a c', f c = .ok a c' → Hang L c → UX L c c'

section
variable {α β : Type} {L : Name}

theorem KU.bind {f : B α} {g : α → B β} (hf : KU L f) (hg : ∀ a, KU L (g a)) : KU L (f >>= g) := by
  intro c b c' h ho
  obind h a c1 h1
  have i1 := hf _ _ _ h1 ho
  exact i1.then (hg _ _ _ _ h i1.inv)

theorem KU.pure (a : α) : KU L (pure a : B α) := by
  intro c b c' h ho
  simp at h; obtain ⟨_, rfl⟩ := h; exact .refl ho

theorem KU.fail {s : String} : KU L (bfail s : B α) := by intro c b c' h; cases h

theorem KU.ite {p : Prop} [Decidable p] {f g : B α} (hf : KU L f) (hg : KU L g) : KU L (if p then f else g) := by
  split <;> assumption

theorem KU.get : KU L (M.get : B CState) := by
  intro c b c' h ho; cases h; exact .refl ho
end

section
variable {L : Name}

theorem KU.emit (i : Inst) : KU L (emit i) := by
  intro c v c' h ho; cases h; exact UX.emitted ho i

theorem KU.getOrDeclareFunction (x : Name) : KU L (getOrDeclareFunction x) := by
  intro c v c' h ho
  unfold Blang.getOrDeclareFunction at h
  cases hl : lookup x c.functions with
  | some f => rw [hl] at h; cases h; exact .refl ho
  | none =>
    rw [hl] at h
    cases hx : lookup x c.ctx with
    | some _ => rw [hx] at h; cases h; exact .refl ho
    | none => rw [hx] at h; cases h; exact .same ho rfl rfl rfl

theorem KU.createString (s : List Char) : KU L (createStringConstant s) := by
  intro c v c' h ho; cases h; exact .same ho rfl rfl rfl

theorem KU.rval (v : LV) : KU L (rval v) := KU.ite (KU.emit _) (KU.pure _)
theorem KU.cmpOp (p : Pred) (x y : Val) : KU L (cmpOp p x y) := KU.bind (KU.emit _) fun _ => KU.emit _
theorem KU.genOp (o : Op) (x y : Val) : KU L (genOp o x y) := by
  cases o
  · exact KU.emit _
  · exact KU.cmpOp _ _ _
theorem KU.needLval (v : LV) : KU L (needLval v) := KU.ite (KU.pure _) KU.fail
theorem KU.genCall (f : Val) (as : List Val) : KU L (genCall f as) := by
  unfold Blang.genCall
  split
  · exact KU.ite (KU.bind (KU.emit _) fun _ => KU.emit _) (KU.emit _)
  · exact KU.bind (KU.emit _) fun _ => KU.emit _
theorem KU.genStr (s : List Char) : KU L (genStr s) :=
  KU.bind (KU.createString _) fun _ => KU.bind (KU.emit _) fun _ => KU.emit _
theorem KU.genPostfix (o : BinOp) (v : Val) : KU L (genPostfix o v) :=
  KU.bind (KU.emit _) fun _ => KU.bind (KU.emit _) fun _ => KU.bind (KU.emit _) fun _ => KU.pure _
theorem KU.genPrefix (o : BinOp) (v : Val) : KU L (genPrefix o v) :=
  KU.bind (KU.emit _) fun _ => KU.bind (KU.emit _) fun _ => KU.bind (KU.emit _) fun _ => KU.pure _
theorem KU.genAssign (o : Option Op) (l r : Val) : KU L (genAssign o l r) := by
  unfold Blang.genAssign
  split
  · exact KU.bind (KU.emit _) fun _ => KU.bind (KU.genOp _ _ _) fun _ => KU.bind (KU.emit _) fun _ => KU.pure _
  · exact KU.bind (KU.emit _) fun _ => KU.pure _
theorem KU.getAddress (x : Name) : KU L (getAddress x) := by
  refine KU.bind KU.get fun c => ?_
  split
  · exact KU.pure _
  · split
    · exact KU.bind (KU.emit _) fun _ => KU.pure _
    · exact KU.bind (KU.emit _) fun _ => KU.pure _
    · exact KU.pure _
    · exact KU.pure _

theorem KU.genVar (x : Name) : KU L (genVar x) := by
  refine KU.bind (KU.getAddress x) fun r => ?_
  cases r with
  | some a => exact KU.pure _
  | none =>
    refine KU.bind KU.get fun c => ?_
    cases findFuncByName c x with
    | some fn => exact KU.bind (KU.emit _) fun _ => KU.pure _
    | none =>
      refine KU.bind (KU.getOrDeclareFunction x) fun r => ?_
      cases r with
      | some fn => exact KU.bind (KU.emit _) fun _ => KU.pure _
      | none => exact KU.fail

theorem KU.genCallee (x : Name) : KU L (genCallee x) := by
  refine KU.bind KU.get fun c => ?_
  cases findFuncByName c x with
  | some fn => exact KU.pure _
  | none =>
    cases lookup x c.ctx with
    | some g => exact KU.pure _
    | none =>
      refine KU.bind (KU.getOrDeclareFunction x) fun r => ?_
      cases r with
      | some fn => exact KU.pure _
      | none => exact KU.fail

/-- three blocks and a branch -/
theorem UX.fork {c : CState} (h : Hang L c) (n1 n2 n3 : Name) (v : Val) (t : Term) :
    UX L c (Blang.withTerm (Blang.emitted (add3 (bump c) n1 n2 n3) (.icmp .ne v (.const 0))) t) ∧
    (Blang.withTerm (Blang.emitted (add3 (bump c) n1 n2 n3) (.icmp .ne v (.const 0))) t).blocks.length = c.blocks.length + 3 ∧
    (Blang.withTerm (Blang.emitted (add3 (bump c) n1 n2 n3) (.icmp .ne v (.const 0))) t).labels = c.labels := by
  have a1 : UX L c (add3 (bump c) n1 n2 n3) :=
    UX.append h [⟨n1, [], none⟩, ⟨n2, [], none⟩, ⟨n3, [], none⟩] rfl rfl rfl
  have a2 := a1.then (UX.emitted a1.inv (.icmp .ne v (.const 0)))
  have a3 := a2.then (UX.withTerm a2.inv t)
  refine ⟨a3, ?_, rfl⟩
  rw [withTerm_length]
  simp [Blang.emitted, add3, bump]

/-- the label `L` is not that of three new blocks -/
theorem Hang.three {c c' : CState} (h : Hang L c) (e : c'.labels = c.labels) (k : Nat) : lookup L c'.labels ≠ some (c.blocks.length + k) := by
  rw [e]; exact h.apart (Nat.le_add_right _ _)

theorem KU.cond {f1 f2 : B Val} {c c1 c3 c5 : CState} {v tv ev : Val} {n1 n2 n3 : Name} {t : Term}
    (h1 : UX L c c1)
    (k1 : KU L f1) (k2 : KU L f2)
    (h3 : f1 (goto' (Blang.withTerm (Blang.emitted (add3 (bump c1) n1 n2 n3) (.icmp .ne v (.const 0))) t) c1.blocks.length) = .ok tv c3)
    (h5 : f2 (goto' (Blang.withTerm c3 (.br (c1.blocks.length + 2))) (c1.blocks.length + 1)) = .ok ev c5) :
    UX L c (goto' (Blang.withTerm c5 (.br (c1.blocks.length + 2))) (c1.blocks.length + 2)) := by
  obtain ⟨a1, l1, e1⟩ := UX.fork (L := L) h1.inv n1 n2 n3 v t
  have n := h1.inv.three e1
  have a2 := UX.goto a1.inv (j := c1.blocks.length) (by omega) (n 0)
  have b3 := a2.then (k1 _ _ _ h3 a2.inv)
  have b4 := b3.then (UX.withTerm (L := L) b3.inv (.br (c1.blocks.length + 2)))
  have l4 := b4.len
  have a4 := b4.then (UX.goto b4.inv (j := c1.blocks.length + 1) (by omega) (b4.apart (by omega) (n 1)))
  have b5 := a4.then (k2 _ _ _ h5 a4.inv)
  have b6 := b5.then (UX.withTerm (L := L) b5.inv (.br (c1.blocks.length + 2)))
  have l6 := b6.len
  exact h1.then (a1.then (b6.then (UX.goto b6.inv (j := c1.blocks.length + 2) (by omega) (b6.apart (by omega) (n 2)))))

mutual
theorem KU.genL : ∀ e : Ex, KU L (genL e)
  | .num _ => KU.pure _
  | .str _ => KU.bind (KU.genStr _) fun _ => KU.pure _
  | .var x => KU.genVar x
  | .paren e => KU.bind (KU.genL e) fun _ => KU.bind (KU.rval _) fun _ => KU.pure _
  | .index a i => KU.bind (KU.genL a) fun _ => KU.bind (KU.rval _) fun _ => KU.bind (KU.emit _) fun _ =>
      KU.bind (KU.genL i) fun _ => KU.bind (KU.rval _) fun _ => KU.bind (KU.emit _) fun _ => KU.pure _
  | .callName f as => KU.bind (KU.genCallee f) fun _ => KU.bind (KU.rval _) fun _ => KU.bind (KU.genArgs as) fun _ =>
      KU.bind (KU.genCall _ _) fun _ => KU.pure _
  | .call f as => KU.bind (KU.genL f) fun _ => KU.bind (KU.rval _) fun _ => KU.bind (KU.genArgs as) fun _ =>
      KU.bind (KU.genCall _ _) fun _ => KU.pure _
  | .post _ e => KU.bind (KU.genL e) fun _ => KU.bind (KU.needLval _) fun _ => KU.bind (KU.genPostfix _ _) fun _ => KU.pure _
  | .pre _ e => KU.bind (KU.genL e) fun _ => KU.bind (KU.needLval _) fun _ => KU.bind (KU.genPrefix _ _) fun _ => KU.pure _
  | .not e => KU.bind (KU.genL e) fun _ => KU.bind (KU.bind (KU.rval _) fun _ => KU.cmpOp _ _ _) fun _ => KU.pure _
  | .neg e => KU.bind (KU.genL e) fun _ => KU.bind (KU.bind (KU.rval _) fun _ => KU.emit _) fun _ => KU.pure _
  | .deref e => KU.bind (KU.genL e) fun _ => KU.bind (KU.bind (KU.rval _) fun _ => KU.emit _) fun _ => KU.pure _
  | .addr e => KU.bind (KU.genL e) fun _ => KU.bind (KU.needLval _) fun _ => KU.bind (KU.emit _) fun _ => KU.pure _
  | .bin _ l r => KU.bind (KU.genL l) fun _ => KU.bind (KU.rval _) fun _ => KU.bind (KU.genL r) fun _ =>
      KU.bind (KU.rval _) fun _ => KU.bind (KU.genOp _ _ _) fun _ => KU.pure _
  | .cond cn t e => by
      intro c r c' h hf
      obtain ⟨v, c1, tv, c3, ev, c5, h1, h3, h5, rfl⟩ := cond_run h
      have k1 : KU L (genR t) := KU.bind (KU.genL t) fun _ => KU.rval _
      have k2 : KU L (genR e) := KU.bind (KU.genL e) fun _ => KU.rval _
      have k0 : KU L (genR cn) := KU.bind (KU.genL cn) fun _ => KU.rval _
      have := KU.cond (k0 _ _ _ h1 hf) k1 k2 h3 h5
      exact this.then (UX.emitted this.inv _)
  | .assign _ l r => KU.bind (KU.genL l) fun _ => KU.bind (KU.needLval _) fun _ => KU.bind (KU.genL r) fun _ =>
      KU.bind (KU.rval _) fun _ => KU.bind (KU.genAssign _ _ _) fun _ => KU.pure _

theorem KU.genArgs : ∀ es : List Ex, KU L (genArgs es)
  | [] => KU.pure _
  | e :: es => KU.bind (KU.genL e) fun _ => KU.bind (KU.rval _) fun _ => KU.bind (KU.genArgs es) fun _ => KU.pure _
end

theorem KU.genR (e : Ex) : KU L (genR e) := KU.bind (KU.genL e) fun _ => KU.rval _

/-! ### statements -/

theorem KU.declareLocal (x : Name) : KU L (declareLocal x) :=
  KU.bind (KU.emit _) fun _ => KU.bind (KU.emit _) fun _ => fun c a c' hc hf => by
    simp at hc; rw [← hc]; exact .same hf rfl rfl rfl

theorem KU.declareLocalArray (x : Name) (n : W) : KU L (declareLocalArray x n) :=
  KU.bind (KU.emit _) fun _ => KU.bind (KU.emit _) fun _ => KU.bind (KU.emit _) fun _ => KU.bind (KU.emit _) fun _ =>
    KU.bind (KU.emit _) fun _ => fun c a c' hc hf => by
    simp at hc; rw [← hc]; exact .same hf rfl rfl rfl

theorem KU.declareAll (ds : List (Name × W)) : KU L (declareAll ds) := by
  induction ds with
  | nil => exact KU.pure _
  | cons d ds ih => exact KU.bind (KU.ite (KU.declareLocal _) (KU.declareLocalArray _ _)) fun _ => ih

theorem KU.genExtrn (xs : List Name) : KU L (genExtrn xs) := by
  intro c a c' h hf
  obtain ⟨a1, a2, _, a4, _⟩ := genExtrn_code _ h
  exact .same hf a1 a2 a4

theorem UX.withLabel {c : CState} (h : Hang L c) (l : Name) : UX L c (withLabel l c) ∧
    labelBlock l c < (withLabel l c).blocks.length := by
  unfold Blang.withLabel labelBlock
  cases hl : lookup l c.labels with
  | some i => exact ⟨UX.refl h, h.lab.lt l i hl⟩
  | none =>
    have hn : ∀ l' i, lookup l' (insert l c.blocks.length c.labels) = some i → lookup l' c.labels = some i ∨ l' = l ∧ i = c.blocks.length := by
      intro l' i e
      by_cases hn : l = l'
      · subst hn
        right; refine ⟨rfl, ?_⟩
        simp [lookup, insert] at e; omega
      · left; rw [← lookup_insert_ne hn]; exact e
    refine ⟨⟨⟨?_, ⟨?_, ?_⟩, ?_⟩, ?_, ?_, ?_⟩, ?_⟩
    · have := h.cur
      show c.cur < (c.blocks ++ [_]).length
      simp; omega
    · intro l1 l2 i e1 e2
      rcases hn _ _ e1 with e1 | ⟨e1, e1'⟩ <;> rcases hn _ _ e2 with e2 | ⟨e2, e2'⟩
      · exact h.lab.inj _ _ _ e1 e2
      · have := h.lab.lt _ _ e1; omega
      · have := h.lab.lt _ _ e2; omega
      · rw [e1, e2]
    · intro l' i e
      show i < (c.blocks ++ [_]).length
      rcases hn _ _ e with e | ⟨_, e⟩
      · have := h.lab.lt l' i e
        simp; omega
      · simp; omega
    · intro i e
      have hcur := h.cur
      rcases hn _ _ e with e | ⟨_, e⟩
      · obtain ⟨e1, e2⟩ := h.free i e
        refine ⟨e1, ?_⟩
        rintro ⟨B, e3, e4⟩
        replace e3 : (c.blocks ++ [_])[i]? = some B := e3
        rw [List.getElem?_append_left (h.lab.lt _ _ e)] at e3
        exact e2 ⟨B, e3, e4⟩
      · refine ⟨?_, ?_⟩
        · show i ≠ c.cur
          omega
        · rintro ⟨B, e3, e4⟩
          replace e3 : (c.blocks ++ [_])[i]? = some B := e3
          rw [e] at e3
          simp at e3
          rw [← e3] at e4
          exact e4 rfl
    · show c.blocks.length ≤ (c.blocks ++ [_]).length
      simp
    · intro l' i e
      show lookup l' (insert l _ c.labels) = some i
      rw [lookup_insert_ne]
      · exact e
      · rintro rfl; rw [hl] at e; cases e
    · intro l' i e
      rcases hn _ _ e with e | ⟨_, e⟩
      · exact .inl e
      · right; omega
    · show _ < (c.blocks ++ [_]).length
      simp

theorem UX.label {c : CState} (h : Hang L c) {l : Name} (hl : L ≠ l) :
    UX L c (goto' (Blang.brTo (Blang.withLabel l c) (labelBlock l c)) (labelBlock l c)) := by
  obtain ⟨a1, l1⟩ := UX.withLabel (L := L) h l
  have b2 := UX.brTo (L := L) a1.inv (labelBlock l c)
  have l2 := b2.len
  refine a1.then (b2.then (UX.goto b2.inv (by omega) ?_))
  rw [brTo_labels]
  intro e
  exact hl (a1.inv.lab.inj _ _ _ e (withLabel_lookup l c))

theorem UX.gotoStmt {c : CState} (h : Hang L c) {l : Name} {n : Name} :
    UX L c (goto' (bump { (Blang.withTerm (Blang.withLabel l c) (.br (labelBlock l c))) with
      blocks := (Blang.withTerm (Blang.withLabel l c) (.br (labelBlock l c))).blocks ++ [⟨n, [], none⟩] })
      (Blang.withLabel l c).blocks.length) := by
  obtain ⟨a1, l1⟩ := UX.withLabel (L := L) h l
  have b2 := UX.withTerm (L := L) a1.inv (.br (labelBlock l c))
  have b3 : UX L (Blang.withTerm (Blang.withLabel l c) (.br (labelBlock l c)))
      (bump { (Blang.withTerm (Blang.withLabel l c) (.br (labelBlock l c))) with
      blocks := (Blang.withTerm (Blang.withLabel l c) (.br (labelBlock l c))).blocks ++ [⟨n, [], none⟩] }) :=
    UX.append b2.inv [⟨n, [], none⟩] rfl rfl rfl
  have hlen := withTerm_length (Blang.withLabel l c) (.br (labelBlock l c))
  refine a1.then (b2.then (b3.then (UX.goto b3.inv ?_ ?_)))
  · show _ < ((Blang.withTerm (Blang.withLabel l c) (.br (labelBlock l c))).blocks ++ [_]).length
    rw [List.length_append, hlen]; simp
  · exact a1.inv.apart (Nat.le_refl _)

/-- labels persist -/
theorem UX.some {c c' : CState} (h : UX L c c') {l : Name} (hl : (lookup l c.labels).isSome) : (lookup l c'.labels).isSome := by
  rw [Option.isSome_iff_exists] at hl
  obtain ⟨i, hi⟩ := hl
  rw [h.lab _ _ hi]; rfl

/-- code of a statement that does not define `L`, a name without a point -/
theorem genSt_UX (hL : '.' ∉ L) : ∀ (s : St) (sw : Option Nat) (cs : Cases) (c : CState) (cs' : Cases) (c' : CState),
    Hang L c → L ∉ s.labels → genSt s sw cs c = .ok cs' c' →
    UX L c c' ∧ (L ∈ s.gotos → (lookup L c'.labels).isSome) ∧
    (∀ id, sw = some id → ∀ v ∈ cs', v ∈ cs ∨ (lookup (caseName id v) c'.labels).isSome) := by
  intro s
  induction s with
  | skip =>
    intro sw cs c cs' c' hf hg h
    simp only [genSt] at h; simp at h; obtain ⟨rfl, rfl⟩ := h
    exact ⟨UX.refl hf, by simp [St.gotos], fun _ _ v h => .inl h⟩
  | seq s t ih1 ih2 =>
    intro sw cs c cs' c' hf hg h
    simp only [St.labels, List.mem_append, not_or] at hg
    obtain ⟨cs1, c1, h1, h2⟩ := seq_run h
    obtain ⟨a1, g1, b1⟩ := ih1 _ _ _ _ _ hf hg.1 h1
    obtain ⟨a2, g2, b2⟩ := ih2 _ _ _ _ _ a1.inv hg.2 h2
    refine ⟨a1.then a2, ?_, ?_⟩
    · intro hm
      simp only [St.gotos, List.mem_append] at hm
      rcases hm with hm | hm
      · exact a2.some (g1 hm)
      · exact g2 hm
    · intro id hid v hv
      rcases b2 id hid v hv with h | h
      · rcases b1 id hid v h with h | h
        · exact .inl h
        · exact .inr (a2.some h)
      · exact .inr h
  | expr e =>
    intro sw cs c cs' c' hf hg h
    simp only [genSt] at h
    obind h v c1 h1
    simp at h; obtain ⟨rfl, rfl⟩ := h
    exact ⟨KU.genR e _ _ _ h1 hf, by simp [St.gotos], fun _ _ v h => .inl h⟩
  | ret e =>
    intro sw cs c cs' c' hf hg h
    cases e with
    | none =>
      simp only [genSt] at h
      rw [M.bind_ok (setTerm_eq _ _)] at h
      simp at h; obtain ⟨rfl, rfl⟩ := h
      exact ⟨UX.withTerm hf _, by simp [St.gotos], fun _ _ v h => .inl h⟩
    | some e =>
      simp only [genSt] at h
      obind h v c1 h1
      rw [M.bind_ok (setTerm_eq _ _)] at h
      simp at h; obtain ⟨rfl, rfl⟩ := h
      have a1 := KU.genR (L := L) e _ _ _ h1 hf
      exact ⟨a1.then (UX.withTerm a1.inv _), by simp [St.gotos], fun _ _ v h => .inl h⟩
  | auto ds =>
    intro sw cs c cs' c' hf hg h
    simp only [genSt] at h
    obind h u c1 h1
    obind h u2 c2 h2
    simp at h; obtain ⟨rfl, rfl⟩ := h
    obtain ⟨rfl, _, _⟩ := autoCheck_ok _ _ h1
    exact ⟨KU.declareAll _ _ _ _ h2 hf, by simp [St.gotos], fun _ _ v h => .inl h⟩
  | extrn xs =>
    intro sw cs c cs' c' hf hg h
    simp only [genSt] at h
    obind h u c1 h1
    simp at h; obtain ⟨rfl, rfl⟩ := h
    exact ⟨KU.genExtrn _ _ _ _ h1 hf, by simp [St.gotos], fun _ _ v h => .inl h⟩
  | ifThen cn t ih =>
    intro sw cs c cs' c' hf hg h
    simp only [St.labels] at hg
    rw [genSt_ifThen] at h
    obtain ⟨v, c1, x3, c3, x5, c5, h1, h3, h5, rfl, rfl⟩ := if_run h
    simp only [genSt] at h5; simp at h5; obtain ⟨rfl, rfl⟩ := h5
    have a1 := KU.genR (L := L) cn _ _ _ h1 hf
    obtain ⟨f1, l1, e1⟩ := UX.fork (L := L) a1.inv ("if.".toList ++ natDec c1.labelID ++ ".then".toList)
      ("if.".toList ++ natDec c1.labelID ++ ".else".toList) ("if.".toList ++ natDec c1.labelID ++ ".end".toList) v
      (.condbr (.reg c1.nextReg) c1.blocks.length (c1.blocks.length + 1))
    have n := a1.inv.three e1
    have a2 := UX.goto f1.inv (j := c1.blocks.length) (by omega) (n 0)
    obtain ⟨b3, g3, _⟩ := ih _ _ _ _ _ a2.inv hg h3
    have b4 := (a2.then b3).then (UX.brTo (L := L) b3.inv (c1.blocks.length + 2))
    have l4 := b4.len
    have b4' := b4.then (UX.goto b4.inv (j := c1.blocks.length + 1) (by omega) (b4.apart (by omega) (n 1)))
    have b6 := b4'.then (UX.brTo (L := L) b4'.inv (c1.blocks.length + 2))
    have l6 := b6.len
    have b6' := b6.then (UX.goto b6.inv (j := c1.blocks.length + 2) (by omega) (b6.apart (by omega) (n 2)))
    refine ⟨a1.then (f1.then b6'), ?_, fun _ _ v h => .inl h⟩
    intro hm
    simp only [St.gotos] at hm
    show (lookup L (brTo _ _).labels).isSome
    rw [brTo_labels]
    show (lookup L (brTo _ _).labels).isSome
    rw [brTo_labels]
    exact g3 hm
  | ifElse cn t e ih1 ih2 =>
    intro sw cs c cs' c' hf hg h
    simp only [St.labels, List.mem_append, not_or] at hg
    obtain ⟨v, c1, x3, c3, x5, c5, h1, h3, h5, rfl, rfl⟩ := if_run h
    have a1 := KU.genR (L := L) cn _ _ _ h1 hf
    obtain ⟨f1, l1, e1⟩ := UX.fork (L := L) a1.inv ("if.".toList ++ natDec c1.labelID ++ ".then".toList)
      ("if.".toList ++ natDec c1.labelID ++ ".else".toList) ("if.".toList ++ natDec c1.labelID ++ ".end".toList) v
      (.condbr (.reg c1.nextReg) c1.blocks.length (c1.blocks.length + 1))
    have n := a1.inv.three e1
    have a2 := UX.goto f1.inv (j := c1.blocks.length) (by omega) (n 0)
    obtain ⟨b3, g3, _⟩ := ih1 _ _ _ _ _ a2.inv hg.1 h3
    have b4 := (a2.then b3).then (UX.brTo (L := L) b3.inv (c1.blocks.length + 2))
    have l4 := b4.len
    have b4' := b4.then (UX.goto b4.inv (j := c1.blocks.length + 1) (by omega) (b4.apart (by omega) (n 1)))
    obtain ⟨b5, g5, _⟩ := ih2 _ _ _ _ _ b4'.inv hg.2 h5
    have b6 := (b4'.then b5).then (UX.brTo (L := L) b5.inv (c1.blocks.length + 2))
    have l6 := b6.len
    have b6' := b6.then (UX.goto b6.inv (j := c1.blocks.length + 2) (by omega) (b6.apart (by omega) (n 2)))
    refine ⟨a1.then (f1.then b6'), ?_, fun _ _ v h => .inl h⟩
    intro hm
    simp only [St.gotos, List.mem_append] at hm
    show (lookup L (brTo _ _).labels).isSome
    rw [brTo_labels]
    rcases hm with hm | hm
    · refine b5.some ?_
      show (lookup L (brTo _ _).labels).isSome
      rw [brTo_labels]
      exact g3 hm
    · exact g5 hm
  | «while» cn b ih =>
    intro sw cs c cs' c' hf hg h
    simp only [St.labels] at hg
    obtain ⟨v, c1, x3, c3, h1, h3, rfl, rfl⟩ := while_run h
    unfold whileHead at h1
    generalize "while.".toList ++ natDec c.labelID ++ ".cond".toList = x1 at h1
    generalize "while.".toList ++ natDec c.labelID ++ ".body".toList = x2 at h1
    generalize "while.".toList ++ natDec c.labelID ++ ".end".toList = x3' at h1
    have a1 : UX L c (add3 (bump c) x1 x2 x3') :=
      UX.append hf [⟨x1, [], none⟩, ⟨x2, [], none⟩, ⟨x3', [], none⟩] rfl rfl rfl
    have a2 := a1.then (UX.withTerm a1.inv (.br c.blocks.length))
    have l2 : (withTerm (add3 (bump c) x1 x2 x3') (.br c.blocks.length)).blocks.length = c.blocks.length + 3 := by
      rw [withTerm_length]; simp [add3, bump]
    have n := hf.three (c' := withTerm (add3 (bump c) x1 x2 x3') (.br c.blocks.length)) rfl
    have a3 := UX.goto a2.inv (j := c.blocks.length) (by omega) (n 0)
    have b1 := a3.then (KU.genR (L := L) cn _ _ _ h1 a3.inv)
    have b2 := b1.then (UX.emitted (L := L) b1.inv (.icmp .ne v (.const 0)))
    have b3 := b2.then (UX.withTerm (L := L) b2.inv (.condbr (.reg c1.nextReg) (c.blocks.length + 1) (c.blocks.length + 2)))
    have k3 := b3.len
    have b4 := b3.then (UX.goto b3.inv (j := c.blocks.length + 1) (by omega) (b3.apart (by omega) (n 1)))
    obtain ⟨b5, g5, _⟩ := ih _ _ _ _ _ b4.inv hg h3
    have b6 := (b4.then b5).then (UX.brTo (L := L) b5.inv c.blocks.length)
    have k6 := b6.len
    have b6' := b6.then (UX.goto b6.inv (j := c.blocks.length + 2) (by omega) (b6.apart (by omega) (n 2)))
    refine ⟨a2.then b6', ?_, fun _ _ v h => .inl h⟩
    intro hm
    simp only [St.gotos] at hm
    show (lookup L (brTo _ _).labels).isSome
    rw [brTo_labels]
    exact g5 hm
  | switch e b ih =>
    intro sw cs c cs' c' hf hg h
    simp only [St.labels] at hg
    obtain ⟨v, c1, vs, c3, c4, h1, h3, h4, rfl, rfl⟩ := switch_run h
    have a0 : UX L c (bump c) := .same hf rfl rfl rfl
    have a1 := a0.then (KU.genR (L := L) e _ _ _ h1 a0.inv)
    unfold switchHead at h3
    generalize "switch.".toList ++ natDec c.labelID ++ ".stmts".toList = x1 at h3
    generalize "switch.".toList ++ natDec c.labelID ++ ".cmp".toList = x2 at h3
    generalize "switch.".toList ++ natDec c.labelID ++ ".end".toList = x3 at h3
    have f1 : UX L c1 (add3 c1 x1 x2 x3) :=
      UX.append a1.inv [⟨x1, [], none⟩, ⟨x2, [], none⟩, ⟨x3, [], none⟩] rfl rfl rfl
    have f2 := f1.then (UX.withTerm f1.inv (.br (c1.blocks.length + 1)))
    have l2 : (withTerm (add3 c1 x1 x2 x3) (.br (c1.blocks.length + 1))).blocks.length = c1.blocks.length + 3 := by
      rw [withTerm_length]; simp [add3]
    have n := a1.inv.three (c' := withTerm (add3 c1 x1 x2 x3) (.br (c1.blocks.length + 1))) rfl
    have f3 := UX.goto f2.inv (j := c1.blocks.length) (by omega) (n 0)
    obtain ⟨b3, g3, hcs⟩ := ih _ _ _ _ _ f3.inv hg h3
    have b4 := (f3.then b3).then (UX.brTo (L := L) b3.inv (c1.blocks.length + 2))
    have l4 := b4.len
    have b4' := b4.then (UX.goto b4.inv (j := c1.blocks.length + 1) (by omega) (b4.apart (by omega) (n 1)))
    rw [switchTerm_eq] at h4
    · cases h4
      have b5 := b4'.then (UX.withTerm (L := L) b4'.inv (switchT c.labelID v (c1.blocks.length + 2) vs
        (goto' (brTo c3 (c1.blocks.length + 2)) (c1.blocks.length + 1))))
      have l5 := b5.len
      have b6 := b5.then (UX.goto b5.inv (j := c1.blocks.length + 2) (by omega) (b5.apart (by omega) (n 2)))
      refine ⟨a1.then (f2.then b6), ?_, fun _ _ v h => .inl h⟩
      intro hm
      simp only [St.gotos] at hm
      show (lookup L (brTo _ _).labels).isSome
      rw [brTo_labels]
      exact g3 hm
    · intro w hw
      rcases hcs _ rfl w hw with h | h
      · cases h
      · show (lookup _ (brTo _ _).labels).isSome
        rw [brTo_labels]; exact h
  | case v s ih =>
    intro sw cs c cs' c' hf hg h
    simp only [St.labels] at hg
    obtain ⟨id, rfl, h⟩ := case_run h
    have a1 := UX.label (L := L) hf (l := caseName id v) (by
      rintro rfl
      exact hL (by simp [caseName]))
    obtain ⟨a2, g2, b2⟩ := ih _ _ _ _ _ a1.inv hg h
    refine ⟨a1.then a2, by simpa [St.gotos] using g2, ?_⟩
    intro id' hid w hw
    cases hid
    rcases b2 id rfl w hw with h | h
    · rw [List.mem_append] at h
      rcases h with h | h
      · exact .inl h
      · simp at h; subst h
        right
        refine a2.some ?_
        show (lookup _ (brTo _ _).labels).isSome
        rw [brTo_labels, withLabel_lookup]; rfl
    · exact .inr h
  | label l s ih =>
    intro sw cs c cs' c' hf hg h
    simp only [St.labels, List.mem_cons, not_or] at hg
    have h := label_run h
    have a1 := UX.label (L := L) hf hg.1
    obtain ⟨a2, g2, b2⟩ := ih _ _ _ _ _ a1.inv hg.2 h
    exact ⟨a1.then a2, by simpa [St.gotos] using g2, b2⟩
  | goto l =>
    intro sw cs c cs' c' hf hg h
    obtain ⟨rfl, rfl⟩ := goto_run h
    refine ⟨UX.gotoStmt hf, ?_, fun _ _ v h => .inl h⟩
    intro hm
    simp [St.gotos] at hm
    subst hm
    show (lookup L (Blang.withLabel L c).labels).isSome
    rw [withLabel_lookup]; rfl

/-! ### functions -/

theorem getOrCreateFunc_KU (n : Name) : KU L (getOrCreateFunc n) := by
  intro c a c' h hf
  unfold getOrCreateFunc at h
  split at h <;> cases h
  · exact .refl hf
  · exact .same hf rfl rfl rfl

theorem KU.firstParam (p : Name) : KU L (firstParam p) :=
  KU.bind (KU.emit _) fun _ => KU.bind (KU.emit _) fun _ => fun c a c' hc hf => by
    simp at hc; rw [← hc]; exact .same hf rfl rfl rfl

theorem KU.vaParams (v : Val) (ps : List Name) : KU L (vaParams v ps) := by
  induction ps with
  | nil => exact KU.pure _
  | cons p ps ih =>
    refine KU.bind (KU.emit _) fun _ => KU.bind (KU.emit _) fun _ => KU.bind (KU.emit _) fun _ => KU.bind ?_ fun _ => ih
    intro c a c' hc hf
    simp at hc; rw [← hc]; exact .same hf rfl rfl rfl

theorem KU.paramCode (ps : List Name) : KU L (paramCode ps) := by
  unfold Blang.paramCode
  split
  · exact KU.pure _
  · exact KU.firstParam _
  · refine KU.bind (KU.firstParam _) fun _ => KU.bind (KU.emit _) fun _ => KU.bind (KU.emit _) fun _ =>
      KU.bind (getOrCreateFunc_KU _) fun _ => KU.bind (KU.emit _) fun _ => KU.bind (KU.vaParams _ _) fun _ =>
      KU.bind (getOrCreateFunc_KU _) fun _ => ?_
    exact KU.bind (KU.emit _) fun _ => KU.pure _
/-- A label that a `goto` names and no statement defines has a block without terminator. -/
theorem FuncRun.hangs {f : Name} {ps : List Name} {b : St} {c : CState} {bs : List Block} (r : FuncRun f ps b c bs)
    (hL : '.' ∉ L) (hg : L ∈ b.gotos) (hl : L ∉ b.labels) : ∃ B ∈ bs, B.term = none := by
  have f0 : Hang L (entered (defFunc f ps) r.c1) :=
    ⟨by simp [entered], ⟨by simp [entered, lookup], by simp [entered, lookup]⟩, by simp [entered, lookup]⟩
  have a1 := KU.paramCode (L := L) ps _ _ _ r.entry f0
  obtain ⟨a2, g2, _⟩ := genSt_UX hL b _ _ _ _ _ a1.inv hl r.body
  obtain ⟨i, hi⟩ := Option.isSome_iff_exists.1 (g2 hg)
  obtain ⟨e1, e2⟩ := a2.inv.free i hi
  have hlt := a2.inv.lab.lt _ _ hi
  have hB := List.getElem?_eq_getElem hlt
  refine ⟨r.c3.blocks[i], ?_, ?_⟩
  · refine Eq.mpr (congrArg (fun l => r.c3.blocks[i] ∈ l) r.blocks) ?_
    unfold closed
    split
    · refine List.mem_of_getElem? (i := i) ?_
      show (r.c3.blocks.modify r.c3.cur _)[i]? = _
      have hne : r.c3.cur ≠ i := fun e => e1 e.symm
      rw [List.getElem?_modify, hB]
      simp [hne]
    · exact List.getElem_mem hlt
  · apply Classical.byContradiction
    intro hn
    exact e2 ⟨_, hB, hn⟩

end
end Blang
