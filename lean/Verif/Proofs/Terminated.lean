import Verif.Proofs.StaticSt
import Verif.Proofs.ProgInv
/-
Which blocks of a function under construction have a terminator.
-/
namespace Blang
open Spec

/-- block `i` exists and has a terminator -/
def Shut (c : CState) (i : Nat) : Prop := ∃ b : Block, c.blocks[i]? = some b ∧ b.term ≠ none

/-- the current block and the blocks of labels exist -/
structure Fine (c : CState) : Prop where
  cur : c.cur < c.blocks.length
  lab : ∀ l i, lookup l c.labels = some i → i < c.blocks.length

/-- What code generation does to the terminators.  `G` are the labels that may be the target of a
`goto`, `D` labels defined meanwhile, `P` blocks still to be written. -/
structure TX (G D : Name → Prop) (P : Nat → Prop) (c c' : CState) : Prop where
  fine : Fine c'
  len : c.blocks.length ≤ c'.blocks.length
  lab : ∀ l i, lookup l c.labels = some i → lookup l c'.labels = some i
  mono : ∀ i, Shut c i → Shut c' i
  left : c'.cur = c.cur ∨ Shut c' c.cur
  new : ∀ i, c.blocks.length ≤ i → i < c'.blocks.length → i = c'.cur ∨ Shut c' i ∨ P i ∨
    ∃ l, G l ∧ lookup l c'.labels = some i
  done : ∀ l, D l → ∃ i, lookup l c'.labels = some i ∧ (i = c'.cur ∨ Shut c' i)

section
variable {G D D' : Name → Prop} {P Q : Nat → Prop} {a b c c' : CState}

theorem TX.refl (h : Fine c) : TX G (fun _ => False) P c c :=
  ⟨h, Nat.le_refl _, fun _ _ h => h, fun _ h => h, .inl rfl, fun i h1 h2 => by omega, fun _ h => h.elim⟩

theorem TX.mono' (h : TX G D P a b) (hd : ∀ l, D' l → D l) (hp : ∀ i, P i → Q i) : TX G D' Q a b :=
  ⟨h.fine, h.len, h.lab, h.mono, h.left, fun i h1 h2 => by
    rcases h.new i h1 h2 with h | h | h | h
    · exact .inl h
    · exact .inr (.inl h)
    · exact .inr (.inr (.inl (hp i h)))
    · exact .inr (.inr (.inr h)), fun l hl => h.done l (hd l hl)⟩

theorem TX.trans (h1 : TX G D P a b) (h2 : TX G D' P b c) : TX G (fun l => D l ∨ D' l) P a c := by
  have h1l := h1.len
  have h2l := h2.len
  refine ⟨h2.fine, by omega, fun l i h => h2.lab l i (h1.lab l i h), fun i h => h2.mono i (h1.mono i h), ?_, ?_, ?_⟩
  · rcases h1.left with e | e
    · rcases h2.left with e' | e'
      · exact .inl (e'.trans e)
      · right; rw [← e]; exact e'
    · exact .inr (h2.mono _ e)
  · intro i hi hl
    by_cases hb : i < b.blocks.length
    · rcases h1.new i hi hb with e | e | e | ⟨l, e1, e2⟩
      · rcases h2.left with e' | e'
        · exact .inl (e.trans e'.symm)
        · right; left; rw [e]; exact e'
      · exact .inr (.inl (h2.mono _ e))
      · exact .inr (.inr (.inl e))
      · exact .inr (.inr (.inr ⟨l, e1, h2.lab _ _ e2⟩))
    · exact h2.new i (by omega) hl
  · rintro l (hl | hl)
    · obtain ⟨i, e1, e2⟩ := h1.done l hl
      refine ⟨i, h2.lab _ _ e1, ?_⟩
      rcases e2 with e | e
      · rcases h2.left with e' | e'
        · exact .inl (e.trans e'.symm)
        · right; rw [e]; exact e'
      · exact .inr (h2.mono _ e)
    · exact h2.done l hl

/-- expressions define no labels -/
abbrev TE (G : Name → Prop) (c c' : CState) : Prop := TX G (fun _ => False) (fun _ => False) c c'

theorem TX.then (h1 : TX G D P a b) (h2 : TX G (fun _ => False) (fun _ => False) b c) : TX G D P a c :=
  (h1.trans (h2.mono' (fun _ h => h) (fun _ h => h.elim))).mono' (fun _ h => .inl h) (fun _ h => h)

theorem TX.after (h1 : TE G a b) (h2 : TX G D P b c) : TX G D P a c :=
  ((h1.mono' (fun _ h => h) (fun _ h => h.elim)).trans h2).mono' (fun _ h => .inr h) (fun _ h => h)

/-- states that differ only in tables -/
theorem TX.same (h : Fine c) (h1 : c'.blocks = c.blocks) (h2 : c'.cur = c.cur) (h3 : c'.labels = c.labels) : TE G c c' := by
  refine ⟨⟨by rw [h1, h2]; exact h.cur, by rw [h1, h3]; exact h.lab⟩, by rw [h1]; exact Nat.le_refl _, by rw [h3]; exact fun _ _ h => h, ?_, .inl h2, ?_,
    fun _ h => h.elim⟩
  · rintro i ⟨b, e1, e2⟩; exact ⟨b, by rw [h1]; exact e1, e2⟩
  · intro i a1 a2; rw [h1] at a2; omega

/-- a block changed, terminators kept -/
theorem TX.modify {f : Block → Block} (h : Fine c) (hf : ∀ b, b.term ≠ none → (f b).term ≠ none)
    (h1 : c'.blocks = c.blocks.modify c.cur f) (h2 : c'.cur = c.cur) (h3 : c'.labels = c.labels) : TE G c c' := by
  have hl : c'.blocks.length = c.blocks.length := by rw [h1]; simp
  refine ⟨⟨by rw [hl, h2]; exact h.cur, by rw [hl, h3]; exact h.lab⟩, by omega, by rw [h3]; exact fun _ _ h => h, ?_, .inl h2, ?_,
    fun _ h => h.elim⟩
  · rintro i ⟨b, e1, e2⟩
    by_cases hi : c.cur = i
    · refine ⟨f b, ?_, hf b e2⟩
      rw [h1, List.getElem?_modify]; simp [hi, e1]
    · refine ⟨b, ?_, e2⟩
      rw [h1, List.getElem?_modify]; simp [hi, e1]
  · intro i a1 a2; omega

theorem TX.emitted (h : Fine c) (i : Inst) : TE G c (emitted c i) := TX.modify (f := fun b => { b with insts := b.insts ++ [(c.nextReg, i)] }) h (fun _ h => h) rfl rfl rfl

theorem TX.withTerm (h : Fine c) (t : Term) : TE G c (withTerm c t) := TX.modify (f := fun b => { b with term := some t }) h (fun b _ => by simp) rfl rfl rfl

theorem shut_withTerm (h : Fine c) (t : Term) : Shut (withTerm c t) c.cur := by
  obtain ⟨b, hb⟩ : ∃ b, c.blocks[c.cur]? = some b := ⟨_, List.getElem?_eq_getElem h.cur⟩
  exact ⟨_, withTerm_at hb t, by simp⟩

theorem TX.brTo (h : Fine c) (b : Nat) : TE G c (brTo c b) := by
  unfold Blang.brTo; split
  · exact TX.withTerm h _
  · exact TX.refl h

theorem shut_brTo (h : Fine c) (b : Nat) : Shut (brTo c b) c.cur := by
  unfold Blang.brTo; split
  · exact shut_withTerm h _
  · rename_i hn
    unfold curTerm at hn
    rw [List.getElem?_eq_getElem h.cur] at hn
    exact ⟨_, List.getElem?_eq_getElem h.cur, hn⟩

/-- moving on to another block -/
theorem TX.goto (h : Fine c) (hs : Shut c c.cur) {j : Nat} (hj : j < c.blocks.length) : TE G c (goto' c j) :=
  ⟨⟨hj, h.lab⟩, Nat.le_refl _, fun _ _ h => h, fun _ h => h, .inr hs, fun i h1 h2 => by
    have : i < c.blocks.length := h2
    omega, fun _ h => h.elim⟩

/-- new blocks -/
theorem TX.append (h : Fine c) (new : List Block) (h1 : c'.blocks = c.blocks ++ new) (h2 : c'.cur = c.cur) (h3 : c'.labels = c.labels) :
    TX G (fun _ => False) (fun i => c.blocks.length ≤ i ∧ i < c.blocks.length + new.length) c c' := by
  have hl : c'.blocks.length = c.blocks.length + new.length := by rw [h1]; simp
  refine ⟨⟨?_, ?_⟩, by omega, by rw [h3]; exact fun _ _ h => h, ?_, .inl h2, ?_, fun _ h => h.elim⟩
  · rw [hl, h2]; have := h.cur; omega
  · intro l i e
    rw [h3] at e
    have := h.lab l i e
    omega
  · rintro i ⟨b, e1, e2⟩
    refine ⟨b, ?_, e2⟩
    rw [h1, List.getElem?_append_left]
    · exact e1
    · apply Nat.lt_of_not_le; intro hl; rw [List.getElem?_eq_none hl] at e1; cases e1
  · intro i a1 a2; exact .inr (.inr (.inl ⟨a1, by omega⟩))

/-- blocks that were still to be written have been written -/
theorem TX.finish (h : TX G D P c c') (hp : ∀ i, P i → c.blocks.length ≤ i → i = c'.cur ∨ Shut c' i) : TX G D (fun _ => False) c c' :=
  ⟨h.fine, h.len, h.lab, h.mono, h.left, fun i h1 h2 => by
    rcases h.new i h1 h2 with e | e | e | e
    · exact .inl e
    · exact .inr (.inl e)
    · rcases hp i e h1 with e | e
      · exact .inl e
      · exact .inr (.inl e)
    · exact .inr (.inr (.inr e)), h.done⟩

/-- a block that was current is still current or has a terminator -/
theorem TX.was (h : TX G D P c c') {i : Nat} (hi : i = c.cur ∨ Shut c i) : i = c'.cur ∨ Shut c' i := by
  rcases hi with rfl | hi
  · rcases h.left with e | e
    · exact .inl e.symm
    · exact .inr e
  · exact .inr (h.mono i hi)

end

/-! ### expressions -/

/-- `f` behaves so -/
def KT (G : Name → Prop) {α : Type} (f : B α) : Prop := ∀ c a c', f c = .ok a c' → Fine c → TE G c c'

section
variable {α β : Type} {G : Name → Prop}

theorem KT.bind {f : B α} {g : α → B β} (hf : KT G f) (hg : ∀ a, KT G (g a)) : KT G (f >>= g) := by
  intro c b c' h ho
  obind h a c1 h1
  have i1 := hf _ _ _ h1 ho
  exact i1.then (hg _ _ _ _ h i1.fine)

theorem KT.pure (a : α) : KT G (pure a : B α) := by
  intro c b c' h ho
  simp at h; obtain ⟨_, rfl⟩ := h; exact .refl ho

theorem KT.fail {s : String} : KT G (bfail s : B α) := by intro c b c' h; cases h

theorem KT.ite {p : Prop} [Decidable p] {f g : B α} (hf : KT G f) (hg : KT G g) : KT G (if p then f else g) := by
  split <;> assumption

theorem KT.get : KT G (M.get : B CState) := by
  intro c b c' h ho; cases h; exact .refl ho
end

section
variable {G : Name → Prop}

theorem KT.emit (i : Inst) : KT G (emit i) := by
  intro c v c' h ho; cases h; exact TX.emitted ho i

theorem KT.getOrDeclareFunction (x : Name) : KT G (getOrDeclareFunction x) := by
  intro c v c' h ho
  unfold Blang.getOrDeclareFunction at h
  cases hl : lookup x c.functions with
  | some f => rw [hl] at h; cases h; exact .refl ho
  | none =>
    rw [hl] at h
    cases hx : lookup x c.ctx with
    | some _ => rw [hx] at h; cases h; exact .refl ho
    | none => rw [hx] at h; cases h; exact .same ho rfl rfl rfl

theorem KT.createString (s : List Char) : KT G (createStringConstant s) := by
  intro c v c' h ho; cases h; exact .same ho rfl rfl rfl

theorem KT.rval (v : LV) : KT G (rval v) := KT.ite (KT.emit _) (KT.pure _)
theorem KT.cmpOp (p : Pred) (x y : Val) : KT G (cmpOp p x y) := KT.bind (KT.emit _) fun _ => KT.emit _
theorem KT.genOp (o : Op) (x y : Val) : KT G (genOp o x y) := by
  cases o
  · exact KT.emit _
  · exact KT.cmpOp _ _ _
theorem KT.needLval (v : LV) : KT G (needLval v) := KT.ite (KT.pure _) KT.fail
theorem KT.genCall (f : Val) (as : List Val) : KT G (genCall f as) := by
  unfold Blang.genCall
  split
  · exact KT.ite (KT.bind (KT.emit _) fun _ => KT.emit _) (KT.emit _)
  · exact KT.bind (KT.emit _) fun _ => KT.emit _
theorem KT.genStr (s : List Char) : KT G (genStr s) :=
  KT.bind (KT.createString _) fun _ => KT.bind (KT.emit _) fun _ => KT.emit _
theorem KT.genPostfix (o : BinOp) (v : Val) : KT G (genPostfix o v) :=
  KT.bind (KT.emit _) fun _ => KT.bind (KT.emit _) fun _ => KT.bind (KT.emit _) fun _ => KT.pure _
theorem KT.genPrefix (o : BinOp) (v : Val) : KT G (genPrefix o v) :=
  KT.bind (KT.emit _) fun _ => KT.bind (KT.emit _) fun _ => KT.bind (KT.emit _) fun _ => KT.pure _
theorem KT.genAssign (o : Option Op) (l r : Val) : KT G (genAssign o l r) := by
  unfold Blang.genAssign
  split
  · exact KT.bind (KT.emit _) fun _ => KT.bind (KT.genOp _ _ _) fun _ => KT.bind (KT.emit _) fun _ => KT.pure _
  · exact KT.bind (KT.emit _) fun _ => KT.pure _
theorem KT.getAddress (x : Name) : KT G (getAddress x) := by
  refine KT.bind KT.get fun c => ?_
  split
  · exact KT.pure _
  · split
    · exact KT.bind (KT.emit _) fun _ => KT.pure _
    · exact KT.bind (KT.emit _) fun _ => KT.pure _
    · exact KT.pure _
    · exact KT.pure _

theorem KT.genVar (x : Name) : KT G (genVar x) := by
  refine KT.bind (KT.getAddress x) fun r => ?_
  cases r with
  | some a => exact KT.pure _
  | none =>
    refine KT.bind KT.get fun c => ?_
    cases findFuncByName c x with
    | some fn => exact KT.bind (KT.emit _) fun _ => KT.pure _
    | none =>
      refine KT.bind (KT.getOrDeclareFunction x) fun r => ?_
      cases r with
      | some fn => exact KT.bind (KT.emit _) fun _ => KT.pure _
      | none => exact KT.fail

theorem KT.genCallee (x : Name) : KT G (genCallee x) := by
  refine KT.bind KT.get fun c => ?_
  cases findFuncByName c x with
  | some fn => exact KT.pure _
  | none =>
    cases lookup x c.ctx with
    | some g => exact KT.pure _
    | none =>
      refine KT.bind (KT.getOrDeclareFunction x) fun r => ?_
      cases r with
      | some fn => exact KT.pure _
      | none => exact KT.fail

/-- the branch of `?:` -/
def forkCond (c : CState) (v : Val) : CState :=
  withTerm (emitted (add3 (bump c) ("cond.then.".toList ++ natDec c.labelID)
    ("cond.else.".toList ++ natDec c.labelID) ("cond.end.".toList ++ natDec c.labelID))
    (.icmp .ne v (.const 0))) (.condbr (.reg c.nextReg) c.blocks.length (c.blocks.length + 1))

theorem condStart_eq (v : Val) (c : CState) :
    condStart v c = .ok (c.blocks.length, c.blocks.length + 1, c.blocks.length + 2) (forkCond c v) := by
  have e1 : (c.blocks ++ [(⟨"cond.then.".toList ++ natDec c.labelID, [], none⟩ : Block)]).length = c.blocks.length + 1 := by simp
  have e2 : (c.blocks ++ [(⟨"cond.then.".toList ++ natDec c.labelID, [], none⟩ : Block)] ++
    [(⟨"cond.else.".toList ++ natDec c.labelID, [], none⟩ : Block)]).length = c.blocks.length + 2 := by simp
  show R.ok _ _ = R.ok _ _
  congr 1
  · show (c.blocks.length, List.length (c.blocks ++ [_]), List.length (c.blocks ++ [_] ++ [_])) = _
    rw [e1, e2]
  · show withTerm _ _ = withTerm _ _
    congr 1
    · congr 1
      simp [add3, bump]
    · rw [e1]

theorem cond_run {cn t e : Ex} {r : LV} {c c' : CState} (h : genL (.cond cn t e) c = .ok r c') :
    ∃ v c1 tv c3 ev c5, genR cn c = .ok v c1 ∧ genR t (goto' (forkCond c1 v) c1.blocks.length) = .ok tv c3 ∧
      genR e (goto' (withTerm c3 (.br (c1.blocks.length + 2))) (c1.blocks.length + 1)) = .ok ev c5 ∧
      c' = emitted (goto' (withTerm c5 (.br (c1.blocks.length + 2))) (c1.blocks.length + 2)) (.phi tv c3.cur ev c5.cur) := by
  simp only [genL] at h
  obind h v0 c0 h0
  obind h v c1 h1
  rw [M.bind_ok (condStart_eq _ _)] at h
  simp only at h
  rw [M.bind_ok (setInsertPoint_eq _ _)] at h
  obind h tv0 c2 h2
  obind h tv c3 h3
  rw [M.bind_ok (show getInsertBlock c3 = .ok c3.cur c3 from rfl), M.bind_ok (setTerm_eq _ _), M.bind_ok (setInsertPoint_eq _ _)] at h
  obind h ev0 c4 h4
  obind h ev c5 h5
  rw [M.bind_ok (show getInsertBlock c5 = .ok c5.cur c5 from rfl), M.bind_ok (setTerm_eq _ _), M.bind_ok (setInsertPoint_eq _ _),
    M.bind_ok (emit_eq _ _)] at h
  simp at h
  refine ⟨v, c1, tv, c3, ev, c5, ?_, ?_, ?_, h.2.symm⟩
  · unfold genR; rw [M.bind_ok h0]; exact h1
  · unfold genR; rw [M.bind_ok h2]; exact h3
  · unfold genR; rw [M.bind_ok h4]; exact h5

/-- three blocks and a branch -/
theorem TX.fork {c : CState} (h : Fine c) (n1 n2 n3 : Name) (v : Val) (t : Term) :
    TX G (fun _ => False) (fun i => c.blocks.length ≤ i ∧ i < c.blocks.length + 3) c
      (Blang.withTerm (Blang.emitted (add3 (bump c) n1 n2 n3) (.icmp .ne v (.const 0))) t) ∧
    Shut (Blang.withTerm (Blang.emitted (add3 (bump c) n1 n2 n3) (.icmp .ne v (.const 0))) t) c.cur ∧
    (Blang.withTerm (Blang.emitted (add3 (bump c) n1 n2 n3) (.icmp .ne v (.const 0))) t).blocks.length = c.blocks.length + 3 := by
  have a1 : TX G (fun _ => False) (fun i => c.blocks.length ≤ i ∧ i < c.blocks.length + 3) c (add3 (bump c) n1 n2 n3) :=
    TX.append h [⟨n1, [], none⟩, ⟨n2, [], none⟩, ⟨n3, [], none⟩] rfl rfl rfl
  have a2 := a1.then (TX.emitted a1.fine (.icmp .ne v (.const 0)))
  have a3 := a2.then (TX.withTerm a2.fine t)
  refine ⟨a3, shut_withTerm a2.fine t, ?_⟩
  rw [withTerm_length]
  simp [Blang.emitted, add3, bump]

theorem KT.cond {f0 f1 f2 : B Val} {c c1 c3 c5 : CState} {v tv ev : Val} {n1 n2 n3 : Name} {t : Term}
    (h1 : TE G c c1)
    (k1 : KT G f1) (k2 : KT G f2)
    (h3 : f1 (goto' (Blang.withTerm (Blang.emitted (add3 (bump c1) n1 n2 n3) (.icmp .ne v (.const 0))) t) c1.blocks.length) = .ok tv c3)
    (h5 : f2 (goto' (Blang.withTerm c3 (.br (c1.blocks.length + 2))) (c1.blocks.length + 1)) = .ok ev c5) :
    TE G c (goto' (Blang.withTerm c5 (.br (c1.blocks.length + 2))) (c1.blocks.length + 2)) := by
  obtain ⟨a1, s1, l1⟩ := TX.fork (G := G) h1.fine n1 n2 n3 v t
  have a2 := a1.then (TX.goto a1.fine s1 (j := c1.blocks.length) (by omega))
  have b3 := k1 _ _ _ h3 a2.fine
  have a3 := a2.then b3
  have b4 := TX.withTerm (G := G) b3.fine (.br (c1.blocks.length + 2))
  have l3 := b3.len
  have l4 := b4.len
  have l2 : (goto' (Blang.withTerm (Blang.emitted (add3 (bump c1) n1 n2 n3) (.icmp .ne v (.const 0))) t) c1.blocks.length).blocks.length =
    c1.blocks.length + 3 := l1
  have b4' := b4.then (TX.goto b4.fine (shut_withTerm b3.fine _) (j := c1.blocks.length + 1) (by omega))
  have a4 := a3.then b4'
  have b5 := k2 _ _ _ h5 a4.fine
  have a5 := a4.then b5
  have b6 := TX.withTerm (G := G) b5.fine (.br (c1.blocks.length + 2))
  have l5 := b5.len
  have l6 := b6.len
  have l4' := b4'.len
  have b6' := b6.then (TX.goto b6.fine (shut_withTerm b5.fine _) (j := c1.blocks.length + 2) (by omega))
  have a6 := a5.then b6'
  -- the blocks of the two branches have terminators now
  refine h1.after (a6.finish ?_)
  rintro i ⟨i1, i2⟩ -
  have hc : i = c1.blocks.length ∨ i = c1.blocks.length + 1 ∨ i = c1.blocks.length + 2 := by omega
  rcases hc with rfl | rfl | rfl
  · exact ((b3.then b4').then (b5.then b6')).was (.inl rfl)
  · exact (b5.then b6').was (.inl rfl)
  · exact .inl rfl

mutual
theorem KT.genL : ∀ e : Ex, KT G (genL e)
  | .num _ => KT.pure _
  | .str _ => KT.bind (KT.genStr _) fun _ => KT.pure _
  | .var x => KT.genVar x
  | .paren e => KT.bind (KT.genL e) fun _ => KT.bind (KT.rval _) fun _ => KT.pure _
  | .index a i => KT.bind (KT.genL a) fun _ => KT.bind (KT.rval _) fun _ => KT.bind (KT.emit _) fun _ =>
      KT.bind (KT.genL i) fun _ => KT.bind (KT.rval _) fun _ => KT.bind (KT.emit _) fun _ => KT.pure _
  | .callName f as => KT.bind (KT.genCallee f) fun _ => KT.bind (KT.rval _) fun _ => KT.bind (KT.genArgs as) fun _ =>
      KT.bind (KT.genCall _ _) fun _ => KT.pure _
  | .call f as => KT.bind (KT.genL f) fun _ => KT.bind (KT.rval _) fun _ => KT.bind (KT.genArgs as) fun _ =>
      KT.bind (KT.genCall _ _) fun _ => KT.pure _
  | .post _ e => KT.bind (KT.genL e) fun _ => KT.bind (KT.needLval _) fun _ => KT.bind (KT.genPostfix _ _) fun _ => KT.pure _
  | .pre _ e => KT.bind (KT.genL e) fun _ => KT.bind (KT.needLval _) fun _ => KT.bind (KT.genPrefix _ _) fun _ => KT.pure _
  | .not e => KT.bind (KT.genL e) fun _ => KT.bind (KT.bind (KT.rval _) fun _ => KT.cmpOp _ _ _) fun _ => KT.pure _
  | .neg e => KT.bind (KT.genL e) fun _ => KT.bind (KT.bind (KT.rval _) fun _ => KT.emit _) fun _ => KT.pure _
  | .deref e => KT.bind (KT.genL e) fun _ => KT.bind (KT.bind (KT.rval _) fun _ => KT.emit _) fun _ => KT.pure _
  | .addr e => KT.bind (KT.genL e) fun _ => KT.bind (KT.needLval _) fun _ => KT.bind (KT.emit _) fun _ => KT.pure _
  | .bin _ l r => KT.bind (KT.genL l) fun _ => KT.bind (KT.rval _) fun _ => KT.bind (KT.genL r) fun _ =>
      KT.bind (KT.rval _) fun _ => KT.bind (KT.genOp _ _ _) fun _ => KT.pure _
  | .cond cn t e => by
      intro c r c' h hf
      obtain ⟨v, c1, tv, c3, ev, c5, h1, h3, h5, rfl⟩ := cond_run h
      have k1 : KT G (genR t) := KT.bind (KT.genL t) fun _ => KT.rval _
      have k2 : KT G (genR e) := KT.bind (KT.genL e) fun _ => KT.rval _
      have k0 : KT G (genR cn) := KT.bind (KT.genL cn) fun _ => KT.rval _
      have := KT.cond (f0 := genR cn) (k0 _ _ _ h1 hf) k1 k2 h3 h5
      exact this.then (TX.emitted this.fine _)
  | .assign _ l r => KT.bind (KT.genL l) fun _ => KT.bind (KT.needLval _) fun _ => KT.bind (KT.genL r) fun _ =>
      KT.bind (KT.rval _) fun _ => KT.bind (KT.genAssign _ _ _) fun _ => KT.pure _

theorem KT.genArgs : ∀ es : List Ex, KT G (genArgs es)
  | [] => KT.pure _
  | e :: es => KT.bind (KT.genL e) fun _ => KT.bind (KT.rval _) fun _ => KT.bind (KT.genArgs es) fun _ => KT.pure _
end

theorem KT.genR (e : Ex) : KT G (genR e) := KT.bind (KT.genL e) fun _ => KT.rval _


/-! ### statements -/

theorem lookup_insert_ne {α : Type} {k l : Name} {v : α} {m : List (Name × α)} (h : k ≠ l) : lookup l (insert k v m) = lookup l m := by
  simp [lookup, insert, h]

theorem TX.withLabel {c : CState} (h : Fine c) (l : Name) : TX G (fun _ => False) (fun i => i = labelBlock l c) c (withLabel l c) ∧
    labelBlock l c < (withLabel l c).blocks.length := by
  unfold Blang.withLabel labelBlock
  cases hl : lookup l c.labels with
  | some i => exact ⟨TX.refl h, h.lab l i hl⟩
  | none =>
    refine ⟨⟨⟨?_, ?_⟩, ?_, ?_, ?_, .inl rfl, ?_, fun _ h => h.elim⟩, ?_⟩
    · have := h.cur
      show c.cur < (c.blocks ++ [_]).length
      simp; omega
    · intro l' i e
      show i < (c.blocks ++ [_]).length
      by_cases hn : l = l'
      · subst hn
        simp [lookup, insert] at e
        simp; omega
      · have := h.lab l' i (by rw [← lookup_insert_ne hn]; exact e)
        simp; omega
    · show c.blocks.length ≤ (c.blocks ++ [_]).length
      simp
    · intro l' i e
      show lookup l' (insert l _ c.labels) = some i
      rw [lookup_insert_ne]
      · exact e
      · rintro rfl; rw [hl] at e; cases e
    · rintro i ⟨b, e1, e2⟩
      refine ⟨b, ?_, e2⟩
      show (c.blocks ++ [_])[i]? = some b
      rw [List.getElem?_append_left]
      · exact e1
      · apply Nat.lt_of_not_le; intro hl; rw [List.getElem?_eq_none hl] at e1; cases e1
    · intro i i1 i2
      have : i < (c.blocks ++ [_]).length := i2
      simp at this
      exact .inr (.inr (.inl (by simp; omega)))
    · show _ < (c.blocks ++ [_]).length
      simp

theorem TX.label {c : CState} (h : Fine c) (l : Name) :
    TX G (fun k => k = l) (fun _ => False) c (goto' (Blang.brTo (Blang.withLabel l c) (labelBlock l c)) (labelBlock l c)) := by
  obtain ⟨a1, l1⟩ := TX.withLabel (G := G) h l
  have b2 := TX.brTo (G := G) a1.fine (labelBlock l c)
  have s2 := shut_brTo a1.fine (labelBlock l c)
  rw [← brTo_cur (Blang.withLabel l c) (labelBlock l c)] at s2
  have l2 := b2.len
  have a3 := a1.then (b2.then (TX.goto b2.fine s2 (j := labelBlock l c) (by omega)))
  have a4 := a3.finish (fun i e _ => .inl e)
  refine { a4 with done := ?_ }
  intro k hk
  rw [hk]
  refine ⟨labelBlock l c, ?_, .inl rfl⟩
  show lookup l (Blang.brTo _ _).labels = _
  rw [brTo_labels]
  exact withLabel_lookup l c

theorem TX.gotoStmt {c : CState} (h : Fine c) {l : Name} (hl : G l) {n : Name} :
    TE G c (goto' (bump { (Blang.withTerm (Blang.withLabel l c) (.br (labelBlock l c))) with
      blocks := (Blang.withTerm (Blang.withLabel l c) (.br (labelBlock l c))).blocks ++ [⟨n, [], none⟩] })
      (Blang.withLabel l c).blocks.length) := by
  obtain ⟨a1, l1⟩ := TX.withLabel (G := G) h l
  have a1' : TE G c (Blang.withLabel l c) := by
    refine { a1 with new := ?_ }
    intro i i1 i2
    rcases a1.new i i1 i2 with e | e | e | e
    · exact .inl e
    · exact .inr (.inl e)
    · exact .inr (.inr (.inr ⟨l, hl, by rw [e]; exact withLabel_lookup l c⟩))
    · exact .inr (.inr (.inr e))
  have b2 := TX.withTerm (G := G) a1'.fine (.br (labelBlock l c))
  have s2 := shut_withTerm a1'.fine (.br (labelBlock l c))
  have b3 : TX G (fun _ => False) _ (Blang.withTerm (Blang.withLabel l c) (.br (labelBlock l c)))
      (bump { (Blang.withTerm (Blang.withLabel l c) (.br (labelBlock l c))) with
      blocks := (Blang.withTerm (Blang.withLabel l c) (.br (labelBlock l c))).blocks ++ [⟨n, [], none⟩] }) :=
    TX.append b2.fine [⟨n, [], none⟩] rfl rfl rfl
  have hlen := withTerm_length (Blang.withLabel l c) (.br (labelBlock l c))
  have b4 := b3.then (TX.goto b3.fine (b3.mono _ s2) (j := (Blang.withLabel l c).blocks.length) (by
    show _ < ((Blang.withTerm (Blang.withLabel l c) (.br (labelBlock l c))).blocks ++ [_]).length
    rw [List.length_append, hlen]; simp))
  refine TX.after (a1'.then b2) (b4.finish ?_)
  intro i hi _
  left
  show i = (Blang.withLabel l c).blocks.length
  rw [hlen] at hi
  simp at hi; omega

theorem KT.declareLocal (x : Name) : KT G (declareLocal x) :=
  KT.bind (KT.emit _) fun _ => KT.bind (KT.emit _) fun _ => fun c a c' hc hf => by
    simp at hc; rw [← hc]; exact .same hf rfl rfl rfl

theorem KT.declareLocalArray (x : Name) (n : W) : KT G (declareLocalArray x n) :=
  KT.bind (KT.emit _) fun _ => KT.bind (KT.emit _) fun _ => KT.bind (KT.emit _) fun _ => KT.bind (KT.emit _) fun _ =>
    KT.bind (KT.emit _) fun _ => fun c a c' hc hf => by
    simp at hc; rw [← hc]; exact .same hf rfl rfl rfl

theorem KT.declareAll (ds : List (Name × W)) : KT G (declareAll ds) := by
  induction ds with
  | nil => exact KT.pure _
  | cons d ds ih => exact KT.bind (KT.ite (KT.declareLocal _) (KT.declareLocalArray _ _)) fun _ => ih

theorem KT.genExtrn (xs : List Name) : KT G (genExtrn xs) := by
  intro c a c' h hf
  obtain ⟨a1, a2, _, a4, _⟩ := genExtrn_code _ h
  exact .same hf a1 a2 a4

/-- code of a statement -/
theorem genSt_TX : ∀ (s : St) (sw : Option Nat) (cs : Cases) (c : CState) (cs' : Cases) (c' : CState),
    Fine c → (∀ l ∈ s.gotos, G l) → genSt s sw cs c = .ok cs' c' →
    TX G (fun l => l ∈ s.labels) (fun _ => False) c c' ∧
    (∀ id, sw = some id → ∀ v ∈ cs', v ∈ cs ∨ (lookup (caseName id v) c'.labels).isSome) := by
  intro s
  induction s with
  | skip =>
    intro sw cs c cs' c' hf hg h
    simp only [genSt] at h; simp at h; obtain ⟨rfl, rfl⟩ := h
    exact ⟨(TX.refl hf).mono' (by simp [St.labels]) (fun _ h => h), fun _ _ v h => .inl h⟩
  | seq s t ih1 ih2 =>
    intro sw cs c cs' c' hf hg h
    obtain ⟨cs1, c1, h1, h2⟩ := seq_run h
    obtain ⟨a1, b1⟩ := ih1 _ _ _ _ _ hf (fun l hl => hg l (by simp [St.gotos, hl])) h1
    obtain ⟨a2, b2⟩ := ih2 _ _ _ _ _ a1.fine (fun l hl => hg l (by simp [St.gotos, hl])) h2
    refine ⟨(a1.trans a2).mono' (by simp [St.labels]) (fun _ h => h), ?_⟩
    intro id hid v hv
    rcases b2 id hid v hv with h | h
    · rcases b1 id hid v h with h | h
      · exact .inl h
      · right
        rw [Option.isSome_iff_exists] at h
        obtain ⟨i, hi⟩ := h
        rw [a2.lab _ _ hi]; rfl
    · exact .inr h
  | expr e =>
    intro sw cs c cs' c' hf hg h
    simp only [genSt] at h
    obind h v c1 h1
    simp at h; obtain ⟨rfl, rfl⟩ := h
    exact ⟨(KT.genR e _ _ _ h1 hf).mono' (by simp [St.labels]) (fun _ h => h), fun _ _ v h => .inl h⟩
  | ret e =>
    intro sw cs c cs' c' hf hg h
    cases e with
    | none =>
      simp only [genSt] at h
      rw [M.bind_ok (setTerm_eq _ _)] at h
      simp at h; obtain ⟨rfl, rfl⟩ := h
      exact ⟨(TX.withTerm hf _).mono' (by simp [St.labels]) (fun _ h => h), fun _ _ v h => .inl h⟩
    | some e =>
      simp only [genSt] at h
      obind h v c1 h1
      rw [M.bind_ok (setTerm_eq _ _)] at h
      simp at h; obtain ⟨rfl, rfl⟩ := h
      have a1 := KT.genR (G := G) e _ _ _ h1 hf
      exact ⟨(a1.then (TX.withTerm a1.fine _)).mono' (by simp [St.labels]) (fun _ h => h), fun _ _ v h => .inl h⟩
  | auto ds =>
    intro sw cs c cs' c' hf hg h
    simp only [genSt] at h
    obind h u c1 h1
    obind h u2 c2 h2
    simp at h; obtain ⟨rfl, rfl⟩ := h
    obtain ⟨rfl, _, _⟩ := autoCheck_ok _ _ h1
    exact ⟨(KT.declareAll _ _ _ _ h2 hf).mono' (by simp [St.labels]) (fun _ h => h), fun _ _ v h => .inl h⟩
  | extrn xs =>
    intro sw cs c cs' c' hf hg h
    simp only [genSt] at h
    obind h u c1 h1
    simp at h; obtain ⟨rfl, rfl⟩ := h
    exact ⟨(KT.genExtrn _ _ _ _ h1 hf).mono' (by simp [St.labels]) (fun _ h => h), fun _ _ v h => .inl h⟩
  | ifThen cn t ih =>
    intro sw cs c cs' c' hf hg h
    rw [genSt_ifThen] at h
    obtain ⟨v, c1, x3, c3, x5, c5, h1, h3, h5, rfl, rfl⟩ := if_run h
    simp only [genSt] at h5; simp at h5; obtain ⟨rfl, rfl⟩ := h5
    refine ⟨?_, fun _ _ v h => .inl h⟩
    have a1 := KT.genR (G := G) cn _ _ _ h1 hf
    obtain ⟨f1, s1, l1⟩ := TX.fork (G := G) a1.fine ("if.".toList ++ natDec c1.labelID ++ ".then".toList)
      ("if.".toList ++ natDec c1.labelID ++ ".else".toList) ("if.".toList ++ natDec c1.labelID ++ ".end".toList) v
      (.condbr (.reg c1.nextReg) c1.blocks.length (c1.blocks.length + 1))
    have a2 := f1.then (TX.goto f1.fine s1 (j := c1.blocks.length) (by omega))
    obtain ⟨b3, _⟩ := ih _ _ _ _ _ a2.fine (fun l hl => hg l (by simp [St.gotos, hl])) h3
    have b4 := TX.brTo (G := G) b3.fine (c1.blocks.length + 2)
    have s4 := shut_brTo b3.fine (c1.blocks.length + 2)
    rw [← brTo_cur c3 (c1.blocks.length + 2)] at s4
    have l3 : (goto' (forkIf c1 v) c1.blocks.length).blocks.length ≤ c3.blocks.length := b3.len
    have l4 := b4.len
    have l2 : (goto' (forkIf c1 v) c1.blocks.length).blocks.length = c1.blocks.length + 3 := l1
    have b4' := b4.then (TX.goto b4.fine s4 (j := c1.blocks.length + 1) (by omega))
    have b6 := TX.brTo (G := G) b4'.fine (c1.blocks.length + 2)
    have s6 := shut_brTo b4'.fine (c1.blocks.length + 2)
    rw [← brTo_cur _ (c1.blocks.length + 2)] at s6
    have l6 := b6.len
    have l4' := b4'.len
    have b6' := b6.then (TX.goto b6.fine s6 (j := c1.blocks.length + 2) (by omega))
    have tail := b3.then (b4'.then b6')
    have a6 := (a2.trans (tail.mono' (fun _ h => h) (fun _ h => h.elim))).finish (by
      rintro i ⟨i1, i2⟩ -
      have hc : i = c1.blocks.length ∨ i = c1.blocks.length + 1 ∨ i = c1.blocks.length + 2 := by omega
      rcases hc with rfl | rfl | rfl
      · exact tail.was (.inl rfl)
      · exact b6'.was (.inl rfl)
      · exact .inl rfl)
    exact (TX.after a1 a6).mono' (fun l hl => .inr (by simpa [St.labels] using hl)) (fun _ h => h)
  | ifElse cn t e ih1 ih2 =>
    intro sw cs c cs' c' hf hg h
    obtain ⟨v, c1, x3, c3, x5, c5, h1, h3, h5, rfl, rfl⟩ := if_run h
    refine ⟨?_, fun _ _ v h => .inl h⟩
    have a1 := KT.genR (G := G) cn _ _ _ h1 hf
    obtain ⟨f1, s1, l1⟩ := TX.fork (G := G) a1.fine ("if.".toList ++ natDec c1.labelID ++ ".then".toList)
      ("if.".toList ++ natDec c1.labelID ++ ".else".toList) ("if.".toList ++ natDec c1.labelID ++ ".end".toList) v
      (.condbr (.reg c1.nextReg) c1.blocks.length (c1.blocks.length + 1))
    have a2 := f1.then (TX.goto f1.fine s1 (j := c1.blocks.length) (by omega))
    obtain ⟨b3, _⟩ := ih1 _ _ _ _ _ a2.fine (fun l hl => hg l (by simp [St.gotos, hl])) h3
    have b4 := TX.brTo (G := G) b3.fine (c1.blocks.length + 2)
    have s4 := shut_brTo b3.fine (c1.blocks.length + 2)
    rw [← brTo_cur c3 (c1.blocks.length + 2)] at s4
    have l3 : (goto' (forkIf c1 v) c1.blocks.length).blocks.length ≤ c3.blocks.length := b3.len
    have l4 := b4.len
    have l2 : (goto' (forkIf c1 v) c1.blocks.length).blocks.length = c1.blocks.length + 3 := l1
    have b4' := b4.then (TX.goto b4.fine s4 (j := c1.blocks.length + 1) (by omega))
    obtain ⟨b5, _⟩ := ih2 _ _ _ _ _ b4'.fine (fun l hl => hg l (by simp [St.gotos, hl])) h5
    have b6 := TX.brTo (G := G) b5.fine (c1.blocks.length + 2)
    have s6 := shut_brTo b5.fine (c1.blocks.length + 2)
    rw [← brTo_cur _ (c1.blocks.length + 2)] at s6
    have l5 := b5.len
    have l6 := b6.len
    have l4' := b4'.len
    have b6' := b5.then (b6.then (TX.goto b6.fine s6 (j := c1.blocks.length + 2) (by omega)))
    have tail := b3.trans (TX.after b4' b6')
    have a6 := (a2.trans (tail.mono' (fun _ h => h) (fun _ h => h.elim))).finish (by
      rintro i ⟨i1, i2⟩ -
      have hc : i = c1.blocks.length ∨ i = c1.blocks.length + 1 ∨ i = c1.blocks.length + 2 := by omega
      rcases hc with rfl | rfl | rfl
      · exact tail.was (.inl rfl)
      · exact b6'.was (.inl rfl)
      · exact .inl rfl)
    exact (TX.after a1 a6).mono' (fun l hl => .inr (by simpa [St.labels] using hl)) (fun _ h => h)
  | «while» cn b ih =>
    intro sw cs c cs' c' hf hg h
    obtain ⟨v, c1, x3, c3, h1, h3, rfl, rfl⟩ := while_run h
    refine ⟨?_, fun _ _ v h => .inl h⟩
    unfold whileHead at h1
    generalize "while.".toList ++ natDec c.labelID ++ ".cond".toList = x1 at h1
    generalize "while.".toList ++ natDec c.labelID ++ ".body".toList = x2 at h1
    generalize "while.".toList ++ natDec c.labelID ++ ".end".toList = x3' at h1
    have a1 : TX G (fun _ => False) (fun i => c.blocks.length ≤ i ∧ i < c.blocks.length + 3) c (add3 (bump c) x1 x2 x3') :=
      TX.append hf [⟨x1, [], none⟩, ⟨x2, [], none⟩, ⟨x3', [], none⟩] rfl rfl rfl
    have a2 := a1.then (TX.withTerm a1.fine (.br c.blocks.length))
    have s2 := shut_withTerm a1.fine (.br c.blocks.length)
    have l2 : (withTerm (add3 (bump c) x1 x2 x3') (.br c.blocks.length)).blocks.length = c.blocks.length + 3 := by
      rw [withTerm_length]; simp [add3, bump]
    have a3 := a2.then (TX.goto a2.fine s2 (j := c.blocks.length) (by omega))
    have b1 := KT.genR (G := G) cn _ _ _ h1 a3.fine
    have b2 := TX.emitted (G := G) b1.fine (.icmp .ne v (.const 0))
    have b3 := TX.withTerm (G := G) b2.fine (.condbr (.reg c1.nextReg) (c.blocks.length + 1) (c.blocks.length + 2))
    have s3 := shut_withTerm b2.fine (.condbr (.reg c1.nextReg) (c.blocks.length + 1) (c.blocks.length + 2))
    have k1 := b1.len
    have k2 := b2.len
    have k3 := b3.len
    have l3 : (goto' (withTerm (add3 (bump c) x1 x2 x3') (.br c.blocks.length)) c.blocks.length).blocks.length = c.blocks.length + 3 := l2
    have b4 := b1.then (b2.then (b3.then (TX.goto b3.fine s3 (j := c.blocks.length + 1) (by omega))))
    obtain ⟨b5, _⟩ := ih _ _ _ _ _ b4.fine (fun l hl => hg l (by simp [St.gotos, hl])) h3
    have b6 := TX.brTo (G := G) b5.fine c.blocks.length
    have s6 := shut_brTo b5.fine c.blocks.length
    rw [← brTo_cur _ c.blocks.length] at s6
    have k4 := b4.len
    have k5 := b5.len
    have k6 := b6.len
    have b6' := b5.then (b6.then (TX.goto b6.fine s6 (j := c.blocks.length + 2) (by omega)))
    have tail := TX.after b4 b6'
    have a6 := (a3.trans (tail.mono' (fun _ h => h) (fun _ h => h.elim))).finish (by
      rintro i ⟨i1, i2⟩ -
      have hc : i = c.blocks.length ∨ i = c.blocks.length + 1 ∨ i = c.blocks.length + 2 := by omega
      rcases hc with rfl | rfl | rfl
      · exact tail.was (.inl rfl)
      · exact b6'.was (.inl rfl)
      · exact .inl rfl)
    exact a6.mono' (fun l hl => .inr (by simpa [St.labels] using hl)) (fun _ h => h)
  | switch e b ih =>
    intro sw cs c cs' c' hf hg h
    obtain ⟨v, c1, vs, c3, c4, h1, h3, h4, rfl, rfl⟩ := switch_run h
    refine ⟨?_, fun _ _ v h => .inl h⟩
    have a0 : TE G c (bump c) := .same hf rfl rfl rfl
    have a1 := a0.then (KT.genR (G := G) e _ _ _ h1 a0.fine)
    unfold switchHead at h3
    generalize "switch.".toList ++ natDec c.labelID ++ ".stmts".toList = x1 at h3
    generalize "switch.".toList ++ natDec c.labelID ++ ".cmp".toList = x2 at h3
    generalize "switch.".toList ++ natDec c.labelID ++ ".end".toList = x3 at h3
    have f1 : TX G (fun _ => False) (fun i => c1.blocks.length ≤ i ∧ i < c1.blocks.length + 3) c1 (add3 c1 x1 x2 x3) :=
      TX.append a1.fine [⟨x1, [], none⟩, ⟨x2, [], none⟩, ⟨x3, [], none⟩] rfl rfl rfl
    have f2 := f1.then (TX.withTerm f1.fine (.br (c1.blocks.length + 1)))
    have s2 := shut_withTerm f1.fine (.br (c1.blocks.length + 1))
    have l2 : (withTerm (add3 c1 x1 x2 x3) (.br (c1.blocks.length + 1))).blocks.length = c1.blocks.length + 3 := by
      rw [withTerm_length]; simp [add3]
    have f3 := f2.then (TX.goto f2.fine s2 (j := c1.blocks.length) (by omega))
    obtain ⟨b3, hcs⟩ := ih _ _ _ _ _ f3.fine (fun l hl => hg l (by simp [St.gotos, hl])) h3
    have b4 := TX.brTo (G := G) b3.fine (c1.blocks.length + 2)
    have s4 := shut_brTo b3.fine (c1.blocks.length + 2)
    rw [← brTo_cur c3 (c1.blocks.length + 2)] at s4
    have l3 := b3.len
    have l4 := b4.len
    have l2' : (goto' (withTerm (add3 c1 x1 x2 x3) (.br (c1.blocks.length + 1))) c1.blocks.length).blocks.length = c1.blocks.length + 3 := l2
    have b4' := b4.then (TX.goto b4.fine s4 (j := c1.blocks.length + 1) (by omega))
    rw [switchTerm_eq] at h4
    · cases h4
      have b5 := TX.withTerm (G := G) b4'.fine (switchT c.labelID v (c1.blocks.length + 2) vs
        (goto' (brTo c3 (c1.blocks.length + 2)) (c1.blocks.length + 1)))
      have s5 := shut_withTerm b4'.fine (switchT c.labelID v (c1.blocks.length + 2) vs
        (goto' (brTo c3 (c1.blocks.length + 2)) (c1.blocks.length + 1)))
      have l4' := b4'.len
      have l5 := b5.len
      have b6 := b5.then (TX.goto b5.fine s5 (j := c1.blocks.length + 2) (by omega))
      have tail := b3.then (b4'.then b6)
      have a6 := (f3.trans (tail.mono' (fun _ h => h) (fun _ h => h.elim))).finish (by
        rintro i ⟨i1, i2⟩ -
        have hc : i = c1.blocks.length ∨ i = c1.blocks.length + 1 ∨ i = c1.blocks.length + 2 := by omega
        rcases hc with rfl | rfl | rfl
        · exact tail.was (.inl rfl)
        · exact b6.was (.inl rfl)
        · exact .inl rfl)
      exact (TX.after a1 a6).mono' (fun l hl => .inr (by simpa [St.labels] using hl)) (fun _ h => h)
    · intro w hw
      rcases hcs _ rfl w hw with h | h
      · cases h
      · show (lookup _ (brTo _ _).labels).isSome
        rw [brTo_labels]; exact h
  | case v s ih =>
    intro sw cs c cs' c' hf hg h
    obtain ⟨id, rfl, h⟩ := case_run h
    have a1 := TX.label (G := G) hf (caseName id v)
    obtain ⟨a2, b2⟩ := ih _ _ _ _ _ a1.fine (fun l hl => hg l (by simp [St.gotos, hl])) h
    refine ⟨(a1.trans a2).mono' (fun l hl => .inr (by simpa [St.labels] using hl)) (fun _ h => h), ?_⟩
    intro id' hid w hw
    cases hid
    rcases b2 id rfl w hw with h | h
    · rw [List.mem_append] at h
      rcases h with h | h
      · exact .inl h
      · simp at h; subst h
        right
        obtain ⟨i, e, _⟩ := a1.done _ rfl
        rw [a2.lab _ _ e]; rfl
    · exact .inr h
  | label l s ih =>
    intro sw cs c cs' c' hf hg h
    have h := label_run h
    have a1 := TX.label (G := G) hf l
    obtain ⟨a2, b2⟩ := ih _ _ _ _ _ a1.fine (fun l hl => hg l (by simp [St.gotos, hl])) h
    exact ⟨(a1.trans a2).mono' (by simp [St.labels]) (fun _ h => h), b2⟩
  | goto l =>
    intro sw cs c cs' c' hf hg h
    obtain ⟨rfl, rfl⟩ := goto_run h
    exact ⟨(TX.gotoStmt hf (hg l (by simp [St.gotos]))).mono' (by simp [St.labels]) (fun _ h => h), fun _ _ v h => .inl h⟩

/-! ### functions -/

theorem getOrCreateFunc_KT (n : Name) : KT G (getOrCreateFunc n) := by
  intro c a c' h hf
  unfold getOrCreateFunc at h
  split at h <;> cases h
  · exact .refl hf
  · exact .same hf rfl rfl rfl

theorem KT.firstParam (p : Name) : KT G (firstParam p) :=
  KT.bind (KT.emit _) fun _ => KT.bind (KT.emit _) fun _ => fun c a c' hc hf => by
    simp at hc; rw [← hc]; exact .same hf rfl rfl rfl

theorem KT.vaParams (v : Val) (ps : List Name) : KT G (vaParams v ps) := by
  induction ps with
  | nil => exact KT.pure _
  | cons p ps ih =>
    refine KT.bind (KT.emit _) fun _ => KT.bind (KT.emit _) fun _ => KT.bind (KT.emit _) fun _ => KT.bind ?_ fun _ => ih
    intro c a c' hc hf
    simp at hc; rw [← hc]; exact .same hf rfl rfl rfl

theorem KT.paramCode (ps : List Name) : KT G (paramCode ps) := by
  unfold Blang.paramCode
  split
  · exact KT.pure _
  · exact KT.firstParam _
  · refine KT.bind (KT.firstParam _) fun _ => KT.bind (KT.emit _) fun _ => KT.bind (KT.emit _) fun _ =>
      KT.bind (getOrCreateFunc_KT _) fun _ => KT.bind (KT.emit _) fun _ => KT.bind (KT.vaParams _ _) fun _ =>
      KT.bind (getOrCreateFunc_KT _) fun _ => ?_
    exact KT.bind (KT.emit _) fun _ => KT.pure _

/-- Every block of a finished function has a terminator, except those of labels that a `goto` names
and no statement defines. -/
theorem FuncRun.terminated {f : Name} {ps : List Name} {b : St} {c : CState} {bs : List Block} (r : FuncRun f ps b c bs)
    (hg : ∀ l ∈ b.gotos, l ∈ b.labels) : ∀ B ∈ bs, B.term ≠ none := by
  have f0 : Fine (entered (defFunc f ps) r.c1) := ⟨by simp [entered], by simp [entered, lookup]⟩
  have a1 := KT.paramCode (G := fun l => l ∈ b.gotos) ps _ _ _ r.entry f0
  obtain ⟨a2, _⟩ := genSt_TX (G := fun l => l ∈ b.gotos) b _ _ _ _ _ a1.fine (fun _ h => h) r.body
  have a3 := TX.after a1 a2
  have key : ∀ i, i < r.c3.blocks.length → i = r.c3.cur ∨ Shut r.c3 i := by
    intro i hi
    by_cases h0 : i = 0
    · subst h0
      exact a3.was (.inl rfl)
    · rcases a3.new i (by simp [entered]; omega) hi with e | e | e | ⟨l, e1, e2⟩
      · exact .inl e
      · exact .inr e
      · exact e.elim
      · obtain ⟨j, d1, d2⟩ := a3.done l (hg l e1)
        rw [e2] at d1; cases d1; exact d2
  intro B hB
  rw [r.blocks] at hB
  obtain ⟨i, hi, rfl⟩ := List.getElem_of_mem hB
  have hB := List.getElem?_eq_getElem hi
  unfold closed at hB hi ⊢
  by_cases ht : curTerm r.c3 = none
  · simp only [if_pos ht] at hB hi ⊢
    have hi' : i < r.c3.blocks.length := by simpa using hi
    rw [List.getElem_modify]
    by_cases hc : r.c3.cur = i
    · simp [hc]
    · rw [if_neg hc]
      rcases key i hi' with e | ⟨b, e1, e2⟩
      · exact absurd e.symm hc
      · rw [List.getElem?_eq_getElem hi'] at e1
        cases e1; exact e2
  · simp only [if_neg ht] at hB hi ⊢
    rcases key i hi with e | ⟨b, e1, e2⟩
    · unfold curTerm at ht
      subst e
      rw [List.getElem?_eq_getElem hi] at ht
      exact ht
    · rw [List.getElem?_eq_getElem hi] at e1
      cases e1; exact e2

end
end Blang
