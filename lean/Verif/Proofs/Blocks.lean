import Verif.Proofs.ModInv
/-
How the list of blocks grows while code is generated: instructions are appended to open blocks,
closed blocks stay as they are.
-/
namespace Blang
open Spec

/-- `b'` continues `b`; a closed block is final -/
structure BExt (b b' : Block) : Prop where
  name : b'.name = b.name
  insts : b.insts <+: b'.insts
  closed : b.term ≠ none → b' = b

theorem BExt.refl (b : Block) : BExt b b := ⟨rfl, List.prefix_rfl, fun _ => rfl⟩

theorem BExt.trans {a b c : Block} (h1 : BExt a b) (h2 : BExt b c) : BExt a c := by
  refine ⟨h2.name.trans h1.name, h1.insts.trans h2.insts, fun h => ?_⟩
  have := h1.closed h; subst this
  exact h2.closed h

/-- `bs'` continues `bs` -/
def Ext (bs bs' : List Block) : Prop := ∀ (i : Nat) (b : Block), bs[i]? = some b → ∃ b' : Block, bs'[i]? = some b' ∧ BExt b b'

theorem Ext.refl (bs : List Block) : Ext bs bs := fun _ b h => ⟨b, h, .refl b⟩

theorem Ext.trans {a b c : List Block} (h1 : Ext a b) (h2 : Ext b c) : Ext a c := by
  intro i x hx
  obtain ⟨y, hy, e1⟩ := h1 i x hx
  obtain ⟨z, hz, e2⟩ := h2 i y hy
  exact ⟨z, hz, e1.trans e2⟩

theorem Ext.length {a b : List Block} (h : Ext a b) : a.length ≤ b.length := by
  apply Nat.le_of_not_lt
  intro hl
  obtain ⟨y, hy, _⟩ := h b.length a[b.length] (by rw [List.getElem?_eq_getElem hl])
  rw [List.getElem?_eq_none (Nat.le_refl _)] at hy; cases hy

theorem Ext.append (bs new : List Block) : Ext bs (bs ++ new) := by
  intro i b h
  refine ⟨b, ?_, .refl b⟩
  rw [List.getElem?_append_left]
  · exact h
  · apply Nat.lt_of_not_le; intro hl; rw [List.getElem?_eq_none hl] at h; cases h

theorem Ext.modify {bs : List Block} {i : Nat} {b : Block} {f : Block → Block} (hb : bs[i]? = some b) (hf : BExt b (f b)) :
    Ext bs (bs.modify i f) := by
  intro j x hx
  rw [List.getElem?_modify]
  by_cases h : i = j
  · subst h
    rw [hb] at hx; cases hx
    exact ⟨f b, by simp [hb], hf⟩
  · exact ⟨x, by simp [h, hx], .refl x⟩

/-- the current block exists and has no terminator -/
def Open (c : CState) : Prop := ∃ b : Block, c.blocks[c.cur]? = some b ∧ b.term = none

/-- the current block has just been started -/
def Start (c : CState) : Prop := ∃ b : Block, c.blocks[c.cur]? = some b ∧ b.term = none ∧ b.insts = []

theorem Start.open {c : CState} (h : Start c) : Open c := by
  obtain ⟨b, h1, h2, _⟩ := h; exact ⟨b, h1, h2⟩

theorem Open.curTerm {c : CState} (h : Open c) : curTerm c = none := by
  obtain ⟨b, h1, h2⟩ := h; simp [Blang.curTerm, h1, h2]

theorem Open.lt {c : CState} (h : Open c) : c.cur < c.blocks.length := by
  obtain ⟨b, h1, _⟩ := h
  apply Nat.lt_of_not_le; intro hl; rw [List.getElem?_eq_none hl] at h1; cases h1

/-- What generating an expression in an open block does to the blocks. -/
structure EInv (c c' : CState) : Prop where
  opn : Open c'
  ext : Ext c.blocks c'.blocks
  frame : ∀ i, i < c.blocks.length → i ≠ c.cur → c'.blocks[i]? = c.blocks[i]?
  cur : c'.cur = c.cur ∨ c.blocks.length ≤ c'.cur

theorem EInv.refl {c : CState} (h : Open c) : EInv c c := ⟨h, .refl _, fun _ _ _ => rfl, .inl rfl⟩

theorem EInv.trans {a b c : CState} (h1 : EInv a b) (h2 : EInv b c) : EInv a c := by
  refine ⟨h2.opn, h1.ext.trans h2.ext, fun i hi hn => ?_, ?_⟩
  · have hl := h1.ext.length
    rw [h2.frame i (by omega) ?_, h1.frame i hi hn]
    rcases h1.cur with h | h
    · rw [h]; exact hn
    · omega
  · have hl := h1.ext.length
    rcases h2.cur with h | h
    · rw [h]; exact h1.cur
    · right; omega

/-- states that differ only in tables -/
theorem EInv.of_eq {c c' : CState} (h : Open c) (h1 : c'.blocks = c.blocks) (h2 : c'.cur = c.cur) : EInv c c' := by
  refine ⟨?_, by rw [h1]; exact .refl _, fun i _ _ => by rw [h1], .inl h2⟩
  unfold Open; rw [h1, h2]; exact h

/-- `f` behaves so -/
def KE {α : Type} (f : B α) : Prop := ∀ c a c', f c = .ok a c' → Open c → EInv c c'

section
variable {α β : Type}

theorem KE.bind {f : B α} {g : α → B β} (hf : KE f) (hg : ∀ a, KE (g a)) : KE (f >>= g) := by
  intro c b c' h ho
  obind h a c1 h1
  have i1 := hf _ _ _ h1 ho
  exact i1.trans (hg _ _ _ _ h i1.opn)

theorem KE.pure (a : α) : KE (pure a : B α) := by
  intro c b c' h ho
  simp at h; obtain ⟨_, rfl⟩ := h; exact .refl ho

theorem KE.fail {s : String} : KE (bfail s : B α) := by intro c b c' h; cases h

theorem KE.ite {p : Prop} [Decidable p] {f g : B α} (hf : KE f) (hg : KE g) : KE (if p then f else g) := by
  split <;> assumption

theorem KE.get : KE (M.get : B CState) := by
  intro c b c' h ho; cases h; exact .refl ho
end

theorem emit_blocks {i : Inst} {c c' : CState} {v : Val} (h : emit i c = .ok v c') : v = .reg c.nextReg ∧
    c'.blocks = c.blocks.modify c.cur (fun b => { b with insts := b.insts ++ [(c.nextReg, i)] }) ∧ c'.cur = c.cur ∧
    c'.nextReg = c.nextReg + 1 := by cases h; exact ⟨rfl, rfl, rfl, rfl⟩

theorem KE.emit (i : Inst) : KE (emit i) := by
  intro c v c' h ho
  obtain ⟨rfl, hb, hc, _⟩ := emit_blocks h
  obtain ⟨b, h1, h2⟩ := ho
  refine ⟨⟨{ b with insts := b.insts ++ [(c.nextReg, i)] }, ?_, h2⟩, ?_, ?_, .inl hc⟩
  · rw [hc, hb, List.getElem?_modify]; simp [h1]
  · rw [hb]
    exact Ext.modify h1 ⟨rfl, List.prefix_append _ _, fun h => absurd h2 h⟩
  · intro j hj hn
    have hn' : ¬ c.cur = j := fun e => hn e.symm
    rw [hb, List.getElem?_modify]; simp [hn']

theorem KE.getOrDeclareFunction (x : Name) : KE (getOrDeclareFunction x) := by
  intro c v c' h ho
  unfold Blang.getOrDeclareFunction at h
  cases hl : lookup x c.functions with
  | some f => rw [hl] at h; cases h; exact .refl ho
  | none =>
    rw [hl] at h
    cases hx : lookup x c.ctx with
    | some _ => rw [hx] at h; cases h; exact .refl ho
    | none => rw [hx] at h; cases h; exact .of_eq ho rfl rfl

theorem KE.createString (s : List Char) : KE (createStringConstant s) := by
  intro c v c' h ho; cases h; exact .of_eq ho rfl rfl

theorem KE.rval (v : LV) : KE (rval v) := KE.ite (KE.emit _) (KE.pure _)

theorem KE.cmpOp (p : Pred) (x y : Val) : KE (cmpOp p x y) := KE.bind (KE.emit _) fun _ => KE.emit _

theorem KE.genOp (o : Op) (x y : Val) : KE (genOp o x y) := by
  cases o with
  | bin o => exact KE.emit _
  | cmp p => exact KE.cmpOp _ _ _

theorem KE.needLval (v : LV) : KE (needLval v) := KE.ite (KE.pure _) KE.fail

theorem KE.genCall (f : Val) (as : List Val) : KE (genCall f as) := by
  cases f <;> first | exact KE.bind (KE.emit _) fun _ => KE.emit _ | skip
  exact KE.ite (KE.bind (KE.emit _) fun _ => KE.emit _) (KE.emit _)

theorem KE.genStr (s : List Char) : KE (genStr s) :=
  KE.bind (KE.createString _) fun _ => KE.bind (KE.emit _) fun _ => KE.emit _

theorem KE.genPostfix (o : BinOp) (v : Val) : KE (genPostfix o v) :=
  KE.bind (KE.emit _) fun _ => KE.bind (KE.emit _) fun _ => KE.bind (KE.emit _) fun _ => KE.pure _

theorem KE.genPrefix (o : BinOp) (v : Val) : KE (genPrefix o v) :=
  KE.bind (KE.emit _) fun _ => KE.bind (KE.emit _) fun _ => KE.bind (KE.emit _) fun _ => KE.pure _

theorem KE.genAssign (o : Option Op) (l r : Val) : KE (genAssign o l r) := by
  cases o with
  | none => exact KE.bind (KE.emit _) fun _ => KE.pure _
  | some o => exact KE.bind (KE.emit _) fun _ => KE.bind (KE.genOp _ _ _) fun _ => KE.bind (KE.emit _) fun _ => KE.pure _

theorem KE.getAddress (x : Name) : KE (getAddress x) := by
  intro c a c' h ho
  unfold Blang.getAddress at h
  rw [M.bind_ok (M.get_apply _)] at h
  generalize lookup x c.locals = o1 at h
  cases o1 with
  | some v => exact KE.pure _ _ _ _ h ho
  | none =>
    generalize lookup x c.ctx = o2 at h
    cases o2 with
    | none => exact KE.pure _ _ _ _ h ho
    | some v =>
      cases v with
      | glob s ty =>
        cases ty with
        | i64 => exact KE.pure _ _ _ _ h ho
        | arr n => exact KE.bind (KE.emit _) (fun _ => KE.pure _) _ _ _ h ho
        | bytes n => exact KE.bind (KE.emit _) (fun _ => KE.pure _) _ _ _ h ho
      | _ => exact KE.pure _ _ _ _ h ho

theorem KE.genVar (x : Name) : KE (genVar x) := by
  refine KE.bind (KE.getAddress x) fun r => ?_
  cases r with
  | some a => exact KE.pure _
  | none =>
    refine KE.bind KE.get fun c => ?_
    cases findFuncByName c x with
    | some fn => exact KE.bind (KE.emit _) fun _ => KE.pure _
    | none =>
      refine KE.bind (KE.getOrDeclareFunction x) fun r => ?_
      cases r with
      | some fn => exact KE.bind (KE.emit _) fun _ => KE.pure _
      | none => exact KE.fail

theorem KE.genCallee (x : Name) : KE (genCallee x) := by
  refine KE.bind KE.get fun c => ?_
  cases findFuncByName c x with
  | some fn => exact KE.pure _
  | none =>
    cases lookup x c.ctx with
    | some g => exact KE.pure _
    | none =>
      refine KE.bind (KE.getOrDeclareFunction x) fun r => ?_
      cases r with
      | some fn => exact KE.pure _
      | none => exact KE.fail

/-! ### branching -/

/-- setting the terminator of the current block -/
def withTerm (c : CState) (t : Term) : CState :=
  { c with blocks := c.blocks.modify c.cur fun b => { b with term := some t } }

theorem setTerm_eq (t : Term) (c : CState) : setTerm t c = .ok () (withTerm c t) := rfl

theorem withTerm_ext {c : CState} (h : Open c) (t : Term) : Ext c.blocks (withTerm c t).blocks := by
  obtain ⟨b, h1, h2⟩ := h
  exact Ext.modify h1 ⟨rfl, List.prefix_rfl, fun h => absurd h2 h⟩

theorem withTerm_frame (c : CState) (t : Term) {i : Nat} (h : i ≠ c.cur) : (withTerm c t).blocks[i]? = c.blocks[i]? := by
  unfold withTerm
  have hn' : ¬ c.cur = i := fun e => h e.symm
  rw [List.getElem?_modify]; simp [hn']

theorem withTerm_at {c : CState} {b : Block} (h : c.blocks[c.cur]? = some b) (t : Term) :
    (withTerm c t).blocks[c.cur]? = some { b with term := some t } := by
  unfold withTerm
  rw [List.getElem?_modify]; simp [h]

theorem withTerm_length (c : CState) (t : Term) : (withTerm c t).blocks.length = c.blocks.length := by
  simp [withTerm]

/-- three new blocks, a comparison and the branch -/
structure Forked (n1 n2 n3 : Name) (cond : Val) (c c' : CState) : Prop where
  blocks : ∃ b : Block, c.blocks[c.cur]? = some b ∧ ∀ i : Nat, c'.blocks[i]? =
    if i = c.cur then some ⟨b.name, b.insts ++ [(c.nextReg, .icmp .ne cond (.const 0))],
      some (.condbr (.reg c.nextReg) c.blocks.length (c.blocks.length + 1))⟩
    else (c.blocks ++ [⟨n1, [], none⟩, ⟨n2, [], none⟩, ⟨n3, [], none⟩])[i]?
  cur : c'.cur = c.cur
  reg : c'.nextReg = c.nextReg + 1
  locals : c'.locals = c.locals
  labels : c'.labels = c.labels
  labelID : c'.labelID = c.labelID + 1

theorem fork_forked {n1 n2 n3 : Nat → Name} {cond : Val} {c c' : CState} (ho : Open c) {t e d : Nat}
    (h : (do
      let id ← freshLabelID
      let thenBlock ← newBlock (n1 id)
      let elseBlock ← newBlock (n2 id)
      let endBlock ← newBlock (n3 id)
      let cmp ← emit (.icmp .ne cond (.const 0))
      setTerm (.condbr cmp thenBlock elseBlock)
      pure (thenBlock, elseBlock, endBlock) : B (Nat × Nat × Nat)) c = .ok (t, e, d) c') :
    Forked (n1 c.labelID) (n2 c.labelID) (n3 c.labelID) cond c c' ∧ t = c.blocks.length ∧ e = c.blocks.length + 1 ∧
      d = c.blocks.length + 2 := by
  obtain ⟨b, h1, h2⟩ := ho
  have hl : c.cur < c.blocks.length := Open.lt ⟨b, h1, h2⟩
  cases h
  refine ⟨⟨⟨b, h1, ?_⟩, rfl, rfl, rfl, rfl, rfl⟩, rfl, by simp, by simp⟩
  intro i
  simp only [List.append_assoc, List.cons_append, List.nil_append, List.length_append, List.length_cons, List.length_nil,
    List.getElem?_modify]
  by_cases hi : i = c.cur
  · subst hi
    simp [List.getElem?_append_left hl, h1]
  · have hi' : ¬ c.cur = i := fun e => hi e.symm
    simp [hi, hi']

theorem condStart_forked {v : Val} {c c' : CState} {t e d : Nat} (ho : Open c) (h : condStart v c = .ok (t, e, d) c') :
    Forked ("cond.then.".toList ++ natDec c.labelID) ("cond.else.".toList ++ natDec c.labelID)
      ("cond.end.".toList ++ natDec c.labelID) v c c' ∧ t = c.blocks.length ∧ e = c.blocks.length + 1 ∧ d = c.blocks.length + 2 :=
  fork_forked (n1 := fun k => "cond.then.".toList ++ natDec k) (n2 := fun k => "cond.else.".toList ++ natDec k)
    (n3 := fun k => "cond.end.".toList ++ natDec k) ho h

theorem ifStart_forked {v : Val} {c c' : CState} {t e d : Nat} (ho : Open c) (h : ifStart v c = .ok (t, e, d) c') :
    Forked ("if.".toList ++ natDec c.labelID ++ ".then".toList) ("if.".toList ++ natDec c.labelID ++ ".else".toList)
      ("if.".toList ++ natDec c.labelID ++ ".end".toList) v c c' ∧ t = c.blocks.length ∧ e = c.blocks.length + 1 ∧
      d = c.blocks.length + 2 :=
  fork_forked (n1 := fun k => "if.".toList ++ natDec k ++ ".then".toList) (n2 := fun k => "if.".toList ++ natDec k ++ ".else".toList)
    (n3 := fun k => "if.".toList ++ natDec k ++ ".end".toList) ho h

section
variable {n1 n2 n3 : Name} {v : Val} {c c' : CState}

theorem Forked.length (h : Forked n1 n2 n3 v c c') (ho : Open c) : c'.blocks.length = c.blocks.length + 3 := by
  obtain ⟨b, h1, h2⟩ := h.blocks
  have hl := ho.lt
  have a1 := h2 (c.blocks.length + 2)
  have a2 := h2 (c.blocks.length + 3)
  rw [if_neg (by omega)] at a1 a2
  rw [List.getElem?_append_right (by omega)] at a1 a2
  simp at a1 a2
  have b1 : c.blocks.length + 2 < c'.blocks.length := by
    apply Nat.lt_of_not_le; intro hn; rw [List.getElem?_eq_none hn] at a1; cases a1
  omega

theorem Forked.frame (h : Forked n1 n2 n3 v c c') {i : Nat} (hi : i < c.blocks.length) (hn : i ≠ c.cur) :
    c'.blocks[i]? = c.blocks[i]? := by
  obtain ⟨b, h1, h2⟩ := h.blocks
  rw [h2 i, if_neg hn, List.getElem?_append_left hi]

theorem Forked.new (h : Forked n1 n2 n3 v c c') (ho : Open c) :
    c'.blocks[c.blocks.length]? = some ⟨n1, [], none⟩ ∧ c'.blocks[c.blocks.length + 1]? = some ⟨n2, [], none⟩ ∧
    c'.blocks[c.blocks.length + 2]? = some ⟨n3, [], none⟩ := by
  obtain ⟨b, h1, h2⟩ := h.blocks
  have hl := ho.lt
  rw [h2, h2, h2, if_neg (by omega), if_neg (by omega), if_neg (by omega)]
  simp

theorem Forked.ext (h : Forked n1 n2 n3 v c c') (ho : Open c) : Ext c.blocks c'.blocks := by
  obtain ⟨b, h1, h2⟩ := h.blocks
  obtain ⟨b', h1', ht⟩ := ho
  rw [h1] at h1'; cases h1'
  intro i x hx
  by_cases hi : i = c.cur
  · subst hi
    rw [h1] at hx; cases hx
    refine ⟨_, (h2 c.cur).trans (if_pos rfl), ?_⟩
    exact ⟨rfl, List.prefix_append _ _, fun h => absurd ht h⟩
  · have hl : i < c.blocks.length := by
      apply Nat.lt_of_not_le; intro hn; rw [List.getElem?_eq_none hn] at hx; cases hx
    exact ⟨x, by rw [h2, if_neg hi, List.getElem?_append_left hl, hx], .refl x⟩
end

/-- the state with another insertion point -/
def goto' (c : CState) (b : Nat) : CState := { c with cur := b }

theorem setInsertPoint_eq (b : Nat) (c : CState) : setInsertPoint b c = .ok () (goto' c b) := rfl

/-- the stages of `c ? t : e` -/
structure CondRun (c t e : Ex) (c0 c' : CState) where
  c1 : CState
  cv : LV
  c2 : CState
  cond : Val
  c3 : CState
  c4 : CState
  tv : LV
  c5 : CState
  thenVal : Val
  c6 : CState
  ev : LV
  c7 : CState
  elseVal : Val
  h1 : genL c c0 = .ok cv c1
  h2 : rval cv c1 = .ok cond c2
  h3 : condStart cond c2 = .ok (c2.blocks.length, c2.blocks.length + 1, c2.blocks.length + 2) c3
  h4 : genL t (goto' c3 c2.blocks.length) = .ok tv c4
  h5 : rval tv c4 = .ok thenVal c5
  h6 : genL e (goto' (withTerm c5 (.br (c2.blocks.length + 2))) (c2.blocks.length + 1)) = .ok ev c6
  h7 : rval ev c6 = .ok elseVal c7
  h8 : ∃ v, emit (.phi thenVal c5.cur elseVal c7.cur) (goto' (withTerm c7 (.br (c2.blocks.length + 2))) (c2.blocks.length + 2)) = .ok v c'

theorem condRun {c t e : Ex} {c0 c' : CState} {v : LV} (h : genL (.cond c t e) c0 = .ok v c')
    (ho : ∀ cv c1 cond c2, genL c c0 = .ok cv c1 → rval cv c1 = .ok cond c2 → Open c2) :
    ∃ r : CondRun c t e c0 c', v.2 = false ∧
      emit (.phi r.thenVal r.c5.cur r.elseVal r.c7.cur)
        (goto' (withTerm r.c7 (.br (r.c2.blocks.length + 2))) (r.c2.blocks.length + 2)) = .ok v.1 c' := by
  simp only [genL] at h
  obind h cv c1 h1
  obind h cond c2 h2
  obind h tri c3 h3
  obtain ⟨tb, eb, db⟩ := tri
  obtain ⟨_, rfl, rfl, rfl⟩ := condStart_forked (ho _ _ _ _ h1 h2) h3
  rw [M.bind_ok (setInsertPoint_eq _ _)] at h
  obind h tv c4 h4
  obind h thenVal c5 h5
  rw [M.bind_ok (show getInsertBlock c5 = .ok c5.cur c5 from rfl), M.bind_ok (setTerm_eq _ _),
    M.bind_ok (setInsertPoint_eq _ _)] at h
  obind h ev c6 h6
  obind h elseVal c7 h7
  rw [M.bind_ok (show getInsertBlock c7 = .ok c7.cur c7 from rfl), M.bind_ok (setTerm_eq _ _),
    M.bind_ok (setInsertPoint_eq _ _)] at h
  obind h w c8 h8
  simp at h; obtain ⟨rfl, rfl⟩ := h
  exact ⟨⟨c1, cv, c2, cond, c3, c4, tv, c5, thenVal, c6, ev, c7, elseVal, h1, h2, h3, h4, h5, h6, h7, ⟨w, h8⟩⟩, rfl, h8⟩

/-- facts about the blocks at the stages of `?:` -/
structure CondBlocks {c t e : Ex} {c0 c' : CState} (r : CondRun c t e c0 c') : Prop where
  e2 : EInv c0 r.c2
  start3 : Start (goto' r.c3 r.c2.blocks.length)
  e5 : EInv (goto' r.c3 r.c2.blocks.length) r.c5
  start6 : Start (goto' (withTerm r.c5 (.br (r.c2.blocks.length + 2))) (r.c2.blocks.length + 1))
  e7 : EInv (goto' (withTerm r.c5 (.br (r.c2.blocks.length + 2))) (r.c2.blocks.length + 1)) r.c7
  start8 : Start (goto' (withTerm r.c7 (.br (r.c2.blocks.length + 2))) (r.c2.blocks.length + 2))
  e' : EInv (goto' (withTerm r.c7 (.br (r.c2.blocks.length + 2))) (r.c2.blocks.length + 2)) c'
  all : EInv c0 c'

theorem condBlocks {c t e : Ex} {c0 c' : CState} (ic : KE (genL c)) (it : KE (genL t)) (ie : KE (genL e)) (ho : Open c0)
    (r : CondRun c t e c0 c') : CondBlocks r := by
  have e1 := ic _ _ _ r.h1 ho
  have e2 := e1.trans (KE.rval _ _ _ _ r.h2 e1.opn)
  obtain ⟨fk, _⟩ := condStart_forked e2.opn r.h3
  obtain ⟨w1, w2, w3⟩ := fk.new e2.opn
  have l2 := e2.opn.lt
  have l3 := fk.length e2.opn
  have s3 : Start (goto' r.c3 r.c2.blocks.length) := ⟨_, w1, rfl, rfl⟩
  have i4 := it _ _ _ r.h4 s3.open
  have i5 := i4.trans (KE.rval _ _ _ _ r.h5 i4.opn)
  have l5 : (goto' r.c3 r.c2.blocks.length).blocks.length ≤ r.c5.blocks.length := i5.ext.length
  have l5' : r.c3.blocks.length ≤ r.c5.blocks.length := l5
  have cur5 : r.c5.cur = r.c2.blocks.length ∨ r.c2.blocks.length + 3 ≤ r.c5.cur := by
    rcases i5.cur with h | h
    · exact .inl h
    · right; have : r.c3.blocks.length ≤ r.c5.cur := h; omega
  have f5 : ∀ i, i < r.c2.blocks.length + 3 → i ≠ r.c2.blocks.length → r.c5.blocks[i]? = r.c3.blocks[i]? := by
    intro i hi hn
    exact i5.frame i (by show i < r.c3.blocks.length; omega) hn
  have s6 : Start (goto' (withTerm r.c5 (.br (r.c2.blocks.length + 2))) (r.c2.blocks.length + 1)) := by
    refine ⟨⟨"cond.else.".toList ++ natDec r.c2.labelID, [], none⟩, ?_, rfl, rfl⟩
    show (withTerm r.c5 _).blocks[r.c2.blocks.length + 1]? = _
    rw [withTerm_frame _ _ (by rcases cur5 with h | h <;> omega), f5 _ (by omega) (by omega), w2]
  have i6 := ie _ _ _ r.h6 s6.open
  have i7 := i6.trans (KE.rval _ _ _ _ r.h7 i6.opn)
  have l6 : (goto' (withTerm r.c5 (.br (r.c2.blocks.length + 2))) (r.c2.blocks.length + 1)).blocks.length = r.c5.blocks.length :=
    withTerm_length _ _
  have l7 : r.c5.blocks.length ≤ r.c7.blocks.length := by rw [← l6]; exact i7.ext.length
  have cur7 : r.c7.cur = r.c2.blocks.length + 1 ∨ r.c2.blocks.length + 3 ≤ r.c7.cur := by
    rcases i7.cur with h | h
    · exact .inl h
    · right; rw [l6] at h; omega
  have f7 : ∀ i, i < r.c2.blocks.length + 3 → i ≠ r.c2.blocks.length + 1 → i ≠ r.c5.cur → r.c7.blocks[i]? = r.c5.blocks[i]? := by
    intro i hi hn hn2
    rw [i7.frame i (by rw [l6]; omega) hn]
    exact withTerm_frame _ _ hn2
  have s8 : Start (goto' (withTerm r.c7 (.br (r.c2.blocks.length + 2))) (r.c2.blocks.length + 2)) := by
    refine ⟨⟨"cond.end.".toList ++ natDec r.c2.labelID, [], none⟩, ?_, rfl, rfl⟩
    show (withTerm r.c7 _).blocks[r.c2.blocks.length + 2]? = _
    rw [withTerm_frame _ _ (by rcases cur7 with h | h <;> omega), f7 _ (by omega) (by omega) (by rcases cur5 with h | h <;> omega),
      f5 _ (by omega) (by omega), w3]
  obtain ⟨w, h8⟩ := r.h8
  have i8 := KE.emit _ _ _ _ h8 s8.open
  refine ⟨e2, s3, i5, s6, i7, s8, i8, i8.opn, ?_, ?_, ?_⟩
  · have a1 : Ext r.c3.blocks r.c5.blocks := i5.ext
    have a2 : Ext r.c5.blocks (withTerm r.c5 (.br (r.c2.blocks.length + 2))).blocks := withTerm_ext i5.opn _
    have a3 : Ext (withTerm r.c5 (.br (r.c2.blocks.length + 2))).blocks r.c7.blocks := i7.ext
    have a4 : Ext r.c7.blocks (withTerm r.c7 (.br (r.c2.blocks.length + 2))).blocks := withTerm_ext i7.opn _
    have a5 : Ext (withTerm r.c7 (.br (r.c2.blocks.length + 2))).blocks c'.blocks := i8.ext
    exact e2.ext.trans ((fk.ext e2.opn).trans (a1.trans (a2.trans (a3.trans (a4.trans a5)))))
  · intro i hi hn
    have hl := e2.ext.length
    have hn2 : i ≠ r.c2.cur := by
      rcases e2.cur with h | h <;> omega
    have a5 : c'.blocks[i]? = (withTerm r.c7 (.br (r.c2.blocks.length + 2))).blocks[i]? :=
      i8.frame i (by show i < (withTerm r.c7 _).blocks.length; rw [withTerm_length]; omega) (by show i ≠ r.c2.blocks.length + 2; omega)
    rw [a5, withTerm_frame _ _ (by rcases cur7 with h | h <;> omega),
      f7 _ (by omega) (by omega) (by rcases cur5 with h | h <;> omega), f5 _ (by omega) (by omega), fk.frame (by omega) hn2,
      e2.frame i hi hn]
  · right
    obtain ⟨_, _, hc, _⟩ := emit_blocks h8
    rw [hc]
    have := e2.ext.length
    show c0.blocks.length ≤ r.c2.blocks.length + 2
    omega

mutual
theorem KE.genL : ∀ e : Ex, KE (genL e)
  | .num v => KE.pure _
  | .str s => KE.bind (KE.genStr _) fun _ => KE.pure _
  | .var x => KE.genVar x
  | .paren e => KE.bind (KE.genL e) fun _ => KE.bind (KE.rval _) fun _ => KE.pure _
  | .index a i => KE.bind (KE.genL a) fun _ => KE.bind (KE.rval _) fun _ => KE.bind (KE.emit _) fun _ =>
      KE.bind (KE.genL i) fun _ => KE.bind (KE.rval _) fun _ => KE.bind (KE.emit _) fun _ => KE.pure _
  | .callName f as => KE.bind (KE.genCallee f) fun _ => KE.bind (KE.rval _) fun _ => KE.bind (KE.genArgs as) fun _ =>
      KE.bind (KE.genCall _ _) fun _ => KE.pure _
  | .call f as => KE.bind (KE.genL f) fun _ => KE.bind (KE.rval _) fun _ => KE.bind (KE.genArgs as) fun _ =>
      KE.bind (KE.genCall _ _) fun _ => KE.pure _
  | .post d e => KE.bind (KE.genL e) fun _ => KE.bind (KE.needLval _) fun _ => KE.bind (KE.genPostfix _ _) fun _ => KE.pure _
  | .pre d e => KE.bind (KE.genL e) fun _ => KE.bind (KE.needLval _) fun _ => KE.bind (KE.genPrefix _ _) fun _ => KE.pure _
  | .not e => KE.bind (KE.genL e) fun _ => KE.bind (KE.bind (KE.rval _) fun _ => KE.cmpOp _ _ _) fun _ => KE.pure _
  | .neg e => KE.bind (KE.genL e) fun _ => KE.bind (KE.bind (KE.rval _) fun _ => KE.emit _) fun _ => KE.pure _
  | .deref e => KE.bind (KE.genL e) fun _ => KE.bind (KE.bind (KE.rval _) fun _ => KE.emit _) fun _ => KE.pure _
  | .addr e => KE.bind (KE.genL e) fun _ => KE.bind (KE.needLval _) fun _ => KE.bind (KE.emit _) fun _ => KE.pure _
  | .bin o l r => KE.bind (KE.genL l) fun _ => KE.bind (KE.rval _) fun _ => KE.bind (KE.genL r) fun _ =>
      KE.bind (KE.rval _) fun _ => KE.bind (KE.genOp _ _ _) fun _ => KE.pure _
  | .cond c t e => fun c0 v c' h ho => by
      obtain ⟨r, _, _⟩ := condRun h fun _ _ _ _ h1 h2 =>
        (KE.rval _ _ _ _ h2 (KE.genL c _ _ _ h1 ho).opn).opn
      exact (condBlocks (KE.genL c) (KE.genL t) (KE.genL e) ho r).all
  | .assign o l r => KE.bind (KE.genL l) fun _ => KE.bind (KE.needLval _) fun _ => KE.bind (KE.genL r) fun _ =>
      KE.bind (KE.rval _) fun _ => KE.bind (KE.genAssign _ _ _) fun _ => KE.pure _

theorem KE.genArgs : ∀ es : List Ex, KE (genArgs es)
  | [] => KE.pure _
  | e :: es => KE.bind (KE.genL e) fun _ => KE.bind (KE.rval _) fun _ => KE.bind (KE.genArgs es) fun _ => KE.pure _
end

theorem KE.genR (e : Ex) : KE (genR e) := KE.bind (KE.genL e) fun _ => KE.rval _

end Blang
