import Verif.Proofs.Terminated
/-
Names of the blocks of a function.
-/
namespace Blang
open Spec

/-- the pieces between the dots -/
def pieces : List Char → List (List Char)
  | [] => [[]]
  | c :: cs => if c = '.' then [] :: pieces cs else
    match pieces cs with
    | [] => [[c]]
    | p :: ps => (c :: p) :: ps

theorem pieces_ne (l : List Char) : pieces l ≠ [] := by
  cases l with
  | nil => simp [pieces]
  | cons c cs =>
    unfold pieces
    split
    · simp
    · split <;> simp

theorem pieces_dot (a b : List Char) (ha : '.' ∉ a) : pieces (a ++ '.' :: b) = a :: pieces b := by
  induction a with
  | nil => simp [pieces]
  | cons c a ih =>
    simp only [List.mem_cons, not_or] at ha
    rw [List.cons_append, pieces, if_neg (Ne.symm ha.1), ih ha.2]

theorem pieces_plain (a : List Char) (ha : '.' ∉ a) : pieces a = [a] := by
  induction a with
  | nil => simp [pieces]
  | cons c a ih =>
    simp only [List.mem_cons, not_or] at ha
    rw [pieces, if_neg (Ne.symm ha.1), ih ha.2]

theorem natDec_no_dot (n : Nat) : '.' ∉ natDec n := fun h => digit_not_dot (natDec_digits h) rfl

theorem intDec_no_dot (v : W) : '.' ∉ intDec v := by
  unfold intDec; split
  · simp [natDec_no_dot]
  · exact natDec_no_dot _

/-- the generated names: pieces with the number `id` -/
inductive GenName (id : Nat) : Name → Prop where
  | front {a b n : Name} : a ≠ "case".toList → pieces n = [a, b, natDec id] → a = "cond".toList → GenName id n
  | mid {a b n : Name} : pieces n = [a, natDec id, b] → a ≠ "case".toList → a ≠ "cond".toList → GenName id n
  | dead {n : Name} : pieces n = ["unreachable".toList, natDec id] → GenName id n

theorem GenName.id_eq {i j : Nat} {n : Name} (h : GenName i n) (h' : GenName j n) : i = j := by
  cases h with
  | front h1 h2 h3 =>
    cases h' with
    | front g1 g2 g3 => rw [h2] at g2; simp at g2; exact natDec_inj g2.2.2
    | mid g1 g2 g3 => rw [h2] at g1; simp at g1; exact absurd (g1.1 ▸ h3) g3
    | dead g1 => rw [h2] at g1; simp at g1
  | mid h1 h2 h3 =>
    cases h' with
    | front g1 g2 g3 => rw [h1] at g2; simp at g2; exact absurd (g2.1.symm ▸ g3) h3
    | mid g1 g2 g3 => rw [h1] at g1; simp at g1; exact natDec_inj g1.2.1
    | dead g1 => rw [h1] at g1; simp at g1
  | dead h1 =>
    cases h' with
    | front g1 g2 g3 => rw [h1] at g2; simp at g2
    | mid g1 g2 g3 => rw [h1] at g1; simp at g1
    | dead g1 => rw [h1] at g1; simp at g1; exact natDec_inj g1

/-- names of labels and cases -/
def LabName (n : Name) : Prop := '.' ∉ n ∨ ∃ k v, n = caseName k v

theorem caseName_pieces (k : Nat) (v : W) : pieces (caseName k v) = ["case".toList, natDec k, intDec v] := by
  have : caseName k v = "case".toList ++ '.' :: (natDec k ++ '.' :: intDec v) := by
    simp [caseName]
  rw [this, pieces_dot _ _ (by decide), pieces_dot _ _ (natDec_no_dot k), pieces_plain _ (intDec_no_dot v)]

theorem GenName.not_lab {i : Nat} {n : Name} (h : GenName i n) (hl : LabName n) : False := by
  have : pieces n = [n] ∨ ∃ k v, pieces n = ["case".toList, natDec k, intDec v] := by
    rcases hl with hl | ⟨k, v, rfl⟩
    · exact .inl (pieces_plain _ hl)
    · exact .inr ⟨k, v, caseName_pieces k v⟩
  rcases this with e | ⟨k, v, e⟩
  · cases h with
    | front h1 h2 h3 => rw [e] at h2; simp at h2
    | mid h1 h2 h3 => rw [e] at h1; simp at h1
    | dead h1 => rw [e] at h1; simp at h1
  · cases h with
    | front h1 h2 h3 => rw [e] at h2; simp only [List.cons.injEq] at h2; exact h1 h2.1.symm
    | mid h1 h2 h3 => rw [e] at h1; simp only [List.cons.injEq] at h1; exact h2 h1.1.symm
    | dead h1 => rw [e] at h1; simp at h1

def names (c : CState) : List Name := c.blocks.map (·.name)

/-- What code generation does to the names of blocks. -/
structure NB (P : Name → Prop) (c c' : CState) : Prop where
  id : c.labelID ≤ c'.labelID
  lab : ∀ l, (lookup l c.labels).isSome → (lookup l c'.labels).isSome
  new : ∃ new, names c' = names c ++ new ∧ new.Nodup ∧ (∀ n ∈ new,
    (∃ i, GenName i n ∧ c.labelID ≤ i ∧ i < c'.labelID) ∨
    ((P n ∨ ∃ k v, n = caseName k v) ∧ lookup n c.labels = none ∧ (lookup n c'.labels).isSome)) ∧
    ∀ l, (lookup l c'.labels).isSome → (lookup l c.labels).isSome ∨ l ∈ new

section
variable {P : Name → Prop} {a b c c' : CState}

theorem NB.same (h1 : names c' = names c) (h2 : c'.labelID = c.labelID) (h3 : c'.labels = c.labels) : NB P c c' :=
  ⟨by omega, by rw [h3]; exact fun _ h => h, [], by simp [h1], List.nodup_nil, by simp, by rw [h3]; exact fun _ h => .inl h⟩

theorem NB.refl (c : CState) : NB P c c := .same rfl rfl rfl

theorem NB.trans (hP : ∀ n, P n → '.' ∉ n) (h1 : NB P a b) (h2 : NB P b c) : NB P a c := by
  obtain ⟨n1, e1, d1, w1, z1⟩ := h1.new
  obtain ⟨n2, e2, d2, w2, z2⟩ := h2.new
  have i1 := h1.id
  have i2 := h2.id
  refine ⟨by omega, fun l h => h2.lab l (h1.lab l h), n1 ++ n2, by rw [e2, e1, List.append_assoc], ?_, ?_, ?_⟩
  · rw [List.nodup_append]
    refine ⟨d1, d2, ?_⟩
    rintro n m1 _ m2 rfl
    have lab : ∀ {n}, (P n ∨ ∃ k v, n = caseName k v) → LabName n := fun h => h.imp (hP _) (fun h => h)
    rcases w1 n m1 with ⟨i, g1, g2, g3⟩ | ⟨l1, l2, l3⟩ <;> rcases w2 n m2 with ⟨j, k1, k2, k3⟩ | ⟨k1, k2, k3⟩
    · have := g1.id_eq k1; omega
    · exact g1.not_lab (lab k1)
    · exact k1.not_lab (lab l1)
    · rw [k2] at l3; cases l3
  · intro n hn
    rw [List.mem_append] at hn
    rcases hn with hn | hn
    · rcases w1 n hn with ⟨i, g1, g2, g3⟩ | ⟨l1, l2, l3⟩
      · exact .inl ⟨i, g1, g2, by omega⟩
      · exact .inr ⟨l1, l2, h2.lab _ l3⟩
    · rcases w2 n hn with ⟨i, g1, g2, g3⟩ | ⟨l1, l2, l3⟩
      · exact .inl ⟨i, g1, by omega, g3⟩
      · refine .inr ⟨l1, ?_, l3⟩
        cases hl : lookup n a.labels with
        | none => rfl
        | some i => have := h1.lab n (by rw [hl]; rfl); rw [l2] at this; cases this
  · intro l hl
    rcases z2 l hl with h | h
    · rcases z1 l h with h | h
      · exact .inl h
      · exact .inr (List.mem_append_left _ h)
    · exact .inr (List.mem_append_right _ h)

theorem names_modify (i : Nat) (f : Block → Block) (hf : ∀ b, (f b).name = b.name) (bs : List Block) :
    (bs.modify i f).map (·.name) = bs.map (·.name) := by
  apply List.ext_getElem?
  intro j
  rw [List.getElem?_map, List.getElem?_map, List.getElem?_modify]
  by_cases h : i = j
  · cases bs[j]? <;> simp [h, hf]
  · simp [h]

theorem names_emitted (c : CState) (i : Inst) : names (emitted c i) = names c :=
  names_modify _ (fun b => { b with insts := b.insts ++ [(c.nextReg, i)] }) (fun _ => rfl) _
theorem names_withTerm (c : CState) (t : Term) : names (withTerm c t) = names c :=
  names_modify _ (fun b => { b with term := some t }) (fun _ => rfl) _
theorem names_brTo (c : CState) (b : Nat) : names (brTo c b) = names c := by
  unfold brTo; split
  · exact names_withTerm _ _
  · rfl
theorem names_goto (c : CState) (b : Nat) : names (goto' c b) = names c := rfl

theorem NB.emitted (c : CState) (i : Inst) : NB P c (emitted c i) := .same (names_emitted _ _) rfl rfl
theorem NB.withTerm (c : CState) (t : Term) : NB P c (withTerm c t) := .same (names_withTerm _ _) rfl rfl
theorem NB.brTo (c : CState) (b : Nat) : NB P c (brTo c b) := .same (names_brTo _ _) (brTo_id _ _) (brTo_labels _ _)
theorem NB.goto (c : CState) (b : Nat) : NB P c (goto' c b) := .same rfl rfl rfl

/-- blocks with new names -/
theorem NB.fresh {new : List Block} (h1 : c'.blocks = c.blocks ++ new) (h2 : c'.labelID = c.labelID + 1) (h3 : c'.labels = c.labels)
    (hn : (new.map (·.name)).Nodup) (hg : ∀ n ∈ new.map (·.name), GenName c.labelID n) : NB P c c' :=
  ⟨by omega, by rw [h3]; exact fun _ h => h, new.map (·.name), by simp [names, h1], hn, fun n h => .inl ⟨_, hg n h, Nat.le_refl _, by omega⟩, by rw [h3]; exact fun _ h => .inl h⟩

theorem genName_mid (i : Nat) {a b : Name} (ha : '.' ∉ a) (hb : '.' ∉ b) (h1 : a ≠ "case".toList) (h2 : a ≠ "cond".toList) {n : Name}
    (hn : n = a ++ '.' :: (natDec i ++ '.' :: b)) : GenName i n := by
  subst hn
  refine .mid (a := a) (b := b) ?_ h1 h2
  rw [pieces_dot _ _ ha, pieces_dot _ _ (natDec_no_dot i), pieces_plain _ hb]

theorem genName_front (i : Nat) {b : Name} (hb : '.' ∉ b) {n : Name} (hn : n = "cond".toList ++ '.' :: (b ++ '.' :: natDec i)) : GenName i n := by
  subst hn
  refine .front (a := "cond".toList) (b := b) (by decide) ?_ rfl
  rw [pieces_dot _ _ (by decide), pieces_dot _ _ hb, pieces_plain _ (natDec_no_dot i)]

theorem ne_of_pieces {a b : Name} (h : pieces a ≠ pieces b) : a ≠ b := by rintro rfl; exact h rfl

theorem mid_ne (i : Nat) {a b b' : Name} (h : b ≠ b') : a ++ natDec i ++ b ≠ a ++ natDec i ++ b' := by
  intro e; exact h (List.append_cancel_left e)

theorem front_ne (i : Nat) {a b : Name} (h : a ≠ b) : a ++ natDec i ≠ b ++ natDec i := by
  intro e; exact h (List.append_cancel_right e)

theorem NB.forkCond (c : CState) (v : Val) : NB P c (forkCond c v) := by
  refine ⟨?_, ?_, ["cond.then.".toList ++ natDec c.labelID, "cond.else.".toList ++ natDec c.labelID, "cond.end.".toList ++ natDec c.labelID], ?_, ?_, ?_, fun _ h => .inl h⟩
  · exact Nat.le_succ _
  · exact fun _ h => h
  · unfold Blang.forkCond
    rw [names_withTerm, names_emitted]
    simp [names, add3, bump]
  · have h1 := front_ne c.labelID (a := "cond.then.".toList) (b := "cond.else.".toList) (by decide)
    have h2 := front_ne c.labelID (a := "cond.then.".toList) (b := "cond.end.".toList) (by decide)
    have h3 := front_ne c.labelID (a := "cond.else.".toList) (b := "cond.end.".toList) (by decide)
    simp only [List.nodup_cons, List.mem_cons, List.not_mem_nil, or_false, not_or, not_false_eq_true, List.nodup_nil, and_true]
    exact ⟨⟨h1, h2⟩, h3⟩
  · intro n hn
    refine .inl ⟨c.labelID, ?_, Nat.le_refl _, Nat.lt_succ_self _⟩
    simp only [List.mem_cons, List.not_mem_nil, or_false] at hn
    rcases hn with rfl | rfl | rfl
    · exact genName_front _ (b := "then".toList) (by decide) (by simp)
    · exact genName_front _ (b := "else".toList) (by decide) (by simp)
    · exact genName_front _ (b := "end".toList) (by decide) (by simp)

theorem mid3_nodup (i : Nat) (a x y z : Name) (h1 : x ≠ y) (h2 : x ≠ z) (h3 : y ≠ z) :
    [a ++ natDec i ++ x, a ++ natDec i ++ y, a ++ natDec i ++ z].Nodup := by
  have e1 := mid_ne i (a := a) h1
  have e2 := mid_ne i (a := a) h2
  have e3 := mid_ne i (a := a) h3
  simp only [List.nodup_cons, List.mem_cons, List.not_mem_nil, or_false, not_or, not_false_eq_true, List.nodup_nil, and_true]
  exact ⟨⟨e1, e2⟩, e3⟩

theorem NB.forkIf (c : CState) (v : Val) : NB P c (forkIf c v) := by
  refine ⟨Nat.le_succ _, fun _ h => h, ["if.".toList ++ natDec c.labelID ++ ".then".toList, "if.".toList ++ natDec c.labelID ++ ".else".toList,
    "if.".toList ++ natDec c.labelID ++ ".end".toList], ?_, mid3_nodup _ _ _ _ _ (by decide) (by decide) (by decide), ?_, fun _ h => .inl h⟩
  · unfold Blang.forkIf
    rw [names_withTerm, names_emitted]
    simp [names, add3, bump]
  · intro n hn
    refine .inl ⟨c.labelID, ?_, Nat.le_refl _, Nat.lt_succ_self _⟩
    simp only [List.mem_cons, List.not_mem_nil, or_false] at hn
    rcases hn with rfl | rfl | rfl
    · exact genName_mid _ (a := "if".toList) (b := "then".toList) (by decide) (by decide) (by decide) (by decide) (by simp)
    · exact genName_mid _ (a := "if".toList) (b := "else".toList) (by decide) (by decide) (by decide) (by decide) (by simp)
    · exact genName_mid _ (a := "if".toList) (b := "end".toList) (by decide) (by decide) (by decide) (by decide) (by simp)

theorem NB.whileHead (c : CState) : NB P c (whileHead c) := by
  refine ⟨Nat.le_succ _, fun _ h => h, ["while.".toList ++ natDec c.labelID ++ ".cond".toList, "while.".toList ++ natDec c.labelID ++ ".body".toList,
    "while.".toList ++ natDec c.labelID ++ ".end".toList], ?_, mid3_nodup _ _ _ _ _ (by decide) (by decide) (by decide), ?_, fun _ h => .inl h⟩
  · unfold Blang.whileHead
    rw [names_goto, names_withTerm]
    simp [names, add3, bump]
  · intro n hn
    refine .inl ⟨c.labelID, ?_, Nat.le_refl _, Nat.lt_succ_self _⟩
    simp only [List.mem_cons, List.not_mem_nil, or_false] at hn
    rcases hn with rfl | rfl | rfl
    · exact genName_mid _ (a := "while".toList) (b := "cond".toList) (by decide) (by decide) (by decide) (by decide) (by simp)
    · exact genName_mid _ (a := "while".toList) (b := "body".toList) (by decide) (by decide) (by decide) (by decide) (by simp)
    · exact genName_mid _ (a := "while".toList) (b := "end".toList) (by decide) (by decide) (by decide) (by decide) (by simp)

/-- the blocks of a switch, whose number was taken before its expression -/
theorem NB.switchHead (hP : ∀ n, P n → '.' ∉ n) {c c1 : CState} (h : NB P (bump c) c1) : NB P c (switchHead c1 c.labelID) := by
  obtain ⟨new, e, d, w, z⟩ := h.new
  have hid : c.labelID + 1 ≤ c1.labelID := h.id
  have m1 : GenName c.labelID ("switch.".toList ++ natDec c.labelID ++ ".stmts".toList) :=
    genName_mid _ (a := "switch".toList) (b := "stmts".toList) (by decide) (by decide) (by decide) (by decide) (by simp)
  have m2 : GenName c.labelID ("switch.".toList ++ natDec c.labelID ++ ".cmp".toList) :=
    genName_mid _ (a := "switch".toList) (b := "cmp".toList) (by decide) (by decide) (by decide) (by decide) (by simp)
  have m3 : GenName c.labelID ("switch.".toList ++ natDec c.labelID ++ ".end".toList) :=
    genName_mid _ (a := "switch".toList) (b := "end".toList) (by decide) (by decide) (by decide) (by decide) (by simp)
  refine ⟨by show c.labelID ≤ c1.labelID; omega, h.lab, new ++ ["switch.".toList ++ natDec c.labelID ++ ".stmts".toList,
    "switch.".toList ++ natDec c.labelID ++ ".cmp".toList, "switch.".toList ++ natDec c.labelID ++ ".end".toList], ?_, ?_, ?_, fun l h => (z l h).imp (fun h => h) (List.mem_append_left _)⟩
  · unfold Blang.switchHead
    rw [names_goto, names_withTerm]
    have e' : c1.blocks.map (·.name) = c.blocks.map (·.name) ++ new := e
    simp [names, add3, e']
  · rw [List.nodup_append]
    refine ⟨d, mid3_nodup _ _ _ _ _ (by decide) (by decide) (by decide), ?_⟩
    rintro n hn _ hm rfl
    have hm' : GenName c.labelID n := by
      simp only [List.mem_cons, List.not_mem_nil, or_false] at hm
      rcases hm with rfl | rfl | rfl <;> assumption
    rcases w n hn with ⟨i, g1, g2, g3⟩ | ⟨l1, l2, l3⟩
    · have := g1.id_eq hm'
      have g2' : c.labelID + 1 ≤ i := g2
      omega
    · rcases l1 with l1 | l1
      · exact hm'.not_lab (.inl (hP _ l1))
      · exact hm'.not_lab (.inr l1)
  · intro n hn
    rw [List.mem_append] at hn
    rcases hn with hn | hn
    · rcases w n hn with ⟨i, g1, g2, g3⟩ | hl
      · have g2' : c.labelID + 1 ≤ i := g2
        exact .inl ⟨i, g1, by omega, g3⟩
      · exact .inr hl
    · refine .inl ⟨c.labelID, ?_, Nat.le_refl _, by show c.labelID < c1.labelID; omega⟩
      simp only [List.mem_cons, List.not_mem_nil, or_false] at hn
      rcases hn with rfl | rfl | rfl <;> assumption


/-! ### expressions -/

/-- `f` behaves so -/
def KN (P : Name → Prop) {α : Type} (f : B α) : Prop := ∀ c a c', f c = .ok a c' → NB P c c'

section
variable {α β : Type}
theorem KN.pure (a : α) : KN P (pure a : B α) := by
  intro c b c' h
  simp at h; obtain ⟨_, rfl⟩ := h; exact .refl _

theorem KN.fail {s : String} : KN P (bfail s : B α) := by intro c b c' h; cases h

theorem KN.ite {p : Prop} [Decidable p] {f g : B α} (hf : KN P f) (hg : KN P g) : KN P (if p then f else g) := by
  split <;> assumption

theorem KN.get : KN P (M.get : B CState) := by
  intro c b c' h; cases h; exact .refl _
end

theorem KN.emit (i : Inst) : KN P (emit i) := by
  intro c v c' h; cases h; exact NB.emitted c i

theorem KN.getOrDeclareFunction (x : Name) : KN P (getOrDeclareFunction x) := by
  intro c v c' h
  unfold Blang.getOrDeclareFunction at h
  cases hl : lookup x c.functions with
  | some f => rw [hl] at h; cases h; exact .refl _
  | none =>
    rw [hl] at h
    cases hx : lookup x c.ctx with
    | some _ => rw [hx] at h; cases h; exact .refl _
    | none => rw [hx] at h; cases h; exact .same rfl rfl rfl

theorem KN.createString (s : List Char) : KN P (createStringConstant s) := by
  intro c v c' h; cases h; exact .same rfl rfl rfl

variable (hP : ∀ n, P n → '.' ∉ n)
include hP

theorem KN.bind {α β : Type} {f : B α} {g : α → B β} (hf : KN P f) (hg : ∀ a, KN P (g a)) : KN P (f >>= g) := by
  intro c b c' h
  obind h a c1 h1
  exact NB.trans hP (hf _ _ _ h1) (hg _ _ _ _ h)

omit hP in
theorem KN.rval (v : LV) : KN P (rval v) := KN.ite (KN.emit _) (KN.pure _)
theorem KN.cmpOp (p : Pred) (x y : Val) : KN P (cmpOp p x y) := KN.bind hP (KN.emit _) fun _ => KN.emit _
theorem KN.genOp (o : Op) (x y : Val) : KN P (genOp o x y) := by
  cases o
  · exact KN.emit _
  · exact KN.cmpOp hP _ _ _
omit hP in
theorem KN.needLval (v : LV) : KN P (needLval v) := KN.ite (KN.pure _) KN.fail
theorem KN.genCall (f : Val) (as : List Val) : KN P (genCall f as) := by
  unfold Blang.genCall
  split
  · exact KN.ite (KN.bind hP (KN.emit _) fun _ => KN.emit _) (KN.emit _)
  · exact KN.bind hP (KN.emit _) fun _ => KN.emit _
theorem KN.genStr (s : List Char) : KN P (genStr s) :=
  KN.bind hP (KN.createString _) fun _ => KN.bind hP (KN.emit _) fun _ => KN.emit _
theorem KN.genPostfix (o : BinOp) (v : Val) : KN P (genPostfix o v) :=
  KN.bind hP (KN.emit _) fun _ => KN.bind hP (KN.emit _) fun _ => KN.bind hP (KN.emit _) fun _ => KN.pure _
theorem KN.genPrefix (o : BinOp) (v : Val) : KN P (genPrefix o v) :=
  KN.bind hP (KN.emit _) fun _ => KN.bind hP (KN.emit _) fun _ => KN.bind hP (KN.emit _) fun _ => KN.pure _
theorem KN.genAssign (o : Option Op) (l r : Val) : KN P (genAssign o l r) := by
  unfold Blang.genAssign
  split
  · exact KN.bind hP (KN.emit _) fun _ => KN.bind hP (KN.genOp hP _ _ _) fun _ => KN.bind hP (KN.emit _) fun _ => KN.pure _
  · exact KN.bind hP (KN.emit _) fun _ => KN.pure _
theorem KN.getAddress (x : Name) : KN P (getAddress x) := by
  refine KN.bind hP KN.get fun c => ?_
  split
  · exact KN.pure _
  · split
    · exact KN.bind hP (KN.emit _) fun _ => KN.pure _
    · exact KN.bind hP (KN.emit _) fun _ => KN.pure _
    · exact KN.pure _
    · exact KN.pure _

theorem KN.genVar (x : Name) : KN P (genVar x) := by
  refine KN.bind hP (KN.getAddress hP x) fun r => ?_
  cases r with
  | some a => exact KN.pure _
  | none =>
    refine KN.bind hP KN.get fun c => ?_
    cases findFuncByName c x with
    | some fn => exact KN.bind hP (KN.emit _) fun _ => KN.pure _
    | none =>
      refine KN.bind hP (KN.getOrDeclareFunction x) fun r => ?_
      cases r with
      | some fn => exact KN.bind hP (KN.emit _) fun _ => KN.pure _
      | none => exact KN.fail

theorem KN.genCallee (x : Name) : KN P (genCallee x) := by
  refine KN.bind hP KN.get fun c => ?_
  cases findFuncByName c x with
  | some fn => exact KN.pure _
  | none =>
    cases lookup x c.ctx with
    | some g => exact KN.pure _
    | none =>
      refine KN.bind hP (KN.getOrDeclareFunction x) fun r => ?_
      cases r with
      | some fn => exact KN.pure _
      | none => exact KN.fail

mutual
theorem KN.genL : ∀ e : Ex, KN P (genL e)
  | .num _ => KN.pure _
  | .str _ => KN.bind hP (KN.genStr hP _) fun _ => KN.pure _
  | .var x => KN.genVar hP x
  | .paren e => KN.bind hP (KN.genL e) fun _ => KN.bind hP (KN.rval _) fun _ => KN.pure _
  | .index a i => KN.bind hP (KN.genL a) fun _ => KN.bind hP (KN.rval _) fun _ => KN.bind hP (KN.emit _) fun _ =>
      KN.bind hP (KN.genL i) fun _ => KN.bind hP (KN.rval _) fun _ => KN.bind hP (KN.emit _) fun _ => KN.pure _
  | .callName f as => KN.bind hP (KN.genCallee hP f) fun _ => KN.bind hP (KN.rval _) fun _ => KN.bind hP (KN.genArgs as) fun _ =>
      KN.bind hP (KN.genCall hP _ _) fun _ => KN.pure _
  | .call f as => KN.bind hP (KN.genL f) fun _ => KN.bind hP (KN.rval _) fun _ => KN.bind hP (KN.genArgs as) fun _ =>
      KN.bind hP (KN.genCall hP _ _) fun _ => KN.pure _
  | .post _ e => KN.bind hP (KN.genL e) fun _ => KN.bind hP (KN.needLval _) fun _ => KN.bind hP (KN.genPostfix hP _ _) fun _ => KN.pure _
  | .pre _ e => KN.bind hP (KN.genL e) fun _ => KN.bind hP (KN.needLval _) fun _ => KN.bind hP (KN.genPrefix hP _ _) fun _ => KN.pure _
  | .not e => KN.bind hP (KN.genL e) fun _ => KN.bind hP (KN.bind hP (KN.rval _) fun _ => KN.cmpOp hP _ _ _) fun _ => KN.pure _
  | .neg e => KN.bind hP (KN.genL e) fun _ => KN.bind hP (KN.bind hP (KN.rval _) fun _ => KN.emit _) fun _ => KN.pure _
  | .deref e => KN.bind hP (KN.genL e) fun _ => KN.bind hP (KN.bind hP (KN.rval _) fun _ => KN.emit _) fun _ => KN.pure _
  | .addr e => KN.bind hP (KN.genL e) fun _ => KN.bind hP (KN.needLval _) fun _ => KN.bind hP (KN.emit _) fun _ => KN.pure _
  | .bin _ l r => KN.bind hP (KN.genL l) fun _ => KN.bind hP (KN.rval _) fun _ => KN.bind hP (KN.genL r) fun _ =>
      KN.bind hP (KN.rval _) fun _ => KN.bind hP (KN.genOp hP _ _ _) fun _ => KN.pure _
  | .cond cn t e => by
      intro c r c' h
      obtain ⟨v, c1, tv, c3, ev, c5, h1, h3, h5, rfl⟩ := cond_run h
      have k1 : KN P (genR t) := KN.bind hP (KN.genL t) fun _ => KN.rval _
      have k2 : KN P (genR e) := KN.bind hP (KN.genL e) fun _ => KN.rval _
      have k0 : KN P (genR cn) := KN.bind hP (KN.genL cn) fun _ => KN.rval _
      have a1 := NB.trans hP (k0 _ _ _ h1) (NB.forkCond c1 v)
      have a2 := NB.trans hP a1 (NB.trans hP (NB.goto _ _) (k1 _ _ _ h3))
      have a3 := NB.trans hP a2 (NB.trans hP (NB.trans hP (NB.withTerm _ _) (NB.goto _ _)) (k2 _ _ _ h5))
      exact NB.trans hP a3 (NB.trans hP (NB.trans hP (NB.withTerm _ _) (NB.goto _ _)) (NB.emitted _ _))
  | .assign _ l r => KN.bind hP (KN.genL l) fun _ => KN.bind hP (KN.needLval _) fun _ => KN.bind hP (KN.genL r) fun _ =>
      KN.bind hP (KN.rval _) fun _ => KN.bind hP (KN.genAssign hP _ _ _) fun _ => KN.pure _

theorem KN.genArgs : ∀ es : List Ex, KN P (genArgs es)
  | [] => KN.pure _
  | e :: es => KN.bind hP (KN.genL e) fun _ => KN.bind hP (KN.rval _) fun _ => KN.bind hP (KN.genArgs es) fun _ => KN.pure _
end


theorem KN.genR (e : Ex) : KN P (genR e) := KN.bind hP (KN.genL hP e) fun _ => KN.rval _

/-! ### statements -/

omit hP in
theorem NB.withLabel (c : CState) {l : Name} (hl : P l ∨ ∃ k v, l = caseName k v) : NB P c (withLabel l c) := by
  unfold Blang.withLabel
  cases h : lookup l c.labels with
  | some i => exact .refl c
  | none =>
    have e : lookup l (insert l c.blocks.length c.labels) = some c.blocks.length := by simp [lookup, insert]
    refine ⟨Nat.le_refl _, ?_, [l], by simp [names], by simp, ?_, ?_⟩
    · intro k hk
      show (lookup k (insert l _ c.labels)).isSome
      by_cases hkl : l = k
      · subst hkl; rw [e]; rfl
      · rw [lookup_insert_ne hkl]; exact hk
    · intro n hn
      simp at hn; subst hn
      right
      refine ⟨hl, h, ?_⟩
      show (lookup n (insert n _ c.labels)).isSome
      rw [e]; rfl
    · intro k hk
      replace hk : (lookup k (insert l _ c.labels)).isSome := hk
      by_cases hkl : l = k
      · right; simp [hkl]
      · left; rw [lookup_insert_ne hkl] at hk; exact hk

theorem NB.label (c : CState) {l : Name} (hl : P l ∨ ∃ k v, l = caseName k v) :
    NB P c (goto' (Blang.brTo (Blang.withLabel l c) (labelBlock l c)) (labelBlock l c)) :=
  NB.trans hP (NB.withLabel c hl) (NB.trans hP (NB.brTo _ _) (NB.goto _ _))

theorem NB.gotoStmt (c : CState) {l : Name} (hl : P l) :
    NB P c (goto' (bump { (Blang.withTerm (Blang.withLabel l c) (.br (labelBlock l c))) with
      blocks := (Blang.withTerm (Blang.withLabel l c) (.br (labelBlock l c))).blocks ++
        [⟨"unreachable.".toList ++ natDec (Blang.withLabel l c).labelID, [], none⟩] })
      (Blang.withLabel l c).blocks.length) := by
  refine NB.trans hP (NB.trans hP (NB.withLabel c (.inl hl)) (NB.withTerm _ (.br (labelBlock l c)))) ?_
  refine NB.trans hP (b := bump { (Blang.withTerm (Blang.withLabel l c) (.br (labelBlock l c))) with
      blocks := (Blang.withTerm (Blang.withLabel l c) (.br (labelBlock l c))).blocks ++
        [⟨"unreachable.".toList ++ natDec (Blang.withLabel l c).labelID, [], none⟩] }) ?_ (NB.goto _ _)
  refine NB.fresh (new := [⟨"unreachable.".toList ++ natDec (Blang.withLabel l c).labelID, [], none⟩]) rfl rfl rfl (by simp) ?_
  intro n hn
  simp only [List.map_cons, List.map_nil, List.mem_singleton] at hn
  subst hn
  refine .dead ?_
  rw [show "unreachable.".toList ++ natDec (Blang.withLabel l c).labelID = "unreachable".toList ++ '.' :: natDec (Blang.withLabel l c).labelID by simp,
    pieces_dot _ _ (by decide), pieces_plain _ (natDec_no_dot _)]
  rfl

theorem KN.declareLocal (x : Name) : KN P (declareLocal x) :=
  KN.bind hP (KN.emit _) fun _ => KN.bind hP (KN.emit _) fun _ => fun c a c' hc => by
    simp at hc; rw [← hc]; exact .same rfl rfl rfl

theorem KN.declareLocalArray (x : Name) (n : W) : KN P (declareLocalArray x n) :=
  KN.bind hP (KN.emit _) fun _ => KN.bind hP (KN.emit _) fun _ => KN.bind hP (KN.emit _) fun _ => KN.bind hP (KN.emit _) fun _ =>
    KN.bind hP (KN.emit _) fun _ => fun c a c' hc => by
    simp at hc; rw [← hc]; exact .same rfl rfl rfl

theorem KN.declareAll (ds : List (Name × W)) : KN P (declareAll ds) := by
  induction ds with
  | nil => exact KN.pure _
  | cons d ds ih => exact KN.bind hP (KN.ite (KN.declareLocal hP _) (KN.declareLocalArray hP _ _)) fun _ => ih

omit hP in
theorem KN.genExtrn (xs : List Name) : KN P (genExtrn xs) := by
  intro c a c' h
  obtain ⟨a1, a2, a3, a4, a5, a6⟩ := genExtrn_code _ h
  exact .same (by unfold names; rw [a1]) (by first | exact a5 | exact a6 | exact a3) a4

theorem KN.switchTerm (id : Nat) (v : Val) (b : Nat) (vs : Cases) : KN P (switchTerm id v b vs) := by
  have hc : ∀ vs, KN P (switchCases id vs) := by
    intro vs
    induction vs with
    | nil => exact KN.pure _
    | cons w vs ih =>
      refine KN.bind hP ?_ fun _ => KN.bind hP ih fun _ => KN.pure _
      intro c a c' h
      rw [getOrCreateLabel_eq] at h
      cases h
      exact NB.withLabel c (.inr ⟨_, _, rfl⟩)
  have ht : ∀ t, KN P (setTerm t) := by
    intro t c a c' h; rw [setTerm_eq] at h; cases h; exact NB.withTerm _ _
  unfold Blang.switchTerm
  exact KN.ite (KN.bind hP (hc _) fun _ => ht _) (ht _)

theorem genSt_NB : ∀ (s : St) (sw : Option Nat) (cs : Cases) (c : CState) (cs' : Cases) (c' : CState),
    (∀ l ∈ s.gotos, P l) → (∀ l ∈ s.labels, P l) → genSt s sw cs c = .ok cs' c' → NB P c c' := by
  intro s
  induction s with
  | skip =>
    intro sw cs c cs' c' hg hl h
    simp only [genSt] at h; simp at h; obtain ⟨rfl, rfl⟩ := h
    exact .refl _
  | seq s t ih1 ih2 =>
    intro sw cs c cs' c' hg hl h
    obtain ⟨cs1, c1, h1, h2⟩ := seq_run h
    exact NB.trans hP (ih1 _ _ _ _ _ (fun l h => hg l (by simp [St.gotos, h])) (fun l h => hl l (by simp [St.labels, h])) h1)
      (ih2 _ _ _ _ _ (fun l h => hg l (by simp [St.gotos, h])) (fun l h => hl l (by simp [St.labels, h])) h2)
  | expr e =>
    intro sw cs c cs' c' hg hl h
    simp only [genSt] at h
    obind h v c1 h1
    simp at h; obtain ⟨rfl, rfl⟩ := h
    exact KN.genR hP e _ _ _ h1
  | ret e =>
    intro sw cs c cs' c' hg hl h
    cases e with
    | none =>
      simp only [genSt] at h
      rw [M.bind_ok (setTerm_eq _ _)] at h
      simp at h; obtain ⟨rfl, rfl⟩ := h
      exact NB.withTerm _ _
    | some e =>
      simp only [genSt] at h
      obind h v c1 h1
      rw [M.bind_ok (setTerm_eq _ _)] at h
      simp at h; obtain ⟨rfl, rfl⟩ := h
      exact NB.trans hP (KN.genR hP e _ _ _ h1) (NB.withTerm _ _)
  | auto ds =>
    intro sw cs c cs' c' hg hl h
    simp only [genSt] at h
    obind h u c1 h1
    obind h u2 c2 h2
    simp at h; obtain ⟨rfl, rfl⟩ := h
    obtain ⟨rfl, _, _⟩ := autoCheck_ok _ _ h1
    exact KN.declareAll hP _ _ _ _ h2
  | extrn xs =>
    intro sw cs c cs' c' hg hl h
    simp only [genSt] at h
    obind h u c1 h1
    simp at h; obtain ⟨rfl, rfl⟩ := h
    exact KN.genExtrn _ _ _ _ h1
  | ifThen cn t ih =>
    intro sw cs c cs' c' hg hl h
    rw [genSt_ifThen] at h
    obtain ⟨v, c1, x3, c3, x5, c5, h1, h3, h5, rfl, rfl⟩ := if_run h
    simp only [genSt] at h5; simp at h5; obtain ⟨rfl, rfl⟩ := h5
    have a1 := NB.trans hP (KN.genR hP cn _ _ _ h1) (NB.trans hP (NB.forkIf c1 v) (NB.goto _ c1.blocks.length))
    have a2 := NB.trans hP a1 (ih _ _ _ _ _ (fun l h => hg l (by simp [St.gotos, h])) (fun l h => hl l (by simp [St.labels, h])) h3)
    exact NB.trans hP (NB.trans hP a2 (NB.trans hP (NB.brTo _ _) (NB.goto _ _))) (NB.trans hP (NB.brTo _ _) (NB.goto _ _))
  | ifElse cn t e ih1 ih2 =>
    intro sw cs c cs' c' hg hl h
    obtain ⟨v, c1, x3, c3, x5, c5, h1, h3, h5, rfl, rfl⟩ := if_run h
    have a1 := NB.trans hP (KN.genR hP cn _ _ _ h1) (NB.trans hP (NB.forkIf c1 v) (NB.goto _ c1.blocks.length))
    have a2 := NB.trans hP a1 (ih1 _ _ _ _ _ (fun l h => hg l (by simp [St.gotos, h])) (fun l h => hl l (by simp [St.labels, h])) h3)
    have a3 := NB.trans hP a2 (NB.trans hP (NB.trans hP (NB.brTo _ _) (NB.goto _ _))
      (ih2 _ _ _ _ _ (fun l h => hg l (by simp [St.gotos, h])) (fun l h => hl l (by simp [St.labels, h])) h5))
    exact NB.trans hP a3 (NB.trans hP (NB.brTo _ _) (NB.goto _ _))
  | «while» cn b ih =>
    intro sw cs c cs' c' hg hl h
    obtain ⟨v, c1, x3, c3, h1, h3, rfl, rfl⟩ := while_run h
    have a1 := NB.trans hP (NB.whileHead c) (KN.genR hP cn _ _ _ h1)
    have a3 := ih _ _ _ _ _ (fun l h => hg l (by simp [St.gotos, h])) (fun l h => hl l (by simp [St.labels, h])) h3
    have a3 := NB.trans hP (NB.trans hP a1 (NB.trans hP (NB.trans hP (NB.emitted _ _) (NB.withTerm _ _)) (NB.goto _ _))) a3
    exact NB.trans hP a3 (NB.trans hP (NB.brTo _ _) (NB.goto _ _))
  | switch e b ih =>
    intro sw cs c cs' c' hg hl h
    obtain ⟨v, c1, vs, c3, c4, h1, h3, h4, rfl, rfl⟩ := switch_run h
    have a1 := NB.switchHead hP (KN.genR hP e _ _ _ h1)
    have a2 := NB.trans hP a1 (ih _ _ _ _ _ (fun l h => hg l (by simp [St.gotos, h])) (fun l h => hl l (by simp [St.labels, h])) h3)
    exact NB.trans hP (NB.trans hP (NB.trans hP a2 (NB.trans hP (NB.brTo _ _) (NB.goto _ _))) (KN.switchTerm hP _ _ _ _ _ _ _ h4)) (NB.goto _ _)
  | case v s ih =>
    intro sw cs c cs' c' hg hl h
    obtain ⟨id, rfl, h⟩ := case_run h
    exact NB.trans hP (NB.label hP c (.inr ⟨_, _, rfl⟩))
      (ih _ _ _ _ _ (fun l h => hg l (by simp [St.gotos, h])) (fun l h => hl l (by simp [St.labels, h])) h)
  | label l s ih =>
    intro sw cs c cs' c' hg hl h
    have h := label_run h
    exact NB.trans hP (NB.label hP c (.inl (hl l (by simp [St.labels]))))
      (ih _ _ _ _ _ (fun l h => hg l (by simp [St.gotos, h])) (fun l h => hl l (by simp [St.labels, h])) h)
  | goto l =>
    intro sw cs c cs' c' hg hl h
    obtain ⟨rfl, rfl⟩ := goto_run h
    exact NB.gotoStmt hP c (hg l (by simp [St.gotos]))

/-- the labels that a statement defines or jumps to have blocks -/
theorem genSt_has : ∀ (s : St) (sw : Option Nat) (cs : Cases) (c : CState) (cs' : Cases) (c' : CState),
    (∀ l ∈ s.gotos, P l) → (∀ l ∈ s.labels, P l) → genSt s sw cs c = .ok cs' c' →
    ∀ l, l ∈ s.labels ∨ l ∈ s.gotos → (lookup l c'.labels).isSome := by
  intro s
  induction s with
  | skip => intro sw cs c cs' c' hg hl h l hm; simp [St.labels, St.gotos] at hm
  | expr e => intro sw cs c cs' c' hg hl h l hm; simp [St.labels, St.gotos] at hm
  | ret e => intro sw cs c cs' c' hg hl h l hm; simp [St.labels, St.gotos] at hm
  | auto ds => intro sw cs c cs' c' hg hl h l hm; simp [St.labels, St.gotos] at hm
  | extrn ds => intro sw cs c cs' c' hg hl h l hm; simp [St.labels, St.gotos] at hm
  | seq s t ih1 ih2 =>
    intro sw cs c cs' c' hg hl h l hm
    obtain ⟨cs1, c1, h1, h2⟩ := seq_run h
    have hg2 : ∀ l ∈ t.gotos, P l := fun l h => hg l (by simp [St.gotos, h])
    have hl2 : ∀ l ∈ t.labels, P l := fun l h => hl l (by simp [St.labels, h])
    have b := genSt_NB hP t _ _ _ _ _ hg2 hl2 h2
    have i1 := ih1 _ _ _ _ _ (fun l h => hg l (by simp [St.gotos, h])) (fun l h => hl l (by simp [St.labels, h])) h1 l
    have i2 := ih2 _ _ _ _ _ hg2 hl2 h2 l
    simp only [St.labels, St.gotos, List.mem_append] at hm
    rcases hm with (hm | hm) | (hm | hm)
    · exact b.lab _ (i1 (.inl hm))
    · exact i2 (.inl hm)
    · exact b.lab _ (i1 (.inr hm))
    · exact i2 (.inr hm)
  | ifThen cn t ih =>
    intro sw cs c cs' c' hg hl h l hm
    rw [genSt_ifThen] at h
    obtain ⟨v, c1, x3, c3, x5, c5, h1, h3, h5, rfl, rfl⟩ := if_run h
    simp only [genSt] at h5; simp at h5; obtain ⟨rfl, rfl⟩ := h5
    simp only [St.labels, St.gotos] at hm
    have i1 := ih _ _ _ _ _ (fun l h => hg l (by simp [St.gotos, h])) (fun l h => hl l (by simp [St.labels, h])) h3 l hm
    show (lookup l (Blang.brTo _ _).labels).isSome
    rw [brTo_labels]
    show (lookup l (Blang.brTo _ _).labels).isSome
    rw [brTo_labels]; exact i1
  | ifElse cn t e ih1 ih2 =>
    intro sw cs c cs' c' hg hl h l hm
    obtain ⟨v, c1, x3, c3, x5, c5, h1, h3, h5, rfl, rfl⟩ := if_run h
    have hg2 : ∀ l ∈ e.gotos, P l := fun l h => hg l (by simp [St.gotos, h])
    have hl2 : ∀ l ∈ e.labels, P l := fun l h => hl l (by simp [St.labels, h])
    have b := genSt_NB hP e _ _ _ _ _ hg2 hl2 h5
    have i1 := ih1 _ _ _ _ _ (fun l h => hg l (by simp [St.gotos, h])) (fun l h => hl l (by simp [St.labels, h])) h3 l
    have i2 := ih2 _ _ _ _ _ hg2 hl2 h5 l
    have j : (lookup l c3.labels).isSome → (lookup l c5.labels).isSome := by
      intro h
      refine b.lab _ ?_
      show (lookup l (Blang.brTo _ _).labels).isSome
      rw [brTo_labels]; exact h
    simp only [St.labels, St.gotos, List.mem_append] at hm
    show (lookup l (Blang.brTo _ _).labels).isSome
    rw [brTo_labels]
    rcases hm with (hm | hm) | (hm | hm)
    · exact j (i1 (.inl hm))
    · exact i2 (.inl hm)
    · exact j (i1 (.inr hm))
    · exact i2 (.inr hm)
  | «while» cn b ih =>
    intro sw cs c cs' c' hg hl h l hm
    obtain ⟨v, c1, x3, c3, h1, h3, rfl, rfl⟩ := while_run h
    simp only [St.labels, St.gotos] at hm
    have i1 := ih _ _ _ _ _ (fun l h => hg l (by simp [St.gotos, h])) (fun l h => hl l (by simp [St.labels, h])) h3 l hm
    show (lookup l (Blang.brTo _ _).labels).isSome
    rw [brTo_labels]; exact i1
  | switch e b ih =>
    intro sw cs c cs' c' hg hl h l hm
    obtain ⟨v, c1, vs, c3, c4, h1, h3, h4, rfl, rfl⟩ := switch_run h
    simp only [St.labels, St.gotos] at hm
    have i1 := ih _ _ _ _ _ (fun l h => hg l (by simp [St.gotos, h])) (fun l h => hl l (by simp [St.labels, h])) h3 l hm
    refine (KN.switchTerm hP _ _ _ _ _ _ _ h4).lab l ?_
    show (lookup l (Blang.brTo _ _).labels).isSome
    rw [brTo_labels]; exact i1
  | case v s ih =>
    intro sw cs c cs' c' hg hl h l hm
    obtain ⟨id, rfl, h⟩ := case_run h
    simp only [St.labels, St.gotos] at hm
    exact ih _ _ _ _ _ (fun l h => hg l (by simp [St.gotos, h])) (fun l h => hl l (by simp [St.labels, h])) h l hm
  | label k s ih =>
    intro sw cs c cs' c' hg hl h l hm
    have h := label_run h
    have hg2 : ∀ l ∈ s.gotos, P l := fun l h => hg l (by simp [St.gotos, h])
    have hl2 : ∀ l ∈ s.labels, P l := fun l h => hl l (by simp [St.labels, h])
    have b := genSt_NB hP s _ _ _ _ _ hg2 hl2 h
    simp only [St.labels, St.gotos, List.mem_cons] at hm
    rcases hm with (hm | hm) | hm
    · subst hm
      refine b.lab _ ?_
      show (lookup _ (Blang.brTo _ _).labels).isSome
      rw [brTo_labels, withLabel_lookup]; rfl
    · exact ih _ _ _ _ _ hg2 hl2 h l (.inl hm)
    · exact ih _ _ _ _ _ hg2 hl2 h l (.inr hm)
  | goto k =>
    intro sw cs c cs' c' hg hl h l hm
    obtain ⟨rfl, rfl⟩ := goto_run h
    simp [St.labels, St.gotos] at hm
    subst hm
    show (lookup l (Blang.withLabel l c).labels).isSome
    rw [withLabel_lookup]; rfl

/-! ### functions -/

omit hP in
theorem getOrCreateFunc_KN (n : Name) : KN P (getOrCreateFunc n) := by
  intro c a c' h
  unfold getOrCreateFunc at h
  split at h <;> cases h
  · exact .refl _
  · exact .same rfl rfl rfl

theorem KN.firstParam (p : Name) : KN P (firstParam p) :=
  KN.bind hP (KN.emit _) fun _ => KN.bind hP (KN.emit _) fun _ => fun c a c' hc => by
    simp at hc; rw [← hc]; exact .same rfl rfl rfl

theorem KN.vaParams (v : Val) (ps : List Name) : KN P (vaParams v ps) := by
  induction ps with
  | nil => exact KN.pure _
  | cons p ps ih =>
    refine KN.bind hP (KN.emit _) fun _ => KN.bind hP (KN.emit _) fun _ => KN.bind hP (KN.emit _) fun _ => KN.bind hP ?_ fun _ => ih
    intro c a c' hc
    simp at hc; rw [← hc]; exact .same rfl rfl rfl

theorem KN.paramCode (ps : List Name) : KN P (paramCode ps) := by
  unfold Blang.paramCode
  split
  · exact KN.pure _
  · exact KN.firstParam hP _
  · refine KN.bind hP (KN.firstParam hP _) fun _ => KN.bind hP (KN.emit _) fun _ => KN.bind hP (KN.emit _) fun _ =>
      KN.bind hP (getOrCreateFunc_KN _) fun _ => KN.bind hP (KN.emit _) fun _ => KN.bind hP (KN.vaParams hP _ _) fun _ =>
      KN.bind hP (getOrCreateFunc_KN _) fun _ => ?_
    exact KN.bind hP (KN.emit _) fun _ => KN.pure _

/-- The blocks of a finished function: the first is `entry`, the others have different names, each a
label of the function or one with a dot. -/
theorem FuncRun.blockNames {f : Name} {ps : List Name} {b : St} {c : CState} {bs : List Block} (r : FuncRun f ps b c bs)
    (hg : ∀ l ∈ b.gotos, P l) (hl : ∀ l ∈ b.labels, P l) : ∃ new, bs.map (·.name) = "entry".toList :: new ∧ new.Nodup ∧
      (∀ n ∈ new, P n ∨ '.' ∈ n) ∧ ∀ l, l ∈ b.labels ∨ l ∈ b.gotos → l ∈ new := by
  have a1 := KN.paramCode hP ps _ _ _ r.entry
  have a2 := NB.trans hP a1 (genSt_NB hP b _ _ _ _ _ hg hl r.body)
  obtain ⟨new, e, d, w, z⟩ := a2.new
  have hc : (closed r.c3).map (·.name) = names r.c3 := by
    unfold closed
    split
    · exact names_modify _ (fun b => { b with term := some (.ret (.const 0)) }) (fun _ => rfl) _
    · rfl
  refine ⟨new, by rw [r.blocks, hc, e]; rfl, d, ?_, ?_⟩
  rotate_left
  · intro l hm
    rcases z l (genSt_has hP b _ _ _ _ _ hg hl r.body l hm) with h | h
    · simp [entered, lookup] at h
    · exact h
  intro n hn
  rcases w n hn with ⟨i, g, _⟩ | ⟨h | ⟨k, v, rfl⟩, _⟩
  · right
    apply Classical.byContradiction
    intro hd
    exact g.not_lab (.inl hd)
  · exact .inl h
  · exact .inr (caseName_dot k v)

end
end Blang
