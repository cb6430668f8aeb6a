import Verif.Proofs.SimExpr
import Verif.Spec.Flow
/-
What generating a statement does to blocks, labels and locals.
-/
namespace Blang
open Spec

/-- `c'` continues `c` within a function -/
structure Gr (c c' : CState) : Prop where
  ext : Ext c.blocks c'.blocks
  locals : ∀ x v, lookup x c.locals = some v → lookup x c'.locals = some v
  new : ∀ x v, lookup x c'.locals = some v → lookup x c.locals = some v ∨ ∃ r, v = .reg r ∧ c.nextReg ≤ r ∧ r < c'.nextReg
  labels : ∀ l b, lookup l c.labels = some b → lookup l c'.labels = some b
  reg : c.nextReg ≤ c'.nextReg
  id : c.labelID ≤ c'.labelID

theorem Gr.refl (c : CState) : Gr c c := ⟨.refl _, fun _ _ h => h, fun _ _ h => .inl h, fun _ _ h => h, Nat.le_refl _, Nat.le_refl _⟩

theorem Gr.trans {a b c : CState} (h1 : Gr a b) (h2 : Gr b c) : Gr a c := by
  refine ⟨h1.ext.trans h2.ext, fun x v h => h2.locals x v (h1.locals x v h), ?_, fun l b h => h2.labels l b (h1.labels l b h),
    Nat.le_trans h1.reg h2.reg, Nat.le_trans h1.id h2.id⟩
  intro x v h
  have r1 := h1.reg
  have r2 := h2.reg
  rcases h2.new x v h with h | ⟨r, e, a1, a2⟩
  · rcases h1.new x v h with h | ⟨r, e, a1, a2⟩
    · exact .inl h
    · exact .inr ⟨r, e, a1, by omega⟩
  · exact .inr ⟨r, e, by omega, a2⟩

theorem Gr.of_expr {c c' : CState} (h1 : EInv c c') (h2 : ER c c') : Gr c c' :=
  ⟨h1.ext, by rw [h2.locals]; exact fun _ _ h => h, by rw [h2.locals]; exact fun _ _ h => .inl h,
    by rw [h2.labels]; exact fun _ _ h => h, h2.reg, h2.labelID⟩

/-- whether the current block has no terminator -/
def Status (o : Bool) (c : CState) : Prop := ∃ b : Block, c.blocks[c.cur]? = some b ∧ (o = true ↔ b.term = none)

theorem Status.open {c : CState} (h : Status true c) : Open c := by
  obtain ⟨b, h1, h2⟩ := h; exact ⟨b, h1, h2.mp rfl⟩

theorem Open.status {c : CState} (h : Open c) : Status true c := by
  obtain ⟨b, h1, h2⟩ := h; exact ⟨b, h1, by simp [h2]⟩

theorem Status.not_open {c : CState} (h : Status false c) : ¬ Open c := by
  obtain ⟨b, h1, h2⟩ := h
  rintro ⟨b', h1', h2'⟩
  rw [h1] at h1'; cases h1'
  simpa using h2.mpr h2'

theorem Status.lt {o : Bool} {c : CState} (h : Status o c) : c.cur < c.blocks.length := by
  obtain ⟨b, h1, _⟩ := h
  apply Nat.lt_of_not_le; intro hl; rw [List.getElem?_eq_none hl] at h1; cases h1

theorem Status.curTerm {c : CState} (h : Status false c) : curTerm c ≠ none := by
  obtain ⟨b, h1, h2⟩ := h
  simp only [Blang.curTerm, h1, Option.bind_some]
  intro e; simpa using h2.mpr e

/-- a block that is neither the current one nor that of a label -/
structure Safe (i : Nat) (c : CState) : Prop where
  lt : i < c.blocks.length
  cur : i ≠ c.cur
  lab : ∀ l, lookup l c.labels ≠ some i

/-- the label has not been placed yet -/
def Pend (l : Name) (c : CState) : Prop :=
  ∀ b, lookup l c.labels = some b → (∃ B : Block, c.blocks[b]? = some B ∧ B.term = none ∧ B.insts = []) ∧ b ≠ c.cur

/-- different labels have different blocks -/
structure LabOk (c : CState) : Prop where
  inj : ∀ l l' b, lookup l c.labels = some b → lookup l' c.labels = some b → l = l'
  lt : ∀ l b, lookup l c.labels = some b → b < c.blocks.length

/-- a step in which only the labels in `D` are placed -/
structure SI (D : Name → Prop) (c c' : CState) : Prop where
  gr : Gr c c'
  lab : LabOk c'
  safe : ∀ i, Safe i c → Safe i c' ∧ c'.blocks[i]? = c.blocks[i]?
  pend : ∀ l, ¬ D l → Pend l c → Pend l c'

theorem SI.refl {D : Name → Prop} {c : CState} (h : LabOk c) : SI D c c := ⟨.refl c, h, fun _ h => ⟨h, rfl⟩, fun _ _ h => h⟩

theorem SI.trans {D : Name → Prop} {a b c : CState} (h1 : SI D a b) (h2 : SI D b c) : SI D a c := by
  refine ⟨h1.gr.trans h2.gr, h2.lab, fun i hi => ?_, fun l hl h => h2.pend l hl (h1.pend l hl h)⟩
  obtain ⟨a1, a2⟩ := h1.safe i hi
  obtain ⟨b1, b2⟩ := h2.safe i a1
  exact ⟨b1, b2.trans a2⟩

theorem SI.mono {D D' : Name → Prop} {c c' : CState} (h : SI D c c') (hd : ∀ l, D l → D' l) : SI D' c c' :=
  ⟨h.gr, h.lab, h.safe, fun l hl hp => h.pend l (fun hh => hl (hd l hh)) hp⟩

/-- code of expressions -/
theorem SI.of_expr {D : Name → Prop} {c c' : CState} (h1 : EInv c c') (h2 : ER c c') (hl : LabOk c) : SI D c c' := by
  refine ⟨.of_expr h1 h2, ⟨by rw [h2.labels]; exact hl.inj, ?_⟩, ?_, ?_⟩
  · intro l b hb
    rw [h2.labels] at hb
    exact Nat.lt_of_lt_of_le (hl.lt l b hb) h1.ext.length
  · intro i hi
    refine ⟨⟨Nat.lt_of_lt_of_le hi.lt h1.ext.length, ?_, by rw [h2.labels]; exact hi.lab⟩, h1.frame i hi.lt hi.cur⟩
    have := hi.lt
    rcases h1.cur with h | h
    · rw [h]; exact hi.cur
    · omega
  · intro l _ hp b hb
    rw [h2.labels] at hb
    obtain ⟨⟨B, a1, a2, a3⟩, a4⟩ := hp b hb
    have hlt := hl.lt l b hb
    refine ⟨⟨B, by rw [h1.frame b hlt a4]; exact a1, a2, a3⟩, ?_⟩
    rcases h1.cur with h | h
    · rw [h]; exact a4
    · omega

theorem SI.genR {D : Name → Prop} {e : Ex} {v : Val} {c c' : CState} (h : genR e c = .ok v c') (hn : e.All NameOk) (ho : Open c)
    (hl : LabOk c) : SI D c c' ∧ Open c' := by
  have k := KE.genR e _ _ _ h ho
  exact ⟨.of_expr k (ER.stable.genR e hn _ _ _ h) hl, k.opn⟩

theorem SI.emit {D : Name → Prop} {i : Inst} {v : Val} {c c' : CState} (h : emit i c = .ok v c') (ho : Open c)
    (hl : LabOk c) : SI D c c' ∧ Open c' := by
  have k := KE.emit i _ _ _ h ho
  exact ⟨.of_expr k (ER.stable.emit i _ _ _ h) hl, k.opn⟩

/-- terminators -/
theorem SI.withTerm {D : Name → Prop} {c : CState} (t : Term) (ho : Open c) (hl : LabOk c) : SI D c (withTerm c t) := by
  refine ⟨⟨withTerm_ext ho t, fun _ _ h => h, fun _ _ h => .inl h, fun _ _ h => h, Nat.le_refl _, Nat.le_refl _⟩, ⟨hl.inj, ?_⟩, ?_, ?_⟩
  · intro l b hb; rw [withTerm_length]; exact hl.lt l b hb
  · intro i hi
    exact ⟨⟨by rw [withTerm_length]; exact hi.lt, hi.cur, hi.lab⟩, withTerm_frame _ _ hi.cur⟩
  · intro l _ hp b hb
    obtain ⟨⟨B, a1, a2, a3⟩, a4⟩ := hp b hb
    exact ⟨⟨B, by rw [withTerm_frame _ _ a4]; exact a1, a2, a3⟩, a4⟩

theorem withTerm_status {c : CState} (t : Term) (ho : Open c) : Status false (withTerm c t) := by
  obtain ⟨b, h1, h2⟩ := ho
  exact ⟨_, withTerm_at h1 t, by simp⟩

/-- `if Term == nil { br b }` -/
def brTo (c : CState) (b : Nat) : CState := if curTerm c = none then withTerm c (.br b) else c

theorem brIfOpen_eq (b : Nat) (c : CState) : brIfOpen b c = .ok () (brTo c b) := by
  unfold brIfOpen brTo
  rw [M.bind_ok (M.get_apply _)]
  split <;> rfl

theorem brTo_open {c : CState} {b : Nat} (h : Open c) : brTo c b = withTerm c (.br b) := if_pos h.curTerm

theorem brTo_closed {c : CState} {b : Nat} (h : Status false c) : brTo c b = c := if_neg h.curTerm

theorem SI.brTo {D : Name → Prop} {o : Bool} {c : CState} (b : Nat) (ho : Status o c) (hl : LabOk c) : SI D c (brTo c b) := by
  cases o with
  | true => rw [brTo_open ho.open]; exact .withTerm _ ho.open hl
  | false => rw [brTo_closed ho]; exact .refl hl

theorem brTo_cur (c : CState) (b : Nat) : (brTo c b).cur = c.cur := by
  unfold brTo; split <;> rfl

theorem brTo_labels (c : CState) (b : Nat) : (brTo c b).labels = c.labels := by
  unfold brTo; split <;> rfl

theorem brTo_blocks (c : CState) (b : Nat) {i : Nat} (h : i ≠ c.cur) : (brTo c b).blocks[i]? = c.blocks[i]? := by
  unfold brTo; split
  · exact withTerm_frame _ _ h
  · rfl

/-- going on in a block that did not exist at the start -/
theorem SI.goto {D : Name → Prop} {c c1 : CState} (h : SI D c c1) {j : Nat} (hj : c.blocks.length ≤ j) (hs : Safe j c1) :
    SI D c (goto' c1 j) := by
  refine ⟨⟨h.gr.ext, h.gr.locals, h.gr.new, h.gr.labels, h.gr.reg, h.gr.id⟩, ⟨h.lab.inj, h.lab.lt⟩, ?_, ?_⟩
  · intro i hi
    obtain ⟨a1, a2⟩ := h.safe i hi
    exact ⟨⟨a1.lt, by have := hi.lt; show i ≠ j; omega, a1.lab⟩, a2⟩
  · intro l hl hp b hb
    obtain ⟨a1, _⟩ := h.pend l hl hp b hb
    refine ⟨a1, fun e => ?_⟩
    have e : b = j := e
    subst e; exact hs.lab l hb

/-- three new blocks -/
def add3 (c : CState) (n1 n2 n3 : Name) : CState :=
  { c with blocks := c.blocks ++ [⟨n1, [], none⟩, ⟨n2, [], none⟩, ⟨n3, [], none⟩] }

/-- the next label number -/
def bump (c : CState) : CState := { c with labelID := c.labelID + 1 }

theorem Open.add3 {c : CState} (h : Open c) (n1 n2 n3 : Name) : Open (add3 c n1 n2 n3) := by
  obtain ⟨b, h1, h2⟩ := h
  refine ⟨b, ?_, h2⟩
  show (c.blocks ++ _)[c.cur]? = _
  rw [List.getElem?_append_left (Open.lt ⟨b, h1, h2⟩), h1]

theorem SI.bump {D : Name → Prop} {c : CState} (hl : LabOk c) : SI D c (bump c) :=
  ⟨⟨.refl _, fun _ _ h => h, fun _ _ h => .inl h, fun _ _ h => h, Nat.le_refl _, Nat.le_succ _⟩, ⟨hl.inj, hl.lt⟩,
    fun _ h => ⟨⟨h.lt, h.cur, h.lab⟩, rfl⟩, fun _ _ h => h⟩

theorem SI.append {D : Name → Prop} {c : CState} (new : List Block) (_hc : c.cur < c.blocks.length) (hl : LabOk c) :
    SI D c { c with blocks := c.blocks ++ new } := by
  refine ⟨⟨Ext.append _ _, fun _ _ h => h, fun _ _ h => .inl h, fun _ _ h => h, Nat.le_refl _, Nat.le_refl _⟩, ⟨hl.inj, ?_⟩, ?_, ?_⟩
  · intro l b hb
    have := hl.lt l b hb
    show b < (c.blocks ++ new).length
    rw [List.length_append]; omega
  · intro i hi
    have := hi.lt
    refine ⟨⟨?_, hi.cur, hi.lab⟩, ?_⟩
    · show i < (c.blocks ++ new).length
      rw [List.length_append]; omega
    · show (c.blocks ++ new)[i]? = _
      rw [List.getElem?_append_left hi.lt]
  · intro l _ hp b hb
    obtain ⟨⟨B, a1, a2, a3⟩, a4⟩ := hp b hb
    refine ⟨⟨B, ?_, a2, a3⟩, a4⟩
    show (c.blocks ++ new)[b]? = _
    rw [List.getElem?_append_left (hl.lt l b hb)]; exact a1

theorem SI.add3 {D : Name → Prop} {c : CState} (n1 n2 n3 : Name) (hc : c.cur < c.blocks.length) (hl : LabOk c) :
    SI D c (add3 c n1 n2 n3) := .append _ hc hl

/-- a block without instructions and terminator -/
def Empty (c : CState) (i : Nat) : Prop := ∃ n : Name, c.blocks[i]? = some ⟨n, [], none⟩

theorem Empty.start {c : CState} {i : Nat} (h : Empty c i) : Start (goto' c i) := by
  obtain ⟨n, h⟩ := h; exact ⟨_, h, rfl, rfl⟩

theorem add3_new {c : CState} (n1 n2 n3 : Name) (hc : c.cur < c.blocks.length) (hl : LabOk c) :
    ∀ i, c.blocks.length ≤ i → i < c.blocks.length + 3 → Safe i (Blang.add3 c n1 n2 n3) ∧ Empty (Blang.add3 c n1 n2 n3) i := by
  intro i h1 h2
  refine ⟨⟨by simp [Blang.add3]; omega, by show i ≠ c.cur; omega, fun l h => ?_⟩, ?_⟩
  · have := hl.lt l i h; omega
  · show ∃ n : Name, (c.blocks ++ _)[i]? = _
    rw [List.getElem?_append_right h1]
    have : i - c.blocks.length = 0 ∨ i - c.blocks.length = 1 ∨ i - c.blocks.length = 2 := by omega
    rcases this with e | e | e <;> rw [e]
    · exact ⟨n1, rfl⟩
    · exact ⟨n2, rfl⟩
    · exact ⟨n3, rfl⟩

theorem SI.empty {D : Name → Prop} {c c' : CState} (h : SI D c c') {i : Nat} (hs : Safe i c) (he : Empty c i) : Empty c' i := by
  obtain ⟨n, he⟩ := he
  exact ⟨n, by rw [(h.safe i hs).2]; exact he⟩

/-- labels -/
def labelBlock (l : Name) (c : CState) : Nat := (lookup l c.labels).getD c.blocks.length

def withLabel (l : Name) (c : CState) : CState :=
  match lookup l c.labels with
  | some _ => c
  | none => { c with blocks := c.blocks ++ [⟨l, [], none⟩], labels := insert l c.blocks.length c.labels }

theorem getOrCreateLabel_eq (l : Name) (c : CState) : getOrCreateLabel l c = .ok (labelBlock l c) (withLabel l c) := by
  unfold getOrCreateLabel labelBlock withLabel
  cases lookup l c.labels <;> rfl

theorem genLabel_eq (l : Name) (c : CState) :
    genLabel l c = .ok () (goto' (brTo (withLabel l c) (labelBlock l c)) (labelBlock l c)) := by
  unfold genLabel
  rw [M.bind_ok (getOrCreateLabel_eq l c), M.bind_ok (brIfOpen_eq _ _)]; rfl

theorem withLabel_lookup (l : Name) (c : CState) : lookup l (withLabel l c).labels = some (labelBlock l c) := by
  unfold withLabel labelBlock
  cases h : lookup l c.labels with
  | some b => simp [h]
  | none => simp [lookup_insert]

theorem withLabel_cur (l : Name) (c : CState) : (withLabel l c).cur = c.cur := by
  unfold withLabel; split <;> rfl

theorem withLabel_status {o : Bool} (l : Name) {c : CState} (h : Status o c) : Status o (withLabel l c) := by
  unfold withLabel
  cases lookup l c.labels with
  | some b => exact h
  | none =>
    obtain ⟨b, h1, h2⟩ := h
    refine ⟨b, ?_, h2⟩
    show (c.blocks ++ _)[c.cur]? = _
    rw [List.getElem?_append_left (Status.lt ⟨b, h1, h2⟩), h1]

/-- creating the block of a label -/
theorem withLabel_SI {D : Name → Prop} (l : Name) {c : CState} (hc : c.cur < c.blocks.length) (hl : LabOk c) : SI D c (withLabel l c) := by
  unfold withLabel
  cases h : lookup l c.labels with
  | some b => exact .refl hl
  | none =>
    simp only
    have hlen : (c.blocks ++ [(⟨l, [], none⟩ : Block)]).length = c.blocks.length + 1 := by simp
    refine ⟨⟨Ext.append _ _, fun _ _ h => h, fun _ _ h => .inl h, ?_, Nat.le_refl _, Nat.le_refl _⟩, ⟨?_, ?_⟩, ?_, ?_⟩
    · intro l' b hb
      simp only [lookup_insert]
      split
      · rename_i e; subst e; rw [h] at hb; cases hb
      · exact hb
    · intro l1 l2 b h1 h2
      simp only [lookup_insert] at h1 h2
      split at h1
      · rename_i e1
        cases h1
        split at h2
        · rename_i e2; exact e1.symm.trans e2
        · exact absurd (hl.lt _ _ h2) (Nat.lt_irrefl _)
      · split at h2
        · cases h2; exact absurd (hl.lt _ _ h1) (Nat.lt_irrefl _)
        · exact hl.inj _ _ _ h1 h2
    · intro l1 b h1
      simp only [lookup_insert] at h1
      rw [hlen]
      split at h1
      · cases h1; omega
      · have := hl.lt _ _ h1; omega
    · intro i hi
      have := hi.lt
      refine ⟨⟨by rw [hlen]; omega, hi.cur, fun l1 h1 => ?_⟩, List.getElem?_append_left hi.lt⟩
      simp only [lookup_insert] at h1
      split at h1
      · cases h1; omega
      · exact hi.lab _ h1
    · intro l1 _ hp b hb
      simp only [lookup_insert] at hb
      split at hb
      · cases hb
        exact ⟨⟨⟨l, [], none⟩, by simp, rfl, rfl⟩, by show c.blocks.length ≠ c.cur; omega⟩
      · obtain ⟨⟨B, a1, a2, a3⟩, a4⟩ := hp b hb
        exact ⟨⟨B, by show (c.blocks ++ _)[b]? = _; rw [List.getElem?_append_left (hl.lt _ _ hb)]; exact a1, a2, a3⟩, a4⟩

theorem withLabel_pend {l : Name} {c : CState} (hc : c.cur < c.blocks.length) (hl : LabOk c) (hp : Pend l c) : Pend l (withLabel l c) :=
  (withLabel_SI (D := fun _ => False) l hc hl).pend l (fun h => h) hp

/-- placing a label -/
theorem label_SI {D : Name → Prop} {o : Bool} {l : Name} {c : CState} (hc : Status o c) (hl : LabOk c) (hp : Pend l c) (hD : D l) :
    SI D c (goto' (brTo (withLabel l c) (labelBlock l c)) (labelBlock l c)) ∧
    Start (goto' (brTo (withLabel l c) (labelBlock l c)) (labelBlock l c)) ∧
    lookup l (goto' (brTo (withLabel l c) (labelBlock l c)) (labelBlock l c)).labels = some (labelBlock l c) := by
  have h1 := withLabel_SI (D := D) l hc.lt hl
  have st := withLabel_status l hc
  have h2 : SI D (withLabel l c) (brTo (withLabel l c) (labelBlock l c)) := .brTo _ st h1.lab
  have h := h1.trans h2
  have hlook := withLabel_lookup l c
  obtain ⟨⟨B, b1, b2, b3⟩, b4⟩ := withLabel_pend hc.lt hl hp _ hlook
  have hlook' : lookup l (brTo (withLabel l c) (labelBlock l c)).labels = some (labelBlock l c) := by rw [brTo_labels]; exact hlook
  refine ⟨⟨⟨h.gr.ext, h.gr.locals, h.gr.new, h.gr.labels, h.gr.reg, h.gr.id⟩, ⟨h.lab.inj, h.lab.lt⟩, ?_, ?_⟩, ?_, hlook'⟩
  · intro i hi
    obtain ⟨a1, a2⟩ := h.safe i hi
    refine ⟨⟨a1.lt, fun e => ?_, a1.lab⟩, a2⟩
    have e : i = labelBlock l c := e
    exact a1.lab l (by rw [e]; exact hlook')
  · intro l' hl' hp' b hb
    obtain ⟨a1, _⟩ := h.pend l' hl' hp' b hb
    refine ⟨a1, fun e => ?_⟩
    have e : b = labelBlock l c := e
    subst e
    rw [h.lab.inj l' l _ hb hlook'] at hl'
    exact hl' hD
  · refine ⟨B, ?_, b2, b3⟩
    show (brTo (withLabel l c) (labelBlock l c)).blocks[labelBlock l c]? = _
    rw [brTo_blocks _ _ b4]; exact b1

end Blang
