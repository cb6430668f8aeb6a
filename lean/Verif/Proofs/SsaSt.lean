import Verif.Proofs.Ssa
/-
The state invariant behind `Core`, and triples for the code generator.
-/
namespace Blang
open Spec

/-- a state with its ghost part -/
structure GS where
  c : CState
  G : Gh

abbrev GS.len (g : GS) : Nat := g.c.blocks.length

/-- available in the current block -/
def VA (g : GS) (v : Val) : Prop := VOut g.G g.c.blocks g.c.cur v

/-- an ordinary block -/
structure NK (g : GS) (b : Nat) : Prop where
  pos : 0 < b
  lt : b < g.len
  nk : ¬ g.G.K b

def NoReg (v : Val) : Prop := ∀ a, v ≠ .reg a

structure SsaInv (g : GS) : Prop where
  core : Core g.G g.c.blocks g.c.cur
  labels : ∀ l j, lookup l g.c.labels = some j → NK g j
  locals : ∀ x v, lookup x g.c.locals = some v → ∃ a, v = .reg a ∧ LocalAddr g.c.blocks a
  ctx : ∀ x v, lookup x g.c.ctx = some v → NoReg v
  funs : ∀ x v, lookup x g.c.functions = some v → NoReg v

/-- what an expression may change: the current block, and new blocks -/
structure EE (g g' : GS) : Prop where
  le : BsLe g.c.blocks g'.c.blocks
  keep : ∀ i, i < g.len → i ≠ g.c.cur → g'.c.blocks[i]? = g.c.blocks[i]?
  K : ∀ i, i < g.len → (g'.G.K i ↔ g.G.K i)
  D : ∀ i a, i < g.len → (g'.G.D i a ↔ g.G.D i a)
  edges : ∀ i j, j < g.len → Edge g'.c.blocks i j → Edge g.c.blocks i j
  cur : g'.c.cur = g.c.cur ∨ (g.len ≤ g'.c.cur ∧ g'.G.K g'.c.cur)
  lt : g'.c.cur < g'.len
  out : ∀ a, Out g.G g.c.blocks g.c.cur a → Out g'.G g'.c.blocks g'.c.cur a

/-- what a statement may change, as far as the first `n` blocks are concerned -/
structure SE (n : Nat) (g g' : GS) : Prop where
  le : BsLe g.c.blocks g'.c.blocks
  keep : ∀ i, i < n → g.G.K i → i ≠ g.c.cur → g'.c.blocks[i]? = g.c.blocks[i]?
  K : ∀ i, i < n → (g'.G.K i ↔ g.G.K i)
  D : ∀ i a, i < n → (g'.G.D i a ↔ g.G.D i a)
  edges : ∀ i j, j < n → g.G.K j → Edge g'.c.blocks i j → Edge g.c.blocks i j
  cur : g'.c.cur < n → g'.G.K g'.c.cur → g'.c.cur = g.c.cur

theorem EE.refl {g : GS} (h : SsaInv g) : EE g g :=
  ⟨.refl _, fun _ _ _ => rfl, fun _ _ => .rfl, fun _ _ _ => .rfl, fun _ _ _ h => h, .inl rfl, h.core.lt, fun _ h => h⟩

theorem EE.len {g g' : GS} (h : EE g g') : g.len ≤ g'.len := h.le.len

theorem EE.trans {g g1 g2 : GS} (h1 : EE g g1) (h2 : EE g1 g2) : EE g g2 := by
  have l1 := h1.len
  refine ⟨h1.le.trans h2.le, ?_, ?_, ?_, ?_, ?_, h2.lt, fun a h => h2.out a (h1.out a h)⟩
  · intro i hi hc
    rw [h2.keep i (by omega) ?_, h1.keep i hi hc]
    rcases h1.cur with e | e
    · rw [e]; exact hc
    · omega
  · intro i hi; rw [h2.K i (by omega), h1.K i hi]
  · intro i a hi; rw [h2.D i a (by omega), h1.D i a hi]
  · intro i j hj he; exact h1.edges i j hj (h2.edges i j (by omega) he)
  · have lt := h1.lt
    rcases h2.cur with e2 | ⟨e2, k2⟩
    · rw [e2]
      rcases h1.cur with e1 | ⟨e1, k1⟩
      · exact .inl e1
      · exact .inr ⟨e1, (h2.K _ lt).2 k1⟩
    · exact .inr ⟨by omega, k2⟩

theorem SE.refl (n : Nat) (g : GS) : SE n g g :=
  ⟨.refl _, fun _ _ _ _ => rfl, fun _ _ => .rfl, fun _ _ _ => .rfl, fun _ _ _ _ h => h, fun _ _ => rfl⟩

theorem SE.trans {n : Nat} {g g1 g2 : GS} (h1 : SE n g g1) (h2 : SE n g1 g2) : SE n g g2 := by
  refine ⟨h1.le.trans h2.le, ?_, ?_, ?_, ?_, ?_⟩
  · intro i hi hk hc
    rw [h2.keep i hi ((h1.K i hi).2 hk) ?_, h1.keep i hi hk hc]
    rintro rfl
    exact hc (h1.cur hi ((h1.K _ hi).2 hk))
  · intro i hi; rw [h2.K i hi, h1.K i hi]
  · intro i a hi; rw [h2.D i a hi, h1.D i a hi]
  · intro i j hj hk he; exact h1.edges i j hj hk (h2.edges i j hj ((h1.K _ hj).2 hk) he)
  · intro hl hk
    have e := h2.cur hl hk
    rw [e] at hl hk ⊢
    exact h1.cur hl ((h2.K _ hl).1 hk)

theorem SE.weaken {n m : Nat} {g g' : GS} (h : SE m g g') (hn : n ≤ m) : SE n g g' :=
  ⟨h.le, fun i hi => h.keep i (by omega), fun i hi => h.K i (by omega), fun i a hi => h.D i a (by omega), fun i j hj => h.edges i j (by omega), fun hl => h.cur (by omega)⟩

theorem EE.se {g g' : GS} (h : EE g g') : SE g.len g g' :=
  ⟨h.le, fun i hi _ hc => h.keep i hi hc, h.K, h.D, fun i j hj _ he => h.edges i j hj he, fun hl _ => by rcases h.cur with e | e <;> omega⟩

theorem EE.va {g g' : GS} (h : EE g g') {v : Val} (hv : VA g v) : VA g' v :=
  fun a e => (hv a e).imp h.le.localAddr (h.out a)

theorem SE.nk {n : Nat} {g g' : GS} (h : SE n g g') (hn : g.len ≤ n) {b : Nat} (hb : NK g b) : NK g' b :=
  ⟨hb.pos, Nat.lt_of_lt_of_le hb.lt h.le.len, fun hk => hb.nk ((h.K b (Nat.lt_of_lt_of_le hb.lt hn)).1 hk)⟩

theorem EE.nk {g g' : GS} (h : EE g g') {b : Nat} (hb : NK g b) : NK g' b := h.se.nk (Nat.le_refl _) hb

theorem VA.noReg {g : GS} {v : Val} (h : NoReg v) : VA g v := fun a e => absurd e (h a)

/-! ### triples -/

/-- expressions -/
def XE (g : GS) {α : Type} (f : B α) (ok : GS → α → Prop) : Prop :=
  ∀ a c', f g.c = .ok a c' → SsaInv g → ∃ G', SsaInv ⟨c', G'⟩ ∧ EE g ⟨c', G'⟩ ∧ ok ⟨c', G'⟩ a

/-- statements -/
def XS (n : Nat) (g : GS) {α : Type} (f : B α) (ok : GS → α → Prop) : Prop :=
  ∀ a c', f g.c = .ok a c' → SsaInv g → ∃ G', SsaInv ⟨c', G'⟩ ∧ SE n g ⟨c', G'⟩ ∧ ok ⟨c', G'⟩ a

section
variable {α β : Type} {g : GS}

theorem XE.pure {ok : GS → α → Prop} (a : α) (h : ok g a) : XE g (pure a : B α) ok := by
  intro b c' hc hi
  simp at hc; obtain ⟨rfl, rfl⟩ := hc; exact ⟨g.G, hi, .refl hi, h⟩

theorem XE.bind {ok1 : GS → α → Prop} {ok2 : GS → β → Prop} {f : B α} {k : α → B β} (hf : XE g f ok1)
    (hg : ∀ a g1, EE g g1 → ok1 g1 a → XE g1 (k a) ok2) : XE g (f >>= k) ok2 := by
  intro b c' hc hi
  obind hc a c1 h1
  obtain ⟨G1, i1, l1, o1⟩ := hf _ _ h1 hi
  obtain ⟨G2, i2, l2, o2⟩ := hg a ⟨c1, G1⟩ l1 o1 _ _ hc i1
  exact ⟨G2, i2, l1.trans l2, o2⟩

theorem XE.fail {ok : GS → α → Prop} {s : String} : XE g (bfail s : B α) ok := by intro b c' h; cases h

theorem XE.ite {ok : GS → α → Prop} {p : Prop} [Decidable p] {f k : B α} (hf : p → XE g f ok) (hg : ¬ p → XE g k ok) : XE g (if p then f else k) ok := by
  split
  · exact hf ‹_›
  · exact hg ‹_›

theorem XE.get {ok : GS → β → Prop} {k : CState → B β} (hg : SsaInv g → XE g (k g.c) ok) : XE g ((M.get : B CState) >>= k) ok := by
  intro b c' hc hi
  rw [Blang.M.bind_ok (M.get_apply _)] at hc
  exact hg hi b c' hc hi

theorem XE.imp {ok ok' : GS → α → Prop} {f : B α} (hf : XE g f ok) (h : ∀ g a, ok g a → ok' g a) : XE g f ok' := by
  intro a c' hc hi
  obtain ⟨G1, i1, l1, o1⟩ := hf _ _ hc hi
  exact ⟨G1, i1, l1, h _ _ o1⟩

theorem XS.pure {n : Nat} {ok : GS → α → Prop} (a : α) (h : ok g a) : XS n g (pure a : B α) ok := by
  intro b c' hc hi
  simp at hc; obtain ⟨rfl, rfl⟩ := hc; exact ⟨g.G, hi, .refl _ _, h⟩

theorem XS.bind {n : Nat} {ok1 : GS → α → Prop} {ok2 : GS → β → Prop} {f : B α} {k : α → B β} (m : Nat) (hm : n ≤ m) (hf : XS m g f ok1)
    (hg : ∀ a g1, SE m g g1 → ok1 g1 a → XS n g1 (k a) ok2) : XS n g (f >>= k) ok2 := by
  intro b c' hc hi
  obind hc a c1 h1
  obtain ⟨G1, i1, l1, o1⟩ := hf _ _ h1 hi
  obtain ⟨G2, i2, l2, o2⟩ := hg a ⟨c1, G1⟩ l1 o1 _ _ hc i1
  exact ⟨G2, i2, (l1.weaken hm).trans l2, o2⟩

theorem XS.bindE {n : Nat} {ok1 : GS → α → Prop} {ok2 : GS → β → Prop} {f : B α} {k : α → B β} (hn : n ≤ g.len) (hf : XE g f ok1)
    (hg : ∀ a g1, EE g g1 → ok1 g1 a → XS n g1 (k a) ok2) : XS n g (f >>= k) ok2 := by
  intro b c' hc hi
  obind hc a c1 h1
  obtain ⟨G1, i1, l1, o1⟩ := hf _ _ h1 hi
  obtain ⟨G2, i2, l2, o2⟩ := hg a ⟨c1, G1⟩ l1 o1 _ _ hc i1
  exact ⟨G2, i2, (l1.se.weaken hn).trans l2, o2⟩

theorem XS.ofE {n : Nat} {ok : GS → α → Prop} {f : B α} (hn : n ≤ g.len) (hf : XE g f ok) : XS n g f ok := by
  intro a c' hc hi
  obtain ⟨G1, i1, l1, o1⟩ := hf _ _ hc hi
  exact ⟨G1, i1, l1.se.weaken hn, o1⟩

theorem XS.fail {n : Nat} {ok : GS → α → Prop} {s : String} : XS n g (bfail s : B α) ok := by intro b c' h; cases h

theorem XS.ite {n : Nat} {ok : GS → α → Prop} {p : Prop} [Decidable p] {f k : B α} (hf : p → XS n g f ok) (hg : ¬ p → XS n g k ok) : XS n g (if p then f else k) ok := by
  split
  · exact hf ‹_›
  · exact hg ‹_›

theorem XS.get {n : Nat} {ok : GS → β → Prop} {k : CState → B β} (hg : SsaInv g → XS n g (k g.c) ok) : XS n g ((M.get : B CState) >>= k) ok := by
  intro b c' hc hi
  rw [Blang.M.bind_ok (M.get_apply _)] at hc
  exact hg hi b c' hc hi

/-! ### elementary operations -/

theorem SsaInv.addInst (h : SsaInv g) (r : Nat) (i : Inst) (nr : Nat) (hc : Core g.G (g.c.blocks.modify g.c.cur (addInst r i)) g.c.cur) :
    SsaInv ⟨{ g.c with blocks := g.c.blocks.modify g.c.cur (Blang.addInst r i), nextReg := nr }, g.G⟩ ∧
    EE g ⟨{ g.c with blocks := g.c.blocks.modify g.c.cur (Blang.addInst r i), nextReg := nr }, g.G⟩ := by
  have hl : (g.c.blocks.modify g.c.cur (Blang.addInst r i)).length = g.c.blocks.length := List.length_modify ..
  refine ⟨⟨hc, ?_, ?_, h.ctx, h.funs⟩, ⟨addInst_le, ?_, fun _ _ => .rfl, fun _ _ _ => .rfl, fun _ _ _ => edge_addInst.1, .inl rfl, hc.lt, fun a => addInst_le.out (fun _ h => h)⟩⟩
  · intro l j hj; exact ⟨(h.labels l j hj).pos, by rw [GS.len, hl]; exact (h.labels l j hj).lt, (h.labels l j hj).nk⟩
  · intro x v hv
    obtain ⟨a, e, ha⟩ := h.locals x v hv
    exact ⟨a, e, addInst_le.localAddr ha⟩
  · intro i _ hi; exact modify_ne (Ne.symm hi)

theorem out_addInst {g : GS} (hl : g.c.cur < g.len) {r : Nat} {i : Inst} :
    ∃ B, (g.c.blocks.modify g.c.cur (Blang.addInst r i))[g.c.cur]? = some B ∧ (r, i) ∈ B.insts :=
  ⟨_, modify_eq (List.getElem?_eq_getElem hl), by simp⟩

/-- the result of an instruction; a local address if the instruction makes one -/
def RegOf (i : Inst) (g : GS) (v : Val) : Prop := VA g v ∧ ∃ a, v = .reg a ∧ (Inst.makesLocal i → LocalAddr g.c.blocks a)

theorem XE.emit (i : Inst) (hp : ¬ Inst.isPhi i) (hi : ∀ v ∈ Inst.operands i, VA g v) : XE g (emit i) (RegOf i) := by
  intro v c' hc h
  cases hc
  have hc := h.core.emit g.c.nextReg i (fun _ => hi) (by rintro x b y b' rfl; exact absurd trivial hp)
  obtain ⟨h1, h2⟩ := h.addInst g.c.nextReg i (g.c.nextReg + 1) hc
  refine ⟨g.G, h1, h2, ?_, _, rfl, ?_⟩
  · intro a e
    cases e
    obtain ⟨B, hB, hm⟩ := out_addInst (g := g) (r := g.c.nextReg) (i := i) h.core.lt
    exact .inr (.inr ⟨B, i, hB, hm⟩)
  · intro hm
    obtain ⟨B, hB, hm'⟩ := out_addInst (g := g) (r := g.c.nextReg) (i := i) h.core.lt
    exact ⟨B, List.mem_of_getElem? hB, i, hm', hm⟩

theorem XE.emitV (i : Inst) (hp : ¬ Inst.isPhi i) (hi : ∀ v ∈ Inst.operands i, VA g v) : XE g (Blang.emit i) VA :=
  (XE.emit i hp hi).imp fun _ _ h => h.1

/-- only tables change -/
theorem SsaInv.tables {c' : CState} (h : SsaInv g) (h1 : c'.blocks = g.c.blocks) (h2 : c'.cur = g.c.cur)
    (h3 : c'.labels = g.c.labels) (h4 : ∀ x v, lookup x c'.locals = some v → ∃ a, v = .reg a ∧ LocalAddr g.c.blocks a)
    (h5 : ∀ x v, lookup x c'.ctx = some v → NoReg v) (h6 : ∀ x v, lookup x c'.functions = some v → NoReg v) : SsaInv ⟨c', g.G⟩ ∧ EE g ⟨c', g.G⟩ := by
  refine ⟨⟨by rw [h1, h2]; exact h.core, ?_, by rw [h1]; exact h4, h5, h6⟩, ?_⟩
  · rw [h3]; intro l j hj; exact ⟨(h.labels l j hj).pos, by rw [GS.len, h1]; exact (h.labels l j hj).lt, (h.labels l j hj).nk⟩
  · exact ⟨by rw [h1]; exact .refl _, fun _ _ _ => by rw [h1], fun _ _ => .rfl, fun _ _ _ => .rfl, fun _ _ _ h => by rw [h1] at h; exact h, .inl h2,
      by rw [h2, GS.len, h1]; exact h.core.lt, fun a ha => by rw [h1, h2]; exact ha⟩

theorem SsaInv.append (h : SsaInv g) (nm : Name) (ls : List (Name × Nat)) (hl : ∀ l j, lookup l ls = some j → lookup l g.c.labels = some j ∨ j = g.len) :
    SsaInv ⟨{ g.c with blocks := g.c.blocks ++ [⟨nm, [], none⟩], labels := ls }, g.G⟩ ∧
    EE g ⟨{ g.c with blocks := g.c.blocks ++ [⟨nm, [], none⟩], labels := ls }, g.G⟩ ∧
    NK ⟨{ g.c with blocks := g.c.blocks ++ [⟨nm, [], none⟩], labels := ls }, g.G⟩ g.len := by
  have le := BsLe.append g.c.blocks [⟨nm, [], none⟩]
  have hlen : (g.c.blocks ++ [(⟨nm, [], none⟩ : Block)]).length = g.c.blocks.length + 1 := by simp
  have hc := h.core.append nm
  have nk : NK ⟨{ g.c with blocks := g.c.blocks ++ [⟨nm, [], none⟩], labels := ls }, g.G⟩ g.len :=
    ⟨by have := h.core.lt; unfold GS.len; omega, by rw [GS.len, GS.len, hlen]; omega, fun hk => by have := (h.core.kl _ hk).2; exact absurd this (Nat.lt_irrefl _)⟩
  refine ⟨⟨hc, ?_, ?_, h.ctx, h.funs⟩, ⟨le, ?_, fun _ _ => .rfl, fun _ _ _ => .rfl, fun _ _ _ => edge_append, .inl rfl, hc.lt, fun a => le.out (fun _ h => h)⟩, nk⟩
  · intro l j hj
    rcases hl l j hj with h1 | rfl
    · have := h.labels l j h1
      exact ⟨this.pos, by have := this.lt; rw [GS.len, hlen]; unfold GS.len at this; omega, this.nk⟩
    · exact nk
  · intro x v hv
    obtain ⟨a, e, ha⟩ := h.locals x v hv
    exact ⟨a, e, le.localAddr ha⟩
  · intro i hi _; exact List.getElem?_append_left hi

theorem XE.newBlock (nm : Name) : XE g (newBlock nm) (fun g' b => NK g' b ∧ b = g.len) := by
  intro v c' hc h
  cases hc
  obtain ⟨h1, h2, h3⟩ := h.append nm g.c.labels (fun _ _ => .inl)
  exact ⟨g.G, h1, h2, h3, rfl⟩

theorem XE.getOrCreateLabel (l : Name) : XE g (getOrCreateLabel l) NK := by
  intro v c' hc h
  unfold Blang.getOrCreateLabel at hc
  cases hl : lookup l g.c.labels with
  | some b => rw [hl] at hc; cases hc; exact ⟨g.G, h, .refl h, h.labels _ _ hl⟩
  | none =>
    rw [hl] at hc; cases hc
    obtain ⟨h1, h2, h3⟩ := h.append l (insert l g.c.blocks.length g.c.labels) (fun l' j hj => by
      rcases lookup_insert_or hj with rfl | hj
      · exact .inr rfl
      · exact .inl hj)
    exact ⟨g.G, h1, h2, h3⟩

theorem XE.getInsertBlock : XE g getInsertBlock (fun g' b => b = g'.c.cur) := by
  intro v c' hc h
  cases hc; exact ⟨g.G, h, .refl h, rfl⟩

theorem XE.freshLabelID : XE g freshLabelID (fun g' _ => g'.c.blocks = g.c.blocks) := by
  intro v c' hc h
  cases hc
  obtain ⟨h1, h2⟩ := h.tables (c' := { g.c with labelID := g.c.labelID + 1 }) rfl rfl rfl h.locals h.ctx h.funs
  exact ⟨g.G, h1, h2, rfl⟩

theorem XE.addLocal (x : Name) (v : Val) (hv : ∃ a, v = .reg a ∧ LocalAddr g.c.blocks a) : XE g (M.modify fun c => { c with locals := insert x v c.locals } : B Unit) (fun _ _ => True) := by
  intro u c' hc h
  cases hc
  obtain ⟨h1, h2⟩ := h.tables (c' := { g.c with locals := insert x v g.c.locals }) rfl rfl rfl (fun y w hw => by
    rcases lookup_insert_or hw with rfl | hw
    · exact hv
    · exact h.locals _ _ hw) h.ctx h.funs
  exact ⟨g.G, h1, h2, trivial⟩

theorem XE.getOrDeclareFunction (x : Name) : XE g (getOrDeclareFunction x) (fun _ r => ∀ v, r = some v → NoReg v) := by
  intro v c' hc h
  unfold Blang.getOrDeclareFunction at hc
  cases hl : lookup x g.c.functions with
  | some f =>
    rw [hl] at hc; cases hc
    exact ⟨g.G, h, .refl h, fun v hv => by cases hv; exact h.funs _ _ hl⟩
  | none =>
    rw [hl] at hc
    cases hx : lookup x g.c.ctx with
    | some _ => rw [hx] at hc; cases hc; exact ⟨g.G, h, .refl h, fun v hv => by cases hv⟩
    | none =>
      rw [hx] at hc; cases hc
      obtain ⟨h1, h2⟩ := h.tables (c' := { newFunc (removeFuncByName g.c x) ⟨globalName x, [], true, []⟩ with
        functions := insert x (Func.val ⟨globalName x, [], true, []⟩) g.c.functions, usedAsFunction := x :: g.c.usedAsFunction }) rfl rfl rfl h.locals h.ctx (fun y w hw => by
          rcases lookup_insert_or hw with rfl | hw
          · nofun
          · exact h.funs _ _ hw)
      exact ⟨g.G, h1, h2, fun v hv => by cases hv; nofun⟩

theorem XE.getOrCreateFunc (x : Name) : XE g (getOrCreateFunc x) (fun _ v => NoReg v) := by
  intro v c' hc h
  unfold Blang.getOrCreateFunc at hc
  split at hc <;> cases hc
  · exact ⟨g.G, h, .refl h, nofun⟩
  · obtain ⟨h1, h2⟩ := h.tables (c' := newFunc g.c ⟨x, [[]], false, []⟩) rfl rfl rfl h.locals h.ctx h.funs
    exact ⟨g.G, h1, h2, nofun⟩

theorem XE.createString (s : List Char) : XE g (createStringConstant s) (fun _ _ => True) := by
  intro v c' hc h
  cases hc
  obtain ⟨h1, h2⟩ := h.tables (c' := { newGlobalDef g.c ⟨strSym g.c.stringID, .bytes (stringBytes s), true⟩ with stringID := g.c.stringID + 1 }) rfl rfl rfl h.locals h.ctx h.funs
  exact ⟨g.G, h1, h2, trivial⟩

theorem XE.declareExtrn (x : Name) : XE g (declareExtrn x) (fun _ _ => True) := by
  intro v c' hc h
  unfold Blang.declareExtrn at hc
  have key : ∀ (d : GlobalDef) (y : Name) (w : Val), lookup y (insert x d.val g.c.ctx) = some w → NoReg w := by
    intro d y w hw
    rcases lookup_insert_or hw with rfl | hw
    · nofun
    · exact h.ctx _ _ hw
  split at hc
  · cases hc
    rename_i d _
    obtain ⟨h1, h2⟩ := h.tables (c' := { g.c with ctx := insert x d.val g.c.ctx }) rfl rfl rfl h.locals (key _) h.funs
    exact ⟨g.G, h1, h2, trivial⟩
  · split at hc
    · cases hc
      obtain ⟨h1, h2⟩ := h.tables (c' := { newGlobalDef g.c ⟨globalName x, .word (.int 0), false⟩ with ctx := insert x (GlobalDef.val ⟨globalName x, .word (.int 0), false⟩) g.c.ctx })
        rfl rfl rfl h.locals (key _) h.funs
      exact ⟨g.G, h1, h2, trivial⟩
    · cases hc

/-- a terminator that leads to ordinary blocks -/
theorem XS.setTerm {n : Nat} (t : Term) (hv : ∀ v ∈ Term.operands t, VA g v) (ht : ∀ j ∈ Term.targets t, NK g j) : XS n g (setTerm t) (fun g' _ => g'.len = g.len) := by
  intro v c' hc h
  cases hc
  have hl : (g.c.blocks.modify g.c.cur (putTerm t)).length = g.c.blocks.length := List.length_modify ..
  have hc := h.core.setTerm t hv fun j hj => ⟨(ht j hj).pos, (ht j hj).lt, .inl (ht j hj).nk⟩
  refine ⟨g.G, ⟨hc, ?_, ?_, h.ctx, h.funs⟩, ⟨putTerm_le, ?_, fun _ _ => .rfl, fun _ _ _ => .rfl, ?_, fun _ _ => rfl⟩, hl⟩
  · intro l j hj; exact ⟨(h.labels l j hj).pos, Nat.lt_of_lt_of_eq (h.labels l j hj).lt hl.symm, (h.labels l j hj).nk⟩
  · intro x v hv
    obtain ⟨a, e, ha⟩ := h.locals x v hv
    exact ⟨a, e, putTerm_le.localAddr ha⟩
  · intro i _ _ hi; exact modify_ne (Ne.symm hi)
  · intro i j _ hk he
    rcases edge_putTerm he with ⟨rfl, hj⟩ | ⟨_, he⟩
    · exact absurd hk (ht j hj).nk
    · exact he

/-- moving to an open or ordinary block -/
theorem SsaInv.move (h : SsaInv g) (b : Nat) (hl : b < g.len) (hb : ¬ g.G.K b ∨ termAt g.c.blocks b = none) : SsaInv ⟨{ g.c with cur := b }, g.G⟩ :=
  ⟨h.core.move b hl hb, fun l j hj => ⟨(h.labels l j hj).pos, (h.labels l j hj).lt, (h.labels l j hj).nk⟩, h.locals, h.ctx, h.funs⟩

theorem XS.setInsertPoint {n : Nat} (b : Nat) (hb : NK g b) : XS n g (setInsertPoint b) (fun g' _ => g'.c.cur = b) := by
  intro v c' hc h
  cases hc
  exact ⟨g.G, h.move b hb.lt (.inl hb.nk), ⟨.refl _, fun _ _ _ _ => rfl, fun _ _ => .rfl, fun _ _ _ => .rfl, fun _ _ _ _ h => h, fun _ hk => absurd hk hb.nk⟩, rfl⟩

/-- moving to an open block outside the range of interest -/
theorem XS.setInsertOpen {n : Nat} (b : Nat) (hl : b < g.len) (ht : termAt g.c.blocks b = none) (hn : n ≤ b) :
    XS n g (Blang.setInsertPoint b) (fun g' _ => g' = ⟨{ g.c with cur := b }, g.G⟩) := by
  intro v c' hc h
  cases hc
  exact ⟨g.G, h.move b hl (.inr ht), ⟨.refl _, fun _ _ _ _ => rfl, fun _ _ => .rfl, fun _ _ _ => .rfl, fun _ _ _ _ h => h, fun hl' _ => absurd hl' (Nat.not_lt.2 hn)⟩, rfl⟩
end

end Blang
