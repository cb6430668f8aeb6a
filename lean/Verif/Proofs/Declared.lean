import Verif.Proofs.SsaEx
import Verif.Proofs.StaticSt
import Verif.Proofs.Effective
import Verif.Spec.Declared
/-
Definite declaration is sound: if the text declares before it uses, the code computes the address before it uses it.
-/
namespace Blang
open Spec

/-- ghost state: the names available on entry to a block, and what the block of a label is going to have -/
structure Gd where
  A : Nat → Names
  Lab : Name → Names

/-- the register has been assigned and is not the address of a local variable -/
def Temp (c : CState) (a : Nat) : Prop := a < c.nextReg ∧ ¬ LocalAddr c.blocks a

/-- the address of the name is among the results -/
def Has (c : CState) (x : Name) (ls : List (Nat × Inst)) : Prop := ∃ a inst, lookup x c.locals = some (.reg a) ∧ (a, inst) ∈ ls

/-- the register can be used in block `i` behind the instructions `ls` -/
def Rdy (g : Gd) (c : CState) (i : Nat) (ls : List (Nat × Inst)) (a : Nat) : Prop :=
  Temp c a ∨ (∃ inst, (a, inst) ∈ ls) ∨ ∃ x, lookup x c.locals = some (.reg a) ∧ g.A i x

structure DI (g : Gd) (c : CState) : Prop where
  lt : c.cur < c.blocks.length
  reg : ∀ (i : Nat) (B : Block), c.blocks[i]? = some B → ∀ p ∈ B.insts, p.1 < c.nextReg
  ops : ∀ (i : Nat) (B : Block) (k r : Nat) (inst : Inst), c.blocks[i]? = some B → B.insts[k]? = some (r, inst) →
    ∀ a, .reg a ∈ Inst.operands inst → Rdy g c i (B.insts.take k) a
  tops : ∀ (i : Nat) (B : Block) (t : Term), c.blocks[i]? = some B → B.term = some t → ∀ a, .reg a ∈ Term.operands t → Rdy g c i B.insts a
  edges : ∀ (i : Nat) (B : Block) (t : Term), c.blocks[i]? = some B → B.term = some t → ∀ j ∈ Term.targets t,
    j < c.blocks.length ∧ ∀ x, g.A j x → g.A i x ∨ Has c x B.insts
  labels : ∀ l j, lookup l c.labels = some j → j < c.blocks.length ∧ g.A j = g.Lab l
  fresh : ∀ id v, c.labelID ≤ id → lookup (caseName id v) c.labels = none
  start : ∀ x, ¬ g.A 0 x
  ctx : ∀ x v, lookup x c.ctx = some v → NoReg v
  funs : ∀ x v, lookup x c.functions = some v → NoReg v

/-- the name is available now -/
def Now (g : Gd) (c : CState) (x : Name) : Prop := g.A c.cur x ∨ ∃ B : Block, c.blocks[c.cur]? = some B ∧ Has c x B.insts

/-- what happens to the state; `N` may be declared -/
structure Dn (N : List Name) (g : Gd) (c : CState) (g' : Gd) (c' : CState) : Prop where
  len : c.blocks.length ≤ c'.blocks.length
  A : ∀ i, i < c.blocks.length → g'.A i = g.A i
  Lab : ∀ l, (∀ id v, l = caseName id v → id < c.labelID) → g'.Lab l = g.Lab l
  locals : ∀ x v, lookup x c.locals = some v → lookup x c'.locals = some v
  keys : ∀ x v, lookup x c'.locals = some v → lookup x c.locals = some v ∨ x ∈ N
  id : c.labelID ≤ c'.labelID
  temp : ∀ a, Temp c a → Temp c' a
  labels : ∀ l j, lookup l c.labels = some j → lookup l c'.labels = some j

theorem Dn.refl (g : Gd) (c : CState) (N : List Name) : Dn N g c g c :=
  ⟨Nat.le_refl _, fun _ _ => rfl, fun _ _ => rfl, fun _ _ h => h, fun _ _ h => .inl h, Nat.le_refl _, fun _ h => h, fun _ _ h => h⟩

theorem Dn.trans {N N1 N2 : List Name} {g g1 g2 : Gd} {c c1 c2 : CState} (h1 : Dn N1 g c g1 c1) (h2 : Dn N2 g1 c1 g2 c2)
    (n1 : ∀ x ∈ N1, x ∈ N) (n2 : ∀ x ∈ N2, x ∈ N) : Dn N g c g2 c2 := by
  refine ⟨Nat.le_trans h1.len h2.len, fun i hi => ?_, fun l hl => ?_, fun x v h => h2.locals x v (h1.locals x v h), fun x v h => ?_,
    Nat.le_trans h1.id h2.id, fun a h => h2.temp a (h1.temp a h), fun l j h => h2.labels l j (h1.labels l j h)⟩
  · rw [h2.A i (Nat.lt_of_lt_of_le hi h1.len), h1.A i hi]
  · rw [h2.Lab l fun id v e => Nat.lt_of_lt_of_le (hl id v e) h1.id, h1.Lab l hl]
  · rcases h2.keys x v h with h | h
    · exact (h1.keys x v h).imp (fun h => h) (n1 x)
    · exact .inr (n2 x h)

/-- values: registers that are no local addresses, and addresses of names in `D` -/
def VD (D : Names) (c : CState) (v : Val) : Prop := ∀ a, v = .reg a → Temp c a ∨ ∃ x, D x ∧ lookup x c.locals = some (.reg a)

theorem VD.dn {D : Names} {N : List Name} {g g' : Gd} {c c' : CState} {v : Val} (hv : VD D c v) (h : Dn N g c g' c') : VD D c' v :=
  fun a e => (hv a e).imp (h.temp a) fun ⟨x, hx, hl⟩ => ⟨x, hx, h.locals x _ hl⟩

theorem VD.noReg {D : Names} {c : CState} {v : Val} (h : NoReg v) : VD D c v := fun a e => absurd e (h a)
theorem VD.const {D : Names} {c : CState} {n : W} : VD D c (.const n) := .noReg nofun
theorem VD.param {D : Names} {c : CState} : VD D c .param := .noReg nofun
theorem VD.glob {D : Names} {c : CState} {d : GlobalDef} : VD D c d.val := .noReg nofun
theorem VD.func {D : Names} {c : CState} {d : Func} : VD D c d.val := .noReg nofun

/-- running `f` from `c` keeps the invariant; names `D` are available before, `D'` afterwards, `N` may be declared -/
def XD (g : Gd) (c : CState) (D D' : Names) (N : List Name) {α : Type} (f : B α) (ok : Gd → CState → α → Prop) : Prop :=
  ∀ a c', f c = .ok a c' → DI g c → D.Within (Now g c) → ∃ g', DI g' c' ∧ Dn N g c g' c' ∧ D'.Within (Now g' c') ∧ ok g' c' a

section
variable {α β : Type} {g : Gd} {c : CState} {D D' D1 : Names} {N : List Name}

theorem XD.pure {ok : Gd → CState → α → Prop} (a : α) (h : ok g c a) : XD g c D D N (pure a : B α) ok := by
  intro b c' hc hi hd
  simp at hc; obtain ⟨rfl, rfl⟩ := hc; exact ⟨g, hi, .refl _ _ _, hd, h⟩

theorem XD.bind {ok1 : Gd → CState → α → Prop} {ok2 : Gd → CState → β → Prop} {f : B α} {k : α → B β} {N1 N2 : List Name} (hf : XD g c D D1 N1 f ok1)
    (hk : ∀ a g1 c1, Dn N1 g c g1 c1 → ok1 g1 c1 a → XD g1 c1 D1 D' N2 (k a) ok2) (n1 : ∀ x ∈ N1, x ∈ N := by intro x hx; exact hx) (n2 : ∀ x ∈ N2, x ∈ N := by intro x hx; exact hx) :
    XD g c D D' N (f >>= k) ok2 := by
  intro b c' hc hi hd
  obind hc a c1 h1
  obtain ⟨g1, i1, l1, d1, o1⟩ := hf a c1 h1 hi hd
  obtain ⟨g2, i2, l2, d2, o2⟩ := hk a g1 c1 l1 o1 b c' hc i1 d1
  exact ⟨g2, i2, l1.trans l2 n1 n2, d2, o2⟩

theorem XD.fail {ok : Gd → CState → α → Prop} {s : String} : XD g c D D' N (bfail s : B α) ok := by intro b c' h; cases h

theorem XD.ite {ok : Gd → CState → α → Prop} {p : Prop} [Decidable p] {f k : B α} (hf : p → XD g c D D' N f ok) (hg : ¬ p → XD g c D D' N k ok) :
    XD g c D D' N (if p then f else k) ok := by
  split
  · exact hf ‹_›
  · exact hg ‹_›

theorem XD.get {ok : Gd → CState → β → Prop} {k : CState → B β} (hg : DI g c → XD g c D D' N (k c) ok) : XD g c D D' N ((M.get : B CState) >>= k) ok := by
  intro b c' hc hi hd
  rw [Blang.M.bind_ok (M.get_apply _)] at hc
  exact hg hi b c' hc hi hd

theorem XD.imp {ok ok' : Gd → CState → α → Prop} {f : B α} (hf : XD g c D D' N f ok) (h : ∀ g c a, ok g c a → ok' g c a) : XD g c D D' N f ok' := by
  intro a c' hc hi hd
  obtain ⟨G', i, l, d, o⟩ := hf a c' hc hi hd
  exact ⟨G', i, l, d, h _ _ _ o⟩

/-- fewer names are needed afterwards, more are known before -/
theorem XD.within {ok : Gd → CState → α → Prop} {f : B α} {E E' : Names} (hf : XD g c E E' N f ok) (h : E.Within D) (h' : D'.Within E') : XD g c D D' N f ok := by
  intro a c' hc hi hd
  obtain ⟨G', i, l, d, o⟩ := hf a c' hc hi fun x hx => hd x (h x hx)
  exact ⟨G', i, l, fun x hx => d x (h' x hx), o⟩

/-! ### elementary operations -/

theorem Rdy.mono {g' : Gd} {c' : CState} {i : Nat} {ls ls' : List (Nat × Inst)} {a : Nat} (h : Rdy g c i ls a) (ht : ∀ a, Temp c a → Temp c' a)
    (hs : ∀ p ∈ ls, p ∈ ls') (hl : ∀ x v, lookup x c.locals = some v → lookup x c'.locals = some v) (hA : g'.A i = g.A i) : Rdy g' c' i ls' a := by
  rcases h with h | ⟨inst, h⟩ | ⟨x, h1, h2⟩
  · exact .inl (ht a h)
  · exact .inr (.inl ⟨inst, hs _ h⟩)
  · exact .inr (.inr ⟨x, hl x _ h1, by rw [hA]; exact h2⟩)

theorem Has.mono {c' : CState} {x : Name} {ls ls' : List (Nat × Inst)} (h : Has c x ls) (hs : ∀ p ∈ ls, p ∈ ls')
    (hl : ∀ x v, lookup x c.locals = some v → lookup x c'.locals = some v) : Has c' x ls' := by
  obtain ⟨a, inst, h1, h2⟩ := h
  exact ⟨a, inst, hl _ _ h1, hs _ h2⟩

/-- the operand can be used now -/
def VRd (g : Gd) (c : CState) (v : Val) : Prop := ∀ a, v = .reg a → ∃ B : Block, c.blocks[c.cur]? = some B ∧ Rdy g c c.cur B.insts a

theorem DI.block (h : DI g c) : ∃ B : Block, c.blocks[c.cur]? = some B := ⟨_, List.getElem?_eq_getElem h.lt⟩

theorem VD.vr {v : Val} (h : VD D c v) (hi : DI g c) (hd : D.Within (Now g c)) : VRd g c v := by
  intro a e
  obtain ⟨B, hB⟩ := hi.block
  refine ⟨B, hB, ?_⟩
  rcases h a e with h | ⟨x, hx, hl⟩
  · exact .inl h
  · rcases hd x hx with ha | ⟨B', hB', b, inst, hb, hm⟩
    · exact .inr (.inr ⟨x, hl, ha⟩)
    · rw [hB] at hB'; cases hB'
      rw [hl] at hb; cases hb
      exact .inr (.inl ⟨inst, hm⟩)

theorem temp_addInst {i : Inst} (a : Nat) (h : Temp c a) (c' : CState) (hb : c'.blocks = c.blocks.modify c.cur (addInst c.nextReg i))
    (hr : c'.nextReg = c.nextReg + 1) : Temp c' a := by
  refine ⟨by rw [hr]; exact Nat.lt_succ_of_lt h.1, ?_⟩
  rintro ⟨B, hB, j, hm, hj⟩
  rw [hb] at hB
  rcases mem_modify hB with hB | ⟨B0, hB0, rfl⟩
  · exact h.2 ⟨B, hB, j, hm, hj⟩
  · rcases List.mem_append.1 hm with hm | hm
    · exact h.2 ⟨B0, List.mem_of_getElem? hB0, j, hm, hj⟩
    · simp at hm
      have := h.1; omega

/-- an instruction -/
theorem DI.emit (h : DI g c) (i : Inst) (hv : ∀ v ∈ Inst.operands i, VRd g c v) :
    DI g { c with blocks := c.blocks.modify c.cur (addInst c.nextReg i), nextReg := c.nextReg + 1 } ∧
    Dn N g c g { c with blocks := c.blocks.modify c.cur (addInst c.nextReg i), nextReg := c.nextReg + 1 } ∧
    (∀ x, Now g c x → Now g { c with blocks := c.blocks.modify c.cur (addInst c.nextReg i), nextReg := c.nextReg + 1 } x) ∧
    (¬ Inst.makesLocal i → Temp { c with blocks := c.blocks.modify c.cur (addInst c.nextReg i), nextReg := c.nextReg + 1 } c.nextReg) := by
  have hl : (c.blocks.modify c.cur (Blang.addInst c.nextReg i)).length = c.blocks.length := List.length_modify ..
  have ht := fun a ha => temp_addInst (i := i) (c := c) a ha
    { c with blocks := c.blocks.modify c.cur (addInst c.nextReg i), nextReg := c.nextReg + 1 } rfl rfl
  refine ⟨⟨by rw [hl]; exact h.lt, ?_, ?_, ?_, ?_, ?_, h.fresh, h.start, h.ctx, h.funs⟩,
    ⟨by rw [hl]; exact Nat.le_refl _, fun _ _ => rfl, fun _ _ => rfl, fun _ _ h => h, fun _ _ h => .inl h, Nat.le_refl _, ht, fun _ _ h => h⟩, ?_, ?_⟩
  · intro j B hB p hp
    obtain ⟨B0, hB0, ⟨rfl, rfl⟩ | ⟨_, rfl⟩⟩ := modify_get hB
    · rcases List.mem_append.1 hp with hp | hp
      · exact Nat.lt_succ_of_lt (h.reg _ _ hB0 p hp)
      · rw [List.mem_singleton.1 hp]; exact Nat.lt_succ_self _
    · exact Nat.lt_succ_of_lt (h.reg _ _ hB0 p hp)
  · intro j B k r inst hB hk a ha
    obtain ⟨B0, hB0, ⟨rfl, rfl⟩ | ⟨_, rfl⟩⟩ := modify_get hB
    · rcases take_get hk with hk | ⟨rfl, e⟩
      · refine (h.ops _ _ k r inst hB0 hk a ha).mono ht (fun p hp => ?_) (fun _ _ h => h) rfl
        have hlt : k ≤ B0.insts.length := Nat.le_of_lt (List.getElem?_eq_some_iff.1 hk).1
        show p ∈ (B0.insts ++ _).take k
        rw [List.take_append_of_le_length hlt]; exact hp
      · cases e
        obtain ⟨B1, hB1, hr⟩ := hv _ ha a rfl
        rw [hB0] at hB1; cases hB1
        refine hr.mono ht (fun p hp => ?_) (fun _ _ h => h) rfl
        show p ∈ (B0.insts ++ _).take B0.insts.length
        rw [List.take_left']
        · exact hp
        · rfl
    · exact (h.ops _ _ k r inst hB0 hk a ha).mono ht (fun _ h => h) (fun _ _ h => h) rfl
  · intro j B t hB hk a ha
    obtain ⟨B0, hB0, ⟨rfl, rfl⟩ | ⟨_, rfl⟩⟩ := modify_get hB
    · exact (h.tops _ _ t hB0 hk a ha).mono ht (fun p hp => List.mem_append_left _ hp) (fun _ _ h => h) rfl
    · exact (h.tops _ _ t hB0 hk a ha).mono ht (fun _ h => h) (fun _ _ h => h) rfl
  · intro i B t hB hk j hj
    rw [hl]
    obtain ⟨B0, hB0, ⟨rfl, rfl⟩ | ⟨_, rfl⟩⟩ := modify_get hB
    · obtain ⟨h1, h2⟩ := h.edges _ _ t hB0 hk j hj
      exact ⟨h1, fun x hx => (h2 x hx).imp id fun q => q.mono (fun p hp => List.mem_append_left _ hp) (fun _ _ h => h)⟩
    · obtain ⟨h1, h2⟩ := h.edges _ _ t hB0 hk j hj
      exact ⟨h1, fun x hx => (h2 x hx).imp id fun q => q.mono (fun _ h => h) (fun _ _ h => h)⟩
  · intro l j hj
    rw [hl]; exact h.labels l j hj
  · rintro x (hx | ⟨B, hB, q⟩)
    · exact .inl hx
    · exact .inr ⟨_, modify_eq hB, q.mono (fun p hp => List.mem_append_left _ hp) (fun _ _ h => h)⟩
  · intro hm
    refine ⟨Nat.lt_succ_self _, ?_⟩
    rintro ⟨B, hB, j, hj, hj'⟩
    obtain ⟨n, hn⟩ := List.mem_iff_getElem?.1 hB
    obtain ⟨B0, hB0, ⟨rfl, rfl⟩ | ⟨_, rfl⟩⟩ := modify_get hn
    · rcases List.mem_append.1 hj with hj | hj
      · exact absurd (h.reg _ _ hB0 _ hj) (Nat.lt_irrefl _)
      · simp at hj; subst hj; exact hm hj'
    · exact absurd (h.reg _ _ hB0 _ hj) (Nat.lt_irrefl _)

theorem XD.emitV (i : Inst) (hm : ¬ Inst.makesLocal i) (hi : ∀ v ∈ Inst.operands i, VD D c v) : XD g c D D N (Blang.emit i) (fun _ => VD D) := by
  intro v c' hc h hd
  cases hc
  obtain ⟨h1, h2, h3, h4⟩ := h.emit (N := N) i fun v hv => (hi v hv).vr h hd
  exact ⟨g, h1, h2, fun x hx => h3 x (hd x hx), fun a e => by cases e; exact .inl (h4 hm)⟩

/-- a terminator -/
theorem XD.setTerm (t : Term) (hv : ∀ v ∈ Term.operands t, VD D c v)
    (ht : ∀ j ∈ Term.targets t, j < c.blocks.length ∧ (g.A j).Within D) : XD g c D D N (setTerm t) (fun _ c' _ => curTerm c' ≠ none) := by
  intro v c' hc h hd
  cases hc
  have hl : (c.blocks.modify c.cur (putTerm t)).length = c.blocks.length := List.length_modify ..
  have htm : ∀ a, Temp c a → Temp { c with blocks := c.blocks.modify c.cur (putTerm t) } a := by
    rintro a ⟨h1, h2⟩
    refine ⟨h1, ?_⟩
    rintro ⟨B, hB, j, hj, hj'⟩
    rcases mem_modify hB with hB | ⟨B0, hB0, rfl⟩
    · exact h2 ⟨B, hB, j, hj, hj'⟩
    · exact h2 ⟨B0, List.mem_of_getElem? hB0, j, hj, hj'⟩
  refine ⟨g, ⟨Nat.lt_of_lt_of_eq h.lt hl.symm, ?_, ?_, ?_, ?_, ?_, h.fresh, h.start, h.ctx, h.funs⟩,
    ⟨Nat.le_of_eq hl.symm, fun _ _ => rfl, fun _ _ => rfl, fun _ _ h => h, fun _ _ h => .inl h, Nat.le_refl _, htm, fun _ _ h => h⟩, ?_, ?_⟩
  · intro j B hB p hp
    obtain ⟨B0, hB0, ⟨rfl, rfl⟩ | ⟨_, rfl⟩⟩ := modify_get hB
    · exact h.reg _ _ hB0 p hp
    · exact h.reg _ _ hB0 p hp
  · intro j B k r inst hB hk a ha
    obtain ⟨B0, hB0, ⟨rfl, rfl⟩ | ⟨_, rfl⟩⟩ := modify_get hB
    · exact (h.ops _ _ k r inst hB0 hk a ha).mono htm (fun _ h => h) (fun _ _ h => h) rfl
    · exact (h.ops _ _ k r inst hB0 hk a ha).mono htm (fun _ h => h) (fun _ _ h => h) rfl
  · intro j B t' hB hk a ha
    obtain ⟨B0, hB0, ⟨rfl, rfl⟩ | ⟨_, rfl⟩⟩ := modify_get hB
    · cases hk
      obtain ⟨B1, hB1, hr⟩ := (hv _ ha).vr h hd a rfl
      rw [hB0] at hB1; cases hB1
      exact hr.mono htm (fun _ h => h) (fun _ _ h => h) rfl
    · exact (h.tops _ _ t' hB0 hk a ha).mono htm (fun _ h => h) (fun _ _ h => h) rfl
  · intro i B t' hB hk j hj
    rw [hl]
    obtain ⟨B0, hB0, ⟨rfl, rfl⟩ | ⟨_, rfl⟩⟩ := modify_get hB
    · cases hk
      obtain ⟨h1, h2⟩ := ht j hj
      refine ⟨h1, fun x hx => ?_⟩
      rcases hd x (h2 x hx) with q | ⟨B1, hB1, q⟩
      · exact .inl q
      · rw [hB0] at hB1; cases hB1; exact .inr q
    · exact h.edges _ _ t' hB0 hk j hj
  · intro l j hj
    rw [hl]; exact h.labels l j hj
  · intro x hx
    rcases hd x hx with q | ⟨B, hB, q⟩
    · exact .inl q
    · exact .inr ⟨_, modify_eq hB, q⟩
  · have := modify_eq (f := putTerm t) (List.getElem?_eq_getElem h.lt)
    simp [curTerm, this]

/-- only tables change -/
theorem DI.tables {c' : CState} (h : DI g c) (h1 : c'.blocks = c.blocks) (h2 : c'.cur = c.cur) (h3 : c'.nextReg = c.nextReg) (h4 : c'.locals = c.locals)
    (h5 : c'.labels = c.labels) (h6 : c.labelID ≤ c'.labelID)
    (h7 : ∀ x v, lookup x c'.ctx = some v → NoReg v) (h8 : ∀ x v, lookup x c'.functions = some v → NoReg v) :
    DI g c' ∧ Dn N g c g c' ∧ ∀ x, Now g c x → Now g c' x := by
  have ht : ∀ a, Temp c a → Temp c' a := by unfold Temp; rw [h1, h3]; exact fun _ h => h
  have hl : ∀ x v, lookup x c.locals = some v → lookup x c'.locals = some v := by rw [h4]; exact fun _ _ h => h
  refine ⟨⟨by rw [h1, h2]; exact h.lt, by rw [h1, h3]; exact h.reg, ?_, ?_, ?_, ?_, ?_, h.start, h7, h8⟩,
    ⟨by rw [h1]; exact Nat.le_refl _, fun _ _ => rfl, fun _ _ => rfl, hl, fun x v hx => .inl (by rw [← h4]; exact hx), h6, ht, fun l j hj => by rw [h5]; exact hj⟩, ?_⟩
  · rw [h1]; intro i B k r inst hB hk a ha; exact (h.ops i B k r inst hB hk a ha).mono ht (fun _ h => h) hl rfl
  · rw [h1]; intro i B t hB hk a ha; exact (h.tops i B t hB hk a ha).mono ht (fun _ h => h) hl rfl
  · rw [h1]; intro i B t hB hk j hj
    obtain ⟨e1, e2⟩ := h.edges i B t hB hk j hj
    exact ⟨e1, fun x hx => (e2 x hx).imp id fun q => q.mono (fun _ h => h) hl⟩
  · rw [h1, h5]; exact h.labels
  · rw [h5]; intro id v hid; exact h.fresh id v (Nat.le_trans h6 hid)
  · rintro x (q | ⟨B, hB, q⟩)
    · exact .inl (by rw [h2]; exact q)
    · exact .inr ⟨B, by rw [h1, h2]; exact hB, q.mono (fun _ h => h) hl⟩

theorem XD.tables {f : B α} {ok : Gd → CState → α → Prop} (hf : ∀ a c', f c = .ok a c' → DI g c → c'.blocks = c.blocks ∧ c'.cur = c.cur ∧ c'.nextReg = c.nextReg ∧
    c'.locals = c.locals ∧ c'.labels = c.labels ∧ c.labelID ≤ c'.labelID ∧ (∀ x v, lookup x c'.ctx = some v → NoReg v) ∧
    (∀ x v, lookup x c'.functions = some v → NoReg v) ∧ ok g c' a) : XD g c D D N f ok := by
  intro a c' hc hi hd
  obtain ⟨h1, h2, h3, h4, h5, h6, h7, h8, h9⟩ := hf a c' hc hi
  obtain ⟨i, l, d⟩ := hi.tables (N := N) h1 h2 h3 h4 h5 h6 h7 h8
  exact ⟨g, i, l, fun x hx => d x (hd x hx), h9⟩

/-- a new block, to which `S` is given -/
def Gd.set (g : Gd) (n : Nat) (S : Names) : Gd := ⟨fun i => if i = n then S else g.A i, g.Lab⟩

theorem DI.append (h : DI g c) (nm : Name) (ls : List (Name × Nat)) (S : Names) (hk : ∀ l j, lookup l c.labels = some j → lookup l ls = some j)
    (hl : ∀ l j, lookup l ls = some j → lookup l c.labels = some j ∨ (j = c.blocks.length ∧ S = g.Lab l))
    (hf : ∀ id v, c.labelID ≤ id → lookup (caseName id v) ls = none) :
    DI (g.set c.blocks.length S) { c with blocks := c.blocks ++ [⟨nm, [], none⟩], labels := ls } ∧
    Dn N g c (g.set c.blocks.length S) { c with blocks := c.blocks ++ [⟨nm, [], none⟩], labels := ls } ∧
    (∀ x, Now g c x → Now (g.set c.blocks.length S) { c with blocks := c.blocks ++ [⟨nm, [], none⟩], labels := ls } x) ∧
    (g.set c.blocks.length S).A c.blocks.length = S := by
  have hlen : (c.blocks ++ [(⟨nm, [], none⟩ : Block)]).length = c.blocks.length + 1 := by simp
  have hA : ∀ i, i < c.blocks.length → (g.set c.blocks.length S).A i = g.A i := fun i hi => by
    simp only [Gd.set]; rw [if_neg (by omega)]
  have hS : (g.set c.blocks.length S).A c.blocks.length = S := by simp [Gd.set]
  have lt : ∀ {i : Nat} {B : Block}, c.blocks[i]? = some B → i < c.blocks.length := fun h => (List.getElem?_eq_some_iff.1 h).1
  have htm : ∀ a, Temp c a → Temp { c with blocks := c.blocks ++ [⟨nm, [], none⟩], labels := ls } a := by
    rintro a ⟨h1, h2⟩
    refine ⟨h1, ?_⟩
    rintro ⟨B, hB, j, hj, hj'⟩
    rcases List.mem_append.1 hB with hB | hB
    · exact h2 ⟨B, hB, j, hj, hj'⟩
    · rw [List.mem_singleton.1 hB] at hj; cases hj
  refine ⟨⟨?_, ?_, ?_, ?_, ?_, ?_, hf, ?_, h.ctx, h.funs⟩, ⟨?_, hA, fun _ _ => rfl, fun _ _ h => h, fun _ _ h => .inl h, Nat.le_refl _, htm, hk⟩, ?_, hS⟩
  · show c.cur < (c.blocks ++ _).length
    rw [hlen]; exact Nat.lt_succ_of_lt h.lt
  · intro j B hB p hp
    rcases append_get hB with hB | ⟨_, rfl⟩
    · exact h.reg _ _ hB p hp
    · cases hp
  · intro j B k r inst hB hk a ha
    rcases append_get hB with hB | ⟨_, rfl⟩
    · exact (h.ops _ _ k r inst hB hk a ha).mono htm (fun _ h => h) (fun _ _ h => h) (hA _ (lt hB))
    · simp at hk
  · intro j B t hB hk a ha
    rcases append_get hB with hB | ⟨_, rfl⟩
    · exact (h.tops _ _ t hB hk a ha).mono htm (fun _ h => h) (fun _ _ h => h) (hA _ (lt hB))
    · cases hk
  · intro i B t hB hk j hj
    show j < (c.blocks ++ _).length ∧ _
    rw [hlen]
    rcases append_get hB with hB | ⟨_, rfl⟩
    · obtain ⟨h1, h2⟩ := h.edges _ _ t hB hk j hj
      exact ⟨Nat.lt_succ_of_lt h1, by rw [hA _ h1, hA _ (lt hB)]; exact h2⟩
    · cases hk
  · intro l j hj
    show j < (c.blocks ++ _).length ∧ _
    rw [hlen]
    rcases hl l j hj with hj | ⟨rfl, e⟩
    · obtain ⟨h1, h2⟩ := h.labels l j hj
      exact ⟨Nat.lt_succ_of_lt h1, by rw [hA _ h1]; exact h2⟩
    · exact ⟨Nat.lt_succ_self _, by rw [hS]; exact e⟩
  · have h0 : (g.set c.blocks.length S).A 0 = g.A 0 := hA 0 (Nat.lt_of_le_of_lt (Nat.zero_le _) h.lt)
    rw [h0]; exact h.start
  · show c.blocks.length ≤ (c.blocks ++ _).length
    rw [hlen]; exact Nat.le_succ _
  · rintro x (q | ⟨B, hB, q⟩)
    · exact .inl (by show (g.set _ S).A c.cur x; rw [hA _ h.lt]; exact q)
    · exact .inr ⟨B, by show (c.blocks ++ _)[c.cur]? = _; rw [List.getElem?_append_left h.lt]; exact hB, q⟩

end
end Blang
