import Verif.Proofs.Typing
import Verif.Spec.Ssa
/-
Registers are computed before they are used, and phi instructions name the blocks before theirs.
-/
namespace Blang
open Spec

/-- Ghost state: the special blocks (of `?:`, and the comparison blocks of `switch`), and the registers
that have been computed whenever such a block is entered. -/
structure Gh where
  K : Nat → Prop
  D : Nat → Nat → Prop

/-- computed at the end of block `i` -/
def Out (G : Gh) (bs : List Block) (i a : Nat) : Prop := G.D i a ∨ ∃ (B : Block) (inst : Inst), bs[i]? = some B ∧ (a, inst) ∈ B.insts

def VOut (G : Gh) (bs : List Block) (i : Nat) (v : Val) : Prop := ∀ a, v = .reg a → LocalAddr bs a ∨ Out G bs i a

def termAt (bs : List Block) (i : Nat) : Option Term := (bs[i]?).bind (·.term)

structure PhiOk (G : Gh) (bs : List Block) (cur i k : Nat) (x : Val) (b : Nat) (y : Val) (b' : Nat) : Prop where
  first : k = 0
  ki : G.K i
  kb : G.K b
  kb' : G.K b'
  ne : b ≠ b'
  nc : b ≠ cur
  nc' : b' ≠ cur
  tb : termAt bs b = some (.br i)
  tb' : termAt bs b' = some (.br i)
  pred : ∀ j, Edge bs j i → j = b ∨ j = b'
  vx : VOut G bs b x
  vy : VOut G bs b' y

structure Core (G : Gh) (bs : List Block) (cur : Nat) : Prop where
  lt : cur < bs.length
  kl : ∀ i, G.K i → 0 < i ∧ i < bs.length
  nk : ∀ i a, G.D i a → G.K i
  ops : ∀ (i : Nat) (B : Block) (k r : Nat) (inst : Inst), bs[i]? = some B → B.insts[k]? = some (r, inst) → ¬ Inst.isPhi inst → ∀ a, .reg a ∈ Inst.operands inst →
    LocalAddr bs a ∨ G.D i a ∨ ∃ (k' : Nat) (inst' : Inst), k' < k ∧ B.insts[k']? = some (a, inst')
  tops : ∀ (i : Nat) (B : Block) (t : Term), bs[i]? = some B → B.term = some t → ∀ v ∈ Term.operands t, VOut G bs i v
  edges : ∀ i j, Edge bs i j → 0 < j ∧ j < bs.length ∧ ∀ a, G.D j a → Out G bs i a
  phis : ∀ (i : Nat) (B : Block) (k r : Nat) (x : Val) (b : Nat) (y : Val) (b' : Nat), bs[i]? = some B → B.insts[k]? = some (r, .phi x b y b') → PhiOk G bs cur i k x b y b'

/-- blocks only get more instructions -/
def BsLe (bs bs' : List Block) : Prop := ∀ (i : Nat) (B : Block), bs[i]? = some B → ∃ (B' : Block) (l : List (Nat × Inst)), bs'[i]? = some B' ∧ B'.insts = B.insts ++ l

theorem BsLe.refl (bs : List Block) : BsLe bs bs := fun _ B h => ⟨B, [], h, by simp⟩
theorem BsLe.trans {a b c : List Block} (h1 : BsLe a b) (h2 : BsLe b c) : BsLe a c := by
  intro i B h
  obtain ⟨B1, l1, e1, i1⟩ := h1 i B h
  obtain ⟨B2, l2, e2, i2⟩ := h2 i B1 e1
  exact ⟨B2, l1 ++ l2, e2, by rw [i2, i1, List.append_assoc]⟩
theorem BsLe.len {a b : List Block} (h : BsLe a b) : a.length ≤ b.length := by
  apply Nat.le_of_not_lt
  intro hl
  obtain ⟨B', l, e, _⟩ := h b.length a[b.length] (List.getElem?_eq_getElem hl)
  rw [List.getElem?_eq_none (Nat.le_refl _)] at e; cases e

theorem BsLe.localAddr {bs bs' : List Block} (h : BsLe bs bs') {a : Nat} (ha : LocalAddr bs a) : LocalAddr bs' a := by
  obtain ⟨B, hB, i, hi, hm⟩ := ha
  obtain ⟨j, hj⟩ := List.mem_iff_getElem?.1 hB
  obtain ⟨B', l, e, hl⟩ := h j B hj
  exact ⟨B', List.mem_of_getElem? e, i, by rw [hl]; exact List.mem_append_left _ hi, hm⟩

theorem BsLe.out {bs bs' : List Block} {G G' : Gh} (h : BsLe bs bs') {i a : Nat} (hD : ∀ a, G.D i a → G'.D i a) (ha : Out G bs i a) : Out G' bs' i a := by
  rcases ha with ha | ⟨B, inst, hB, hm⟩
  · exact .inl (hD _ ha)
  · obtain ⟨B', l, e, hl⟩ := h i B hB
    exact .inr ⟨B', inst, e, by rw [hl]; exact List.mem_append_left _ hm⟩

theorem BsLe.vout {bs bs' : List Block} {G G' : Gh} (h : BsLe bs bs') {i : Nat} {v : Val} (hD : ∀ a, G.D i a → G'.D i a) (hv : VOut G bs i v) : VOut G' bs' i v :=
  fun a e => (hv a e).imp h.localAddr (h.out hD)

theorem BsLe.modify {bs : List Block} {k : Nat} {f : Block → Block} (hf : ∀ B, ∃ l, (f B).insts = B.insts ++ l) : BsLe bs (bs.modify k f) := by
  intro i B h
  by_cases hk : k = i
  · obtain ⟨l, e⟩ := hf B
    exact ⟨f B, l, by rw [List.getElem?_modify, h]; simp [hk], e⟩
  · exact ⟨B, [], by rw [List.getElem?_modify, h]; simp [hk], by simp⟩

theorem BsLe.append (bs l : List Block) : BsLe bs (bs ++ l) := by
  intro i B h
  exact ⟨B, [], by rw [List.getElem?_append_left (List.getElem?_eq_some_iff.1 h).1, h], by simp⟩

theorem modify_ne {bs : List Block} {k i : Nat} {f : Block → Block} (h : k ≠ i) : (bs.modify k f)[i]? = bs[i]? := by
  rw [List.getElem?_modify]; simp [h]

theorem modify_eq {bs : List Block} {k : Nat} {f : Block → Block} {B : Block} (h : bs[k]? = some B) : (bs.modify k f)[k]? = some (f B) := by
  rw [List.getElem?_modify, h]; simp

/-! ### the elementary steps -/

abbrev addInst (r : Nat) (inst : Inst) (b : Block) : Block := { b with insts := b.insts ++ [(r, inst)] }
abbrev putTerm (t : Term) (b : Block) : Block := { b with term := some t }

theorem edge_addInst {bs : List Block} {k r : Nat} {inst : Inst} {i j : Nat} : Edge (bs.modify k (addInst r inst)) i j ↔ Edge bs i j := by
  constructor
  · rintro ⟨B, t, hB, ht, hj⟩
    obtain ⟨A, hA, ⟨_, rfl⟩ | ⟨_, rfl⟩⟩ := modify_get hB
    · exact ⟨A, t, hA, ht, hj⟩
    · exact ⟨B, t, hA, ht, hj⟩
  · rintro ⟨B, t, hB, ht, hj⟩
    by_cases hk : k = i
    · subst hk; exact ⟨_, t, modify_eq hB, ht, hj⟩
    · exact ⟨B, t, by rw [modify_ne hk]; exact hB, ht, hj⟩

theorem termAt_addInst {bs : List Block} {k r : Nat} {inst : Inst} {i : Nat} : termAt (bs.modify k (addInst r inst)) i = termAt bs i := by
  unfold termAt
  rw [List.getElem?_modify]
  cases bs[i]? with
  | none => rfl
  | some B => by_cases hk : k = i <;> simp [hk]

theorem addInst_le {bs : List Block} {k r : Nat} {inst : Inst} : BsLe bs (bs.modify k (addInst r inst)) := BsLe.modify fun B => ⟨_, rfl⟩

theorem putTerm_le {bs : List Block} {k : Nat} {t : Term} : BsLe bs (bs.modify k (putTerm t)) := BsLe.modify fun B => ⟨[], by simp⟩

theorem PhiOk.addInst {G : Gh} {bs : List Block} {cur i k : Nat} {x y : Val} {b b' : Nat} (h : PhiOk G bs cur i k x b y b') (m r : Nat) (inst : Inst) :
    PhiOk G (bs.modify m (Blang.addInst r inst)) cur i k x b y b' :=
  ⟨h.first, h.ki, h.kb, h.kb', h.ne, h.nc, h.nc', by rw [termAt_addInst]; exact h.tb, by rw [termAt_addInst]; exact h.tb',
   fun j hj => h.pred j (edge_addInst.1 hj), addInst_le.vout (fun _ h => h) h.vx, addInst_le.vout (fun _ h => h) h.vy⟩

theorem take_get {α : Type} {l : List α} {p : α} {k : Nat} {q : α} (h : (l ++ [p])[k]? = some q) : l[k]? = some q ∨ (k = l.length ∧ q = p) := by
  by_cases hk : k < l.length
  · rw [List.getElem?_append_left hk] at h; exact .inl h
  · rw [List.getElem?_append_right (Nat.le_of_not_lt hk)] at h
    by_cases e : k - l.length = 0
    · rw [e] at h; simp at h; exact .inr ⟨by omega, h.symm⟩
    · rw [List.getElem?_eq_none (by simp; omega)] at h; cases h

/-- an instruction is added to the current block -/
theorem Core.emit {G : Gh} {bs : List Block} {cur : Nat} (h : Core G bs cur) (r : Nat) (inst : Inst)
    (hn : ¬ Inst.isPhi inst → ∀ v ∈ Inst.operands inst, VOut G bs cur v)
    (hp : ∀ x b y b', inst = .phi x b y b' → (∀ B, bs[cur]? = some B → B.insts = []) ∧ PhiOk G bs cur cur 0 x b y b') :
    Core G (bs.modify cur (addInst r inst)) cur := by
  have le := addInst_le (bs := bs) (k := cur) (r := r) (inst := inst)
  refine ⟨by rw [List.length_modify]; exact h.lt, ?_, h.nk, ?_, ?_, ?_, ?_⟩
  · intro i hi; rw [List.length_modify]; exact h.kl i hi
  · intro i B k r' inst' hB hk hphi a ha
    obtain ⟨A, hA, ⟨rfl, rfl⟩ | ⟨_, rfl⟩⟩ := modify_get hB
    · rcases take_get hk with hk | ⟨rfl, e⟩
      · rcases h.ops _ A k r' inst' hA hk hphi a ha with h1 | h1 | ⟨k', j, h1, h2⟩
        · exact .inl (le.localAddr h1)
        · exact .inr (.inl h1)
        · refine .inr (.inr ⟨k', j, h1, ?_⟩)
          show (A.insts ++ _)[k']? = _
          rw [List.getElem?_append_left (List.getElem?_eq_some_iff.1 h2).1]; exact h2
      · cases e
        rcases hn hphi _ ha a rfl with h1 | h1 | ⟨B, j, h1, h2⟩
        · exact .inl (le.localAddr h1)
        · exact .inr (.inl h1)
        · rw [hA] at h1; cases h1
          obtain ⟨k', h3⟩ := List.mem_iff_getElem?.1 h2
          have hlt := (List.getElem?_eq_some_iff.1 h3).1
          refine .inr (.inr ⟨k', j, hlt, ?_⟩)
          show (A.insts ++ _)[k']? = _
          rw [List.getElem?_append_left hlt]; exact h3
    · rcases h.ops _ B k r' inst' hA hk hphi a ha with h1 | h1 | ⟨k', j, h1, h2⟩
      · exact .inl (le.localAddr h1)
      · exact .inr (.inl h1)
      · exact .inr (.inr ⟨k', j, h1, h2⟩)
  · intro i B t hB ht v hv
    obtain ⟨A, hA, ⟨rfl, rfl⟩ | ⟨_, rfl⟩⟩ := modify_get hB
    · exact le.vout (fun _ h => h) (h.tops _ A t hA ht v hv)
    · exact le.vout (fun _ h => h) (h.tops _ B t hA ht v hv)
  · intro i j he
    obtain ⟨h1, h2, h3⟩ := h.edges i j (edge_addInst.1 he)
    exact ⟨h1, by rw [List.length_modify]; exact h2, fun a ha => le.out (fun _ h => h) (h3 a ha)⟩
  · intro i B k r' x b y b' hB hk
    obtain ⟨A, hA, ⟨rfl, rfl⟩ | ⟨_, rfl⟩⟩ := modify_get hB
    · rcases take_get hk with hk | ⟨rfl, e⟩
      · exact (h.phis _ A k r' x b y b' hA hk).addInst _ _ _
      · cases e
        obtain ⟨h1, h2⟩ := hp x b y b' rfl
        rw [h1 A hA]
        exact h2.addInst _ _ _
    · exact (h.phis _ B k r' x b y b' hA hk).addInst _ _ _

theorem edge_putTerm {bs : List Block} {k : Nat} {t : Term} {i j : Nat} (h : Edge (bs.modify k (putTerm t)) i j) : (i = k ∧ j ∈ Term.targets t) ∨ (i ≠ k ∧ Edge bs i j) := by
  obtain ⟨B, t', hB, ht, hj⟩ := h
  obtain ⟨A, hA, ⟨e, rfl⟩ | ⟨e, rfl⟩⟩ := modify_get hB
  · cases ht; exact .inl ⟨e.symm, hj⟩
  · exact .inr ⟨fun h => e h.symm, B, t', hA, ht, hj⟩

theorem termAt_putTerm_ne {bs : List Block} {k : Nat} {t : Term} {i : Nat} (h : k ≠ i) : termAt (bs.modify k (putTerm t)) i = termAt bs i := by
  unfold termAt; rw [modify_ne h]

/-- the terminator of the current block is set -/
theorem Core.setTerm {G : Gh} {bs : List Block} {cur : Nat} (h : Core G bs cur) (t : Term) (hv : ∀ v ∈ Term.operands t, VOut G bs cur v)
    (ht : ∀ j ∈ Term.targets t, 0 < j ∧ j < bs.length ∧ (¬ G.K j ∨ (∀ a, G.D j a → Out G bs cur a) ∧ ∀ B, bs[j]? = some B → B.insts = [])) :
    Core G (bs.modify cur (putTerm t)) cur := by
  have le := putTerm_le (bs := bs) (k := cur) (t := t)
  refine ⟨by rw [List.length_modify]; exact h.lt, ?_, h.nk, ?_, ?_, ?_, ?_⟩
  · intro i hi; rw [List.length_modify]; exact h.kl i hi
  · intro i B k r' inst' hB hk hphi a ha
    obtain ⟨A, hA, e⟩ := modify_get hB
    have hi : B.insts = A.insts := by rcases e with ⟨_, rfl⟩ | ⟨_, rfl⟩ <;> rfl
    rw [hi] at hk ⊢
    rcases h.ops _ A k r' inst' hA hk hphi a ha with h1 | h1
    · exact .inl (le.localAddr h1)
    · exact .inr h1
  · intro i B t' hB ht' v hv'
    obtain ⟨A, hA, ⟨rfl, rfl⟩ | ⟨_, rfl⟩⟩ := modify_get hB
    · cases ht'
      exact le.vout (fun _ h => h) (hv v hv')
    · exact le.vout (fun _ h => h) (h.tops _ B t' hA ht' v hv')
  · intro i j he
    rw [List.length_modify]
    rcases edge_putTerm he with ⟨rfl, hj⟩ | ⟨_, he⟩
    · obtain ⟨h1, h2, h3⟩ := ht j hj
      refine ⟨h1, h2, fun a ha => le.out (fun _ h => h) ?_⟩
      rcases h3 with h3 | h3
      · exact absurd (h.nk _ _ ha) h3
      · exact h3.1 a ha
    · obtain ⟨h1, h2, h3⟩ := h.edges i j he
      exact ⟨h1, h2, fun a ha => le.out (fun _ h => h) (h3 a ha)⟩
  · intro i B k r' x b y b' hB hk
    obtain ⟨A, hA, e⟩ := modify_get hB
    have hi : B.insts = A.insts := by rcases e with ⟨_, rfl⟩ | ⟨_, rfl⟩ <;> rfl
    rw [hi] at hk
    have p := h.phis _ A k r' x b y b' hA hk
    refine ⟨p.first, p.ki, p.kb, p.kb', p.ne, p.nc, p.nc', ?_, ?_, ?_, le.vout (fun _ h => h) p.vx, le.vout (fun _ h => h) p.vy⟩
    · rw [termAt_putTerm_ne p.nc.symm]; exact p.tb
    · rw [termAt_putTerm_ne p.nc'.symm]; exact p.tb'
    · intro j he
      rcases edge_putTerm he with ⟨rfl, hj⟩ | ⟨_, he⟩
      · obtain ⟨h1, h2, h3⟩ := ht i hj
        rcases h3 with h3 | h3
        · exact absurd p.ki h3
        · rw [h3.2 A hA] at hk; simp at hk
      · exact p.pred j he

theorem append_get {bs : List Block} {B0 B : Block} {i : Nat} (h : (bs ++ [B0])[i]? = some B) : bs[i]? = some B ∨ (i = bs.length ∧ B = B0) := by
  rcases take_get h with h | h
  · exact .inl h
  · exact .inr h

theorem edge_append {bs : List Block} {nm : Name} {i j : Nat} (h : Edge (bs ++ [⟨nm, [], none⟩]) i j) : Edge bs i j := by
  obtain ⟨B, t, hB, ht, hj⟩ := h
  rcases append_get hB with h | ⟨_, rfl⟩
  · exact ⟨B, t, h, ht, hj⟩
  · cases ht

theorem termAt_append {bs l : List Block} {i : Nat} {t : Term} (h : termAt bs i = some t) : termAt (bs ++ l) i = some t := by
  unfold termAt at *
  cases hi : bs[i]? with
  | none => rw [hi] at h; cases h
  | some B => rw [List.getElem?_append_left (List.getElem?_eq_some_iff.1 hi).1]; exact h

/-- an empty block is added -/
theorem Core.append {G : Gh} {bs : List Block} {cur : Nat} (h : Core G bs cur) (nm : Name) : Core G (bs ++ [⟨nm, [], none⟩]) cur := by
  have le := BsLe.append bs [⟨nm, [], none⟩]
  have hl : (bs ++ [(⟨nm, [], none⟩ : Block)]).length = bs.length + 1 := by simp
  refine ⟨by rw [hl]; have := h.lt; omega, ?_, h.nk, ?_, ?_, ?_, ?_⟩
  · intro i hi; rw [hl]; have := h.kl i hi; omega
  · intro i B k r' inst' hB hk hphi a ha
    rcases append_get hB with hB | ⟨_, rfl⟩
    · rcases h.ops _ B k r' inst' hB hk hphi a ha with h1 | h1
      · exact .inl (le.localAddr h1)
      · exact .inr h1
    · simp at hk
  · intro i B t' hB ht' v hv'
    rcases append_get hB with hB | ⟨_, rfl⟩
    · exact le.vout (fun _ h => h) (h.tops _ B t' hB ht' v hv')
    · cases ht'
  · intro i j he
    obtain ⟨h1, h2, h3⟩ := h.edges i j (edge_append he)
    exact ⟨h1, by rw [hl]; omega, fun a ha => le.out (fun _ h => h) (h3 a ha)⟩
  · intro i B k r' x b y b' hB hk
    rcases append_get hB with hB | ⟨_, rfl⟩
    · have p := h.phis _ B k r' x b y b' hB hk
      exact ⟨p.first, p.ki, p.kb, p.kb', p.ne, p.nc, p.nc', termAt_append p.tb, termAt_append p.tb', fun j he => p.pred j (edge_append he),
        le.vout (fun _ h => h) p.vx, le.vout (fun _ h => h) p.vy⟩
    · simp at hk

/-- block `m` becomes special, with the registers `S` -/
def Gh.mark (G : Gh) (m : Nat) (S : Nat → Prop) : Gh := ⟨fun i => G.K i ∨ i = m, fun i a => G.D i a ∨ (i = m ∧ S a)⟩

theorem Core.mark {G : Gh} {bs : List Block} {cur : Nat} (h : Core G bs cur) (m : Nat) (S : Nat → Prop) (hm : 0 < m) (hl : m < bs.length)
    (he : ∀ j, ¬ Edge bs j m) : Core (G.mark m S) bs cur := by
  have hD : ∀ i a, G.D i a → (G.mark m S).D i a := fun i a h => .inl h
  have le := BsLe.refl bs
  refine ⟨h.lt, ?_, ?_, ?_, ?_, ?_, ?_⟩
  · rintro i (hi | rfl)
    · exact h.kl i hi
    · exact ⟨hm, hl⟩
  · rintro i a (hi | ⟨rfl, _⟩)
    · exact .inl (h.nk i a hi)
    · exact .inr rfl
  · intro i B k r inst hB hk hphi a ha
    rcases h.ops i B k r inst hB hk hphi a ha with h1 | h1 | h1
    · exact .inl h1
    · exact .inr (.inl (.inl h1))
    · exact .inr (.inr h1)
  · intro i B t hB ht v hv; exact le.vout (hD i) (h.tops i B t hB ht v hv)
  · intro i j hij
    obtain ⟨h1, h2, h3⟩ := h.edges i j hij
    refine ⟨h1, h2, fun a ha => ?_⟩
    rcases ha with ha | ⟨rfl, _⟩
    · exact le.out (hD i) (h3 a ha)
    · exact absurd hij (he i)
  · intro i B k r x b y b' hB hk
    have p := h.phis i B k r x b y b' hB hk
    exact ⟨p.first, .inl p.ki, .inl p.kb, .inl p.kb', p.ne, p.nc, p.nc', p.tb, p.tb', p.pred, le.vout (hD _) p.vx, le.vout (hD _) p.vy⟩

/-- another block becomes the current one -/
theorem Core.move {G : Gh} {bs : List Block} {cur : Nat} (h : Core G bs cur) (m : Nat) (hl : m < bs.length)
    (hm : ¬ G.K m ∨ termAt bs m = none) : Core G bs m := by
  refine ⟨hl, h.kl, h.nk, h.ops, h.tops, h.edges, ?_⟩
  intro i B k r x b y b' hB hk
  have p := h.phis i B k r x b y b' hB hk
  have key : ∀ b0, G.K b0 → termAt bs b0 = some (.br i) → b0 ≠ m := by
    intro b0 hk ht e
    subst e
    rcases hm with hm | hm
    · exact hm hk
    · rw [hm] at ht; cases ht
  exact ⟨p.first, p.ki, p.kb, p.kb', p.ne, key _ p.kb p.tb, key _ p.kb' p.tb', p.tb, p.tb', p.pred, p.vx, p.vy⟩

end Blang
