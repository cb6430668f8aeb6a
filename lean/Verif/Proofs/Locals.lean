import Verif.Proofs.Origin
import Verif.Spec.Paths
/-
The order of instructions: operands are computed before their use in the same block, nothing jumps to
the first block, and local memory is reserved in the first block.
-/
namespace Blang
open Spec

/-- a value that needs registers below the number only -/
def vb : Val → Nat
  | .reg r => r + 1
  | _ => 0

theorem vb_const (w : W) : vb (.const w) = 0 := rfl
theorem vb_glob (s : Name) (t : Ty) : vb (.glob s t) = 0 := rfl
theorem vb_func (s : Name) (b : Bool) (k : Nat) : vb (.func s b k) = 0 := rfl
theorem vb_param : vb .param = 0 := rfl

def vbs : List Val → Nat
  | [] => 0
  | v :: vs => max (vb v) (vbs vs)

theorem vbs_mem {vs : List Val} {r : Nat} (h : Val.reg r ∈ vs) : r < vbs vs := by
  induction vs with
  | nil => cases h
  | cons v vs ih =>
    rcases List.mem_cons.1 h with rfl | h
    · simp only [vbs, vb]; omega
    · have := ih h; simp only [vbs]; omega

structure BFit (n : Nat) (B : Block) : Prop where
  sorted : B.insts.Pairwise (fun a b => a.1 < b.1)
  lt : ∀ p ∈ B.insts, p.1 < n
  ops : ∀ p ∈ B.insts, vbs (Inst.operands p.2) ≤ p.1
  tgt : ∀ t, B.term = some t → ∀ j ∈ Term.targets t, j ≠ 0

structure Fit (c : CState) : Prop where
  len : c.blocks ≠ []
  fit : ∀ B ∈ c.blocks, BFit c.nextReg B
  first : ∀ (i : Nat) (B : Block), c.blocks[i]? = some B → i ≠ 0 → ∀ p ∈ B.insts, ¬ Inst.makesLocal p.2
  labels : ∀ l j, lookup l c.labels = some j → j ≠ 0
  locals : ∀ x v, lookup x c.locals = some v → vb v ≤ c.nextReg
  ctx : ∀ x v, lookup x c.ctx = some v → vb v = 0
  funs : ∀ x v, lookup x c.functions = some v → vb v = 0

theorem BFit.mono {n m : Nat} {B : Block} (h : BFit n B) (hm : n ≤ m) : BFit m B :=
  ⟨h.sorted, fun p hp => Nat.lt_of_lt_of_le (h.lt p hp) hm, h.ops, h.tgt⟩

/-- only tables change -/
theorem Fit.tables {c c' : CState} (h : Fit c) (h1 : c'.blocks = c.blocks) (h2 : c'.nextReg = c.nextReg)
    (h3 : ∀ l j, lookup l c'.labels = some j → j ≠ 0) (h4 : ∀ x v, lookup x c'.locals = some v → vb v ≤ c'.nextReg)
    (h5 : ∀ x v, lookup x c'.ctx = some v → vb v = 0) (h6 : ∀ x v, lookup x c'.functions = some v → vb v = 0) : Fit c' :=
  ⟨by rw [h1]; exact h.len, by rw [h1, h2]; exact h.fit, by rw [h1]; exact h.first, h3, h4, h5, h6⟩

theorem lookup_insert_or {α : Type} {x y : Name} {v w : α} {m : List (Name × α)} (h : lookup y (insert x v m) = some w) :
    w = v ∨ lookup y m = some w := by
  by_cases hx : x = y
  · left; subst hx; simp [lookup, insert] at h; exact h.symm
  · right; rw [lookup_insert_ne hx] at h; exact h

/-- what running `f` keeps; with `z` the insertion point stays in the first block -/
def KV (z : Bool) (n : Nat) {α : Type} (f : B α) (ok : Nat → α → Prop) : Prop :=
  ∀ c a c', f c = .ok a c' → Fit c → n ≤ c.nextReg → (z = true → c.cur = 0) →
    Fit c' ∧ c.nextReg ≤ c'.nextReg ∧ ok c'.nextReg a ∧ (z = true → c'.cur = 0)

section
variable {α β : Type} {z : Bool} {n : Nat}

theorem KV.pure {ok : Nat → α → Prop} (a : α) (h : ∀ m, n ≤ m → ok m a) : KV z n (pure a : B α) ok := by
  intro c b c' hc hf hn hz
  simp at hc; obtain ⟨rfl, rfl⟩ := hc; exact ⟨hf, Nat.le_refl _, h _ hn, hz⟩

theorem KV.bind {ok1 : Nat → α → Prop} {ok2 : Nat → β → Prop} {f : B α} {g : α → B β} (hf : KV z n f ok1)
    (hg : ∀ a m, n ≤ m → ok1 m a → KV z m (g a) ok2) : KV z n (f >>= g) ok2 := by
  intro c b c' hc hF hn hz
  obind hc a c1 h1
  obtain ⟨f1, l1, o1, z1⟩ := hf _ _ _ h1 hF hn hz
  obtain ⟨f2, l2, o2, z2⟩ := hg a _ (by omega) o1 _ _ _ hc f1 (Nat.le_refl _) z1
  exact ⟨f2, by omega, o2, z2⟩

theorem KV.fail {ok : Nat → α → Prop} {s : String} : KV z n (bfail s : B α) ok := by intro c b c' h; cases h

theorem KV.ite {ok : Nat → α → Prop} {p : Prop} [Decidable p] {f g : B α} (hf : KV z n f ok) (hg : KV z n g ok) : KV z n (if p then f else g) ok := by
  split <;> assumption

theorem KV.mono {ok : Nat → α → Prop} {f : B α} {m : Nat} (hf : KV z m f ok) (h : m ≤ n) : KV z n f ok :=
  fun c a c' hc hF hn hz => hf c a c' hc hF (by omega) hz

theorem KV.imp {ok ok' : Nat → α → Prop} {f : B α} (hf : KV z n f ok) (h : ∀ m a, ok m a → ok' m a) : KV z n f ok' := by
  intro c a c' hc hF hn hz
  obtain ⟨f1, l1, o1, z1⟩ := hf _ _ _ hc hF hn hz
  exact ⟨f1, l1, h _ _ o1, z1⟩

/-- the state is available -/
theorem KV.get {ok : Nat → β → Prop} {g : CState → B β} (hg : ∀ c, Fit c → n ≤ c.nextReg → KV z c.nextReg (g c) ok) :
    KV z n ((M.get : B CState) >>= g) ok := by
  intro c b c' hc hF hn hz
  rw [Blang.M.bind_ok (M.get_apply _)] at hc
  exact hg c hF hn c b c' hc hF (Nat.le_refl _) hz

theorem modify_get {γ : Type} {l : List γ} {i j : Nat} {f : γ → γ} {b : γ} (h : (l.modify i f)[j]? = some b) :
    ∃ a, l[j]? = some a ∧ ((i = j ∧ b = f a) ∨ (i ≠ j ∧ b = a)) := by
  rw [List.getElem?_modify] at h
  cases ha : l[j]? with
  | none => rw [ha] at h; simp at h
  | some a =>
    rw [ha] at h
    by_cases hij : i = j
    · simp [hij] at h; exact ⟨a, rfl, .inl ⟨hij, h.symm⟩⟩
    · simp [hij] at h; exact ⟨a, rfl, .inr ⟨hij, h.symm⟩⟩

theorem modify_ne_nil {γ : Type} {l : List γ} {i : Nat} {f : γ → γ} (h : l ≠ []) : l.modify i f ≠ [] := by
  intro e
  have : (l.modify i f).length = 0 := by rw [e]; rfl
  rw [List.length_modify] at this
  exact h (List.length_eq_zero_iff.1 this)

theorem mem_modify {γ : Type} {l : List γ} {i : Nat} {f : γ → γ} {b : γ} (h : b ∈ l.modify i f) : b ∈ l ∨ ∃ a, l[i]? = some a ∧ b = f a := by
  obtain ⟨j, hj⟩ := List.mem_iff_getElem?.1 h
  obtain ⟨a, ha, ⟨rfl, e⟩ | ⟨_, rfl⟩⟩ := modify_get hj
  · exact .inr ⟨a, ha, e⟩
  · exact .inl (List.mem_of_getElem? ha)

theorem KV.emit (i : Inst) (hi : vbs (Inst.operands i) ≤ n) (hl : Inst.makesLocal i → z = true) : KV z n (emit i) (fun m v => vb v ≤ m) := by
  intro c v c' hc hf hn hz
  cases hc
  refine ⟨⟨?_, ?_, ?_, hf.labels, ?_, hf.ctx, hf.funs⟩, Nat.le_succ _, Nat.le_refl _, hz⟩
  · exact modify_ne_nil hf.len
  · intro B hB
    rcases mem_modify hB with hB | ⟨A, hA, rfl⟩
    · exact (hf.fit B hB).mono (Nat.le_succ _)
    · have h := hf.fit A (List.mem_of_getElem? hA)
      refine ⟨?_, ?_, ?_, h.tgt⟩
      · rw [List.pairwise_append]
        refine ⟨h.sorted, List.pairwise_singleton _ _, ?_⟩
        intro p hp q hq
        simp at hq; subst hq
        exact h.lt p hp
      · intro p hp
        rw [List.mem_append] at hp
        rcases hp with hp | hp
        · exact Nat.lt_succ_of_lt (h.lt p hp)
        · simp at hp; subst hp; exact Nat.lt_succ_self _
      · intro p hp
        rw [List.mem_append] at hp
        rcases hp with hp | hp
        · exact h.ops p hp
        · simp at hp; subst hp; exact Nat.le_trans hi hn
  · intro j B hB hj p hp
    obtain ⟨A, hA, ⟨hc, rfl⟩ | ⟨_, rfl⟩⟩ := modify_get hB
    · rw [List.mem_append] at hp
      rcases hp with hp | hp
      · exact hf.first j A hA hj p hp
      · simp at hp; subst hp
        intro hm
        exact hj (hc ▸ hz (hl hm))
    · exact hf.first j _ hA hj p hp
  · intro x v hv
    exact Nat.le_succ_of_le (hf.locals x v hv)

theorem KV.setTerm (t : Term) (ht : ∀ j ∈ Term.targets t, j ≠ 0) : KV z n (setTerm t) (fun _ _ => True) := by
  intro c v c' hc hf hn hz
  cases hc
  refine ⟨⟨?_, ?_, ?_, hf.labels, hf.locals, hf.ctx, hf.funs⟩, Nat.le_refl _, trivial, hz⟩
  · exact modify_ne_nil hf.len
  · intro B hB
    rcases mem_modify hB with hB | ⟨A, hA, rfl⟩
    · exact hf.fit B hB
    · have h := hf.fit A (List.mem_of_getElem? hA)
      refine ⟨h.sorted, h.lt, h.ops, ?_⟩
      intro t' ht'
      cases ht'; exact ht
  · intro j B hB hj p hp
    obtain ⟨A, hA, ⟨hc, rfl⟩ | ⟨_, rfl⟩⟩ := modify_get hB
    · exact hf.first j A hA hj p hp
    · exact hf.first j _ hA hj p hp

theorem Fit.append {c : CState} (hf : Fit c) (nm : Name) (ls : List (Name × Nat)) (hl : ∀ l j, lookup l ls = some j → j ≠ 0) :
    Fit { c with blocks := c.blocks ++ [⟨nm, [], none⟩], labels := ls } := by
  refine ⟨by simp, ?_, ?_, hl, hf.locals, hf.ctx, hf.funs⟩
  · intro B hB
    rw [List.mem_append] at hB
    rcases hB with hB | hB
    · exact hf.fit B hB
    · simp at hB; subst hB
      exact ⟨.nil, by simp, by simp, by simp⟩
  · intro i B hB hi p hp
    rw [List.getElem?_append] at hB
    split at hB
    · exact hf.first i B hB hi p hp
    · rw [List.getElem?_singleton] at hB
      split at hB
      · simp at hB; subst hB; cases hp
      · cases hB

theorem KV.newBlock (nm : Name) : KV z n (newBlock nm) (fun _ b => b ≠ 0) := by
  intro c v c' hc hf hn hz
  cases hc
  exact ⟨hf.append nm c.labels hf.labels, Nat.le_refl _, fun e => hf.len (List.length_eq_zero_iff.1 e), hz⟩

theorem KV.setInsertPoint (b : Nat) : KV false n (setInsertPoint b) (fun _ _ => True) := by
  intro c v c' hc hf hn _
  cases hc
  exact ⟨hf.tables rfl rfl hf.labels hf.locals hf.ctx hf.funs, Nat.le_refl _, trivial, nofun⟩

theorem KV.getInsertBlock : KV z n getInsertBlock (fun _ _ => True) := by
  intro c v c' hc hf hn hz
  cases hc; exact ⟨hf, Nat.le_refl _, trivial, hz⟩

theorem KV.freshLabelID : KV z n freshLabelID (fun _ _ => True) := by
  intro c v c' hc hf hn hz
  cases hc; exact ⟨hf.tables rfl rfl hf.labels hf.locals hf.ctx hf.funs, Nat.le_refl _, trivial, hz⟩

theorem KV.getOrCreateLabel (l : Name) : KV z n (getOrCreateLabel l) (fun _ b => b ≠ 0) := by
  intro c v c' hc hf hn hz
  unfold Blang.getOrCreateLabel at hc
  cases hl : lookup l c.labels with
  | some b => rw [hl] at hc; cases hc; exact ⟨hf, Nat.le_refl _, hf.labels _ _ hl, hz⟩
  | none =>
    rw [hl] at hc; cases hc
    have h0 : c.blocks.length ≠ 0 := fun e => hf.len (List.length_eq_zero_iff.1 e)
    refine ⟨hf.append l _ ?_, Nat.le_refl _, h0, hz⟩
    intro l' j hj
    rcases lookup_insert_or hj with rfl | hj
    · exact h0
    · exact hf.labels _ _ hj

theorem KV.addLocal (x : Name) (v : Val) (hv : vb v ≤ n) : KV z n (M.modify fun c => { c with locals := insert x v c.locals } : B Unit) (fun _ _ => True) := by
  intro c u c' hc hf hn hz
  cases hc
  refine ⟨hf.tables rfl rfl hf.labels ?_ hf.ctx hf.funs, Nat.le_refl _, trivial, hz⟩
  intro y w hw
  rcases lookup_insert_or hw with rfl | hw
  · exact Nat.le_trans hv hn
  · exact hf.locals _ _ hw

theorem KV.getOrDeclareFunction (x : Name) : KV z n (getOrDeclareFunction x) (fun _ r => ∀ v, r = some v → vb v = 0) := by
  intro c v c' h hf hn hz
  unfold Blang.getOrDeclareFunction at h
  cases hl : lookup x c.functions with
  | some f =>
    rw [hl] at h; cases h
    exact ⟨hf, Nat.le_refl _, fun v hv => by cases hv; exact hf.funs _ _ hl, hz⟩
  | none =>
    rw [hl] at h
    cases hx : lookup x c.ctx with
    | some _ => rw [hx] at h; cases h; exact ⟨hf, Nat.le_refl _, (fun _ h => by cases h), hz⟩
    | none =>
      rw [hx] at h; cases h
      refine ⟨hf.tables rfl rfl hf.labels hf.locals hf.ctx ?_, Nat.le_refl _, fun v hv => by cases hv; rfl, hz⟩
      intro y w hw
      rcases lookup_insert_or hw with rfl | hw
      · rfl
      · exact hf.funs _ _ hw

theorem KV.getOrCreateFunc (x : Name) : KV z n (getOrCreateFunc x) (fun _ v => vb v = 0) := by
  intro c v c' h hf hn hz
  unfold Blang.getOrCreateFunc at h
  split at h <;> cases h
  · exact ⟨hf, Nat.le_refl _, rfl, hz⟩
  · exact ⟨hf.tables rfl rfl hf.labels hf.locals hf.ctx hf.funs, Nat.le_refl _, rfl, hz⟩

theorem KV.createString (s : List Char) : KV z n (createStringConstant s) (fun _ _ => True) := by
  intro c v c' h hf hn hz
  cases h; exact ⟨hf.tables rfl rfl hf.labels hf.locals hf.ctx hf.funs, Nat.le_refl _, trivial, hz⟩

theorem KV.declareExtrn (x : Name) : KV z n (declareExtrn x) (fun _ _ => True) := by
  intro c v c' h hf hn hz
  unfold Blang.declareExtrn at h
  have key : ∀ (g : GlobalDef) (y : Name) (w : Val), lookup y (insert x g.val c.ctx) = some w → vb w = 0 := by
    intro g y w hw
    rcases lookup_insert_or hw with rfl | hw
    · rfl
    · exact hf.ctx _ _ hw
  split at h
  · cases h; exact ⟨hf.tables rfl rfl hf.labels hf.locals (key _) hf.funs, Nat.le_refl _, trivial, hz⟩
  · split at h
    · cases h; exact ⟨hf.tables rfl rfl hf.labels hf.locals (key _) hf.funs, Nat.le_refl _, trivial, hz⟩
    · cases h
end

/-- an instruction whose operands are known -/
macro "op" : tactic => `(tactic| (simp only [Inst.operands, vbs, vb_const, vb_glob, vb_func, vb_param] <;> omega))
/-- no local memory -/
macro "nl" : tactic => `(tactic| (intro h; first | exact h.elim | (cases h)))

section
variable {n : Nat}
set_option quotPrecheck false
local notation "VOK" => fun (m : Nat) (v : Val) => vb v ≤ m
local notation "LOK" => fun (m : Nat) (v : LV) => vb v.1 ≤ m

theorem KV.rval (v : LV) (hv : vb v.1 ≤ n) : KV false n (rval v) VOK :=
  KV.ite (KV.emit _ (by op) (by nl)) (KV.pure _ (fun m hm => Nat.le_trans hv hm))

theorem KV.cmpOp (p : Pred) (x y : Val) (hx : vb x ≤ n) (hy : vb y ≤ n) : KV false n (cmpOp p x y) VOK :=
  KV.bind (KV.emit _ (by op) (by nl)) fun a m hm ha => KV.emit _ (by op) (by nl)

theorem KV.genOp (o : Op) (x y : Val) (hx : vb x ≤ n) (hy : vb y ≤ n) : KV false n (genOp o x y) VOK := by
  cases o
  · exact KV.emit _ (by op) (by nl)
  · exact KV.cmpOp _ _ _ hx hy

theorem KV.needLval (v : LV) (hv : vb v.1 ≤ n) : KV false n (needLval v) VOK :=
  KV.ite (KV.pure _ (fun m hm => Nat.le_trans hv hm)) KV.fail

theorem KV.genCall (f : Val) (as : List Val) (hf : vb f ≤ n) (ha : vbs as ≤ n) : KV false n (genCall f as) VOK := by
  unfold Blang.genCall
  split
  · exact KV.ite (KV.bind (KV.emit _ (by op) (by nl)) fun a m hm ha => KV.emit _ (by op) (by nl)) (KV.emit _ (by op) (by nl))
  · exact KV.bind (KV.emit _ (by op) (by nl)) fun a m hm ha => KV.emit _ (by op) (by nl)

theorem KV.genStr (s : List Char) : KV false n (genStr s) VOK :=
  KV.bind (KV.createString _) fun g m hm _ => KV.bind (KV.emit _ (by simp [Inst.operands, GlobalDef.val, vbs, vb]) (by simp [Inst.makesLocal, GlobalDef.val]))
    fun a m hm ha => KV.emit _ (by op) (by nl)

theorem KV.genPostfix (o : BinOp) (v : Val) (hv : vb v ≤ n) : KV false n (genPostfix o v) VOK :=
  KV.bind (KV.emit _ (by op) (by nl)) fun a m hm ha => KV.bind (KV.emit _ (by op) (by nl)) fun b m' hm' hb =>
    KV.bind (KV.emit _ (by op) (by nl)) fun d k hk _ => KV.pure _ (fun j hj => by omega)

theorem KV.genPrefix (o : BinOp) (v : Val) (hv : vb v ≤ n) : KV false n (genPrefix o v) (fun _ _ => True) :=
  KV.bind (KV.emit _ (by op) (by nl)) fun a m hm ha => KV.bind (KV.emit _ (by op) (by nl)) fun b m' hm' hb =>
    KV.bind (KV.emit _ (by op) (by nl)) fun d k hk _ => KV.pure _ (fun j hj => trivial)

theorem KV.genAssign (o : Option Op) (l r : Val) (hl : vb l ≤ n) (hr : vb r ≤ n) : KV false n (genAssign o l r) VOK := by
  unfold Blang.genAssign
  split
  · exact KV.bind (KV.emit _ (by op) (by nl)) fun a m hm ha => KV.bind (KV.genOp _ _ _ (by omega) (by omega)) fun b m' hm' hb =>
      KV.bind (KV.emit _ (by op) (by nl)) fun d k hk _ => KV.pure _ (fun j hj => by omega)
  · exact KV.bind (KV.emit _ (by op) (by nl)) fun a m hm ha => KV.pure _ (fun j hj => by omega)

theorem KV.getAddress (x : Name) : KV false n (getAddress x) (fun m r => ∀ v, r = some v → vb v ≤ m) := by
  refine KV.get fun c hf hn => ?_
  cases hl : lookup x c.locals with
  | some v => exact KV.pure _ (fun m hm w hw => by cases hw; exact Nat.le_trans (hf.locals _ _ hl) hm)
  | none =>
    cases hx : lookup x c.ctx with
    | none => exact KV.pure _ (fun m hm w hw => by cases hw)
    | some v =>
      have hv := hf.ctx _ _ hx
      dsimp only
      split
      · exact KV.bind (KV.emit _ (by op) (by nl)) fun a m hm ha => KV.pure _ (fun j hj w hw => by cases hw; omega)
      · exact KV.bind (KV.emit _ (by op) (by nl)) fun a m hm ha => KV.pure _ (fun j hj w hw => by cases hw; omega)
      · rename_i h
        cases h
        exact KV.pure _ (fun m hm w hw => by cases hw; omega)
      · rename_i h
        cases h

theorem KV.genVar (x : Name) : KV false n (genVar x) LOK := by
  refine KV.bind (KV.getAddress x) fun r m hm hr => ?_
  cases r with
  | some a => exact KV.pure _ (fun k hk => Nat.le_trans (hr _ rfl) hk)
  | none =>
    refine KV.get fun c hf hn => ?_
    cases findFuncByName c x with
    | some fn => exact KV.bind (KV.emit _ (by simp [Inst.operands, Func.val, vbs, vb]) (by nl)) fun a m hm ha => KV.pure _ (fun j hj => Nat.le_trans ha hj)
    | none =>
      refine KV.bind (KV.getOrDeclareFunction x) fun r k hk hr => ?_
      cases r with
      | some fn =>
        have := hr _ rfl
        exact KV.bind (KV.emit _ (by op) (by nl)) fun a m hm ha => KV.pure _ (fun j hj => Nat.le_trans ha hj)
      | none => exact KV.fail

theorem KV.genCallee (x : Name) : KV false n (genCallee x) LOK := by
  refine KV.get fun c hf hn => ?_
  cases findFuncByName c x with
  | some fn => exact KV.pure _ (fun m hm => Nat.zero_le _)
  | none =>
    cases hx : lookup x c.ctx with
    | some g =>
      have := hf.ctx _ _ hx
      exact KV.pure _ (fun m hm => by dsimp only; omega)
    | none =>
      refine KV.bind (KV.getOrDeclareFunction x) fun r k hk hr => ?_
      cases r with
      | some fn =>
        have := hr _ rfl
        exact KV.pure _ (fun m hm => by dsimp only; omega)
      | none => exact KV.fail

theorem KV.condStart (v : Val) (hv : vb v ≤ n) : KV false n (condStart v) (fun _ b => b.1 ≠ 0 ∧ b.2.1 ≠ 0 ∧ b.2.2 ≠ 0) :=
  KV.bind KV.freshLabelID fun i m hm _ => KV.bind (KV.newBlock _) fun b1 m1 hm1 h1 => KV.bind (KV.newBlock _) fun b2 m2 hm2 h2 =>
    KV.bind (KV.newBlock _) fun b3 m3 hm3 h3 => KV.bind (KV.emit _ (by op) (by nl)) fun c m4 hm4 hc =>
    KV.bind (KV.setTerm _ (by intro j hj; simp [Term.targets] at hj; rcases hj with rfl | rfl <;> assumption)) fun _ m5 hm5 _ =>
    KV.pure _ (fun _ _ => ⟨h1, h2, h3⟩)

theorem br_ok {b : Nat} (h : b ≠ 0) : ∀ j ∈ Term.targets (.br b), j ≠ 0 := by
  intro j hj; simp [Term.targets] at hj; subst hj; exact h

mutual
theorem KV.genL : ∀ (e : Ex) (n : Nat), KV false n (genL e) LOK
  | .num _, n => KV.pure _ (fun _ _ => Nat.zero_le _)
  | .str _, n => KV.bind (KV.genStr _) fun a m hm ha => KV.pure _ (fun j hj => Nat.le_trans ha hj)
  | .var x, n => KV.genVar x
  | .paren e, n => KV.bind (KV.genL e n) fun a m hm ha => KV.bind (KV.rval _ ha) fun b k hk hb => KV.pure _ (fun j hj => Nat.le_trans hb hj)
  | .index a i, n => KV.bind (KV.genL a n) fun v m hm hv => KV.bind (KV.rval _ hv) fun b k hk hb => KV.bind (KV.emit _ (by op) (by nl)) fun p k1 hk1 hp =>
      KV.bind (KV.genL i k1) fun w k2 hk2 hw => KV.bind (KV.rval _ hw) fun w' k3 hk3 hw' => KV.bind (KV.emit _ (by op) (by nl)) fun r k4 hk4 hr =>
      KV.pure _ (fun j hj => Nat.le_trans hr hj)
  | .callName f as, n => KV.bind (KV.genCallee f) fun v m hm hv => KV.bind (KV.rval _ hv) fun b k hk hb => KV.bind (KV.genArgs as k) fun vs k1 hk1 hvs =>
      KV.bind (KV.genCall _ _ (by omega) hvs) fun r k2 hk2 hr => KV.pure _ (fun j hj => Nat.le_trans hr hj)
  | .call f as, n => KV.bind (KV.genL f n) fun v m hm hv => KV.bind (KV.rval _ hv) fun b k hk hb => KV.bind (KV.genArgs as k) fun vs k1 hk1 hvs =>
      KV.bind (KV.genCall _ _ (by omega) hvs) fun r k2 hk2 hr => KV.pure _ (fun j hj => Nat.le_trans hr hj)
  | .post _ e, n => KV.bind (KV.genL e n) fun v m hm hv => KV.bind (KV.needLval _ hv) fun b k hk hb => KV.bind (KV.genPostfix _ _ hb) fun r k2 hk2 hr =>
      KV.pure _ (fun j hj => Nat.le_trans hr hj)
  | .pre _ e, n => KV.bind (KV.genL e n) fun v m hm hv => KV.bind (KV.needLval _ hv) fun b k hk hb => KV.bind (KV.genPrefix _ _ hb) fun r k2 hk2 hr =>
      KV.pure _ (fun j hj => by show vb b ≤ j; omega)
  | .not e, n => KV.bind (KV.genL e n) fun v m hm hv => KV.bind (KV.bind (KV.rval _ hv) fun b k hk hb => KV.cmpOp _ _ _ hb (Nat.zero_le _)) fun r k2 hk2 hr =>
      KV.pure _ (fun j hj => Nat.le_trans hr hj)
  | .neg e, n => KV.bind (KV.genL e n) fun v m hm hv => KV.bind (KV.bind (KV.rval _ hv) fun b k hk hb => KV.emit _ (by op) (by nl)) fun r k2 hk2 hr =>
      KV.pure _ (fun j hj => Nat.le_trans hr hj)
  | .deref e, n => KV.bind (KV.genL e n) fun v m hm hv => KV.bind (KV.bind (KV.rval _ hv) fun b k hk hb => KV.emit _ (by op) (by nl)) fun r k2 hk2 hr =>
      KV.pure _ (fun j hj => Nat.le_trans hr hj)
  | .addr e, n => KV.bind (KV.genL e n) fun v m hm hv => KV.bind (KV.needLval _ hv) fun b k hk hb => KV.bind (KV.emit _ (by op) (by nl)) fun r k2 hk2 hr =>
      KV.pure _ (fun j hj => Nat.le_trans hr hj)
  | .bin _ l r, n => KV.bind (KV.genL l n) fun v m hm hv => KV.bind (KV.rval _ hv) fun b k hk hb => KV.bind (KV.genL r k) fun w k1 hk1 hw =>
      KV.bind (KV.rval _ hw) fun w' k2 hk2 hw' => KV.bind (KV.genOp _ _ _ (by omega) hw') fun r k3 hk3 hr => KV.pure _ (fun j hj => Nat.le_trans hr hj)
  | .cond cn t e, n => KV.bind (KV.genL cn n) fun v m hm hv => KV.bind (KV.rval _ hv) fun b k hk hb => KV.bind (KV.condStart _ hb) fun bs k1 hk1 hbs =>
      KV.bind (KV.setInsertPoint _) fun _ k2 hk2 _ => KV.bind (KV.genL t k2) fun tv k3 hk3 htv => KV.bind (KV.rval _ htv) fun tv' k4 hk4 htv' =>
      KV.bind KV.getInsertBlock fun _ k5 hk5 _ => KV.bind (KV.setTerm _ (br_ok hbs.2.2)) fun _ k6 hk6 _ =>
      KV.bind (KV.setInsertPoint _) fun _ k7 hk7 _ => KV.bind (KV.genL e k7) fun ev k8 hk8 hev => KV.bind (KV.rval _ hev) fun ev' k9 hk9 hev' =>
      KV.bind KV.getInsertBlock fun _ k10 hk10 _ => KV.bind (KV.setTerm _ (br_ok hbs.2.2)) fun _ k11 hk11 _ =>
      KV.bind (KV.setInsertPoint _) fun _ k12 hk12 _ => KV.bind (KV.emit _ (by op) (by nl)) fun r k13 hk13 hr => KV.pure _ (fun j hj => Nat.le_trans hr hj)
  | .assign _ l r, n => KV.bind (KV.genL l n) fun v m hm hv => KV.bind (KV.needLval _ hv) fun b k hk hb => KV.bind (KV.genL r k) fun w k1 hk1 hw =>
      KV.bind (KV.rval _ hw) fun w' k2 hk2 hw' => KV.bind (KV.genAssign _ _ _ (by omega) hw') fun r k3 hk3 hr => KV.pure _ (fun j hj => Nat.le_trans hr hj)

theorem KV.genArgs : ∀ (es : List Ex) (n : Nat), KV false n (genArgs es) (fun m vs => vbs vs ≤ m)
  | [], n => KV.pure _ (fun _ _ => Nat.zero_le _)
  | e :: es, n => KV.bind (KV.genL e n) fun v m hm hv => KV.bind (KV.rval _ hv) fun b k hk hb => KV.bind (KV.genArgs es k) fun vs k1 hk1 hvs =>
      KV.pure _ (fun j hj => by simp only [vbs]; omega)
end

theorem KV.genR (e : Ex) (n : Nat) : KV false n (genR e) VOK := KV.bind (KV.genL e n) fun v m hm hv => KV.rval _ hv

/-! ### statements -/

theorem KV.brIfOpen (b : Nat) (hb : b ≠ 0) : KV false n (brIfOpen b) (fun _ _ => True) :=
  KV.get fun _ _ _ => KV.ite (KV.setTerm _ (br_ok hb)) (KV.pure _ fun _ _ => trivial)

theorem KV.genLabel (l : Name) : KV false n (genLabel l) (fun _ _ => True) :=
  KV.bind (KV.getOrCreateLabel l) fun b m hm hb => KV.bind (KV.brIfOpen b hb) fun _ m' hm' _ => KV.setInsertPoint _

theorem KV.genGoto (l : Name) : KV false n (genGoto l) (fun _ _ => True) :=
  KV.bind (KV.getOrCreateLabel l) fun b m hm hb => KV.bind (KV.setTerm _ (br_ok hb)) fun _ m' hm' _ => KV.get fun _ _ _ =>
    KV.bind (KV.newBlock _) fun d k hk hd => KV.bind KV.freshLabelID fun _ k' hk' _ => KV.setInsertPoint _

theorem KV.ifStart (v : Val) (hv : vb v ≤ n) : KV false n (ifStart v) (fun _ b => b.1 ≠ 0 ∧ b.2.1 ≠ 0 ∧ b.2.2 ≠ 0) :=
  KV.bind KV.freshLabelID fun i m hm _ => KV.bind (KV.newBlock _) fun b1 m1 hm1 h1 => KV.bind (KV.newBlock _) fun b2 m2 hm2 h2 =>
    KV.bind (KV.newBlock _) fun b3 m3 hm3 h3 => KV.bind (KV.emit _ (by op) (by nl)) fun c m4 hm4 hc =>
    KV.bind (KV.setTerm _ (by intro j hj; simp [Term.targets] at hj; rcases hj with rfl | rfl <;> assumption)) fun _ m5 hm5 _ =>
    KV.pure _ (fun _ _ => ⟨h1, h2, h3⟩)

theorem KV.whileStart : KV false n whileStart (fun _ b => b.1 ≠ 0 ∧ b.2.1 ≠ 0 ∧ b.2.2 ≠ 0) :=
  KV.bind KV.freshLabelID fun i m hm _ => KV.bind (KV.newBlock _) fun b1 m1 hm1 h1 => KV.bind (KV.newBlock _) fun b2 m2 hm2 h2 =>
    KV.bind (KV.newBlock _) fun b3 m3 hm3 h3 => KV.bind (KV.setTerm _ (br_ok h1)) fun _ m5 hm5 _ => KV.bind (KV.setInsertPoint _) fun _ m6 hm6 _ =>
    KV.pure _ (fun _ _ => ⟨h1, h2, h3⟩)

theorem KV.switchStart (id : Nat) : KV false n (switchStart id) (fun _ b => b.1 ≠ 0 ∧ b.2 ≠ 0) :=
  KV.bind (KV.newBlock _) fun b1 m1 hm1 h1 => KV.bind (KV.newBlock _) fun b2 m2 hm2 h2 =>
    KV.bind (KV.newBlock _) fun b3 m3 hm3 h3 => KV.bind (KV.setTerm _ (br_ok h2)) fun _ m5 hm5 _ => KV.bind (KV.setInsertPoint _) fun _ m6 hm6 _ =>
    KV.pure _ (fun _ _ => ⟨h2, h3⟩)

theorem KV.switchCases (id : Nat) : ∀ (vs : Cases) (n : Nat), KV false n (switchCases id vs) (fun _ ps => ∀ p ∈ ps, p.2 ≠ 0)
  | [], n => KV.pure _ (fun _ _ => by simp)
  | v :: vs, n => KV.bind (KV.getOrCreateLabel _) fun b m hm hb => KV.bind (KV.switchCases id vs m) fun ps m' hm' hps =>
      KV.pure _ (fun _ _ p hp => by
        rcases List.mem_cons.1 hp with rfl | hp
        · exact hb
        · exact hps p hp)

theorem KV.switchTerm (id : Nat) (v : Val) (b : Nat) (vs : Cases) (hb : b ≠ 0) : KV false n (switchTerm id v b vs) (fun _ _ => True) := by
  unfold Blang.switchTerm
  refine KV.ite (KV.bind (KV.switchCases id vs n) fun ps m hm hps => KV.setTerm _ ?_) (KV.setTerm _ (br_ok hb))
  intro j hj
  simp only [Term.targets, List.mem_cons, List.mem_map] at hj
  rcases hj with rfl | ⟨p, hp, rfl⟩
  · exact hb
  · exact hps p hp

theorem KV.genExtrn {z : Bool} : ∀ (xs : List Name) (n : Nat), KV z n (genExtrn xs) (fun _ _ => True)
  | [], n => KV.pure _ (fun _ _ => trivial)
  | x :: xs, n => KV.bind (KV.declareExtrn x) fun _ m hm _ => KV.genExtrn xs m

theorem KV.autoCheck {z : Bool} : ∀ (ds : List (Name × Option Word)) (seen : List Name) (n : Nat), KV z n (autoCheck seen ds) (fun _ _ => True)
  | [], seen, n => KV.pure _ (fun _ _ => trivial)
  | d :: ds, seen, n => KV.get fun c _ hc => KV.ite KV.fail (KV.autoCheck ds _ _)

theorem KV.declareLocal (x : Name) : KV true n (declareLocal x) (fun _ _ => True) :=
  KV.bind (KV.emit _ (by op) (fun _ => rfl)) fun a m hm ha => KV.bind (KV.emit _ (by op) (by nl)) fun _ m' hm' _ => KV.addLocal _ _ (by omega)

theorem KV.declareLocalArray (x : Name) (k : W) : KV true n (declareLocalArray x k) (fun _ _ => True) :=
  KV.bind (KV.emit _ (by op) (fun _ => rfl)) fun a m hm ha => KV.bind (KV.emit _ (by op) (fun _ => rfl)) fun b m1 hm1 hb =>
    KV.bind (KV.emit _ (by op) (by nl)) fun p m2 hm2 hp => KV.bind (KV.emit _ (by op) (fun _ => rfl)) fun q m3 hm3 hq =>
    KV.bind (KV.emit _ (by op) (by nl)) fun _ m4 hm4 _ => KV.addLocal _ _ (by omega)

theorem KV.declareAll : ∀ (ds : List (Name × W)) (n : Nat), KV true n (declareAll ds) (fun _ _ => True)
  | [], n => KV.pure _ (fun _ _ => trivial)
  | d :: ds, n => KV.bind (KV.ite (KV.declareLocal _) (KV.declareLocalArray _ _)) fun _ m hm _ => KV.declareAll ds m

/-- statements without `auto` -/
theorem KV.genSt : ∀ (s : St) (sw : Option Nat) (cs : Cases) (n : Nat), ¬ s.hasAuto → KV false n (genSt s sw cs) (fun _ _ => True)
  | .skip, _, _, n, _ => KV.pure _ (fun _ _ => trivial)
  | .seq s t, sw, cs, n, h => KV.bind (KV.genSt s sw cs n fun hh => h (.inl hh)) fun cs m hm _ => KV.genSt t sw cs m fun hh => h (.inr hh)
  | .expr e, _, _, n, _ => KV.bind (KV.genR e n) fun _ _ _ _ => KV.pure _ (fun _ _ => trivial)
  | .ret none, _, _, n, _ => KV.bind (KV.setTerm _ (by simp [Term.targets])) fun _ _ _ _ => KV.pure _ (fun _ _ => trivial)
  | .ret (some e), _, _, n, _ => KV.bind (KV.genR e n) fun _ _ _ _ => KV.bind (KV.setTerm _ (by simp [Term.targets])) fun _ _ _ _ => KV.pure _ (fun _ _ => trivial)
  | .auto ds, _, _, n, h => absurd trivial h
  | .extrn xs, _, _, n, _ => KV.bind (KV.genExtrn xs n) fun _ _ _ _ => KV.pure _ (fun _ _ => trivial)
  | .ifThen c t, _, _, n, h => KV.bind (KV.genR c n) fun v m hm hv => KV.bind (KV.ifStart v hv) fun bs m1 hm1 hb => KV.bind (KV.setInsertPoint _) fun _ m2 hm2 _ =>
      KV.bind (KV.genSt t none [] m2 h) fun _ m3 hm3 _ => KV.bind (KV.brIfOpen _ hb.2.2) fun _ m4 hm4 _ => KV.bind (KV.setInsertPoint _) fun _ m5 hm5 _ =>
      KV.bind (KV.brIfOpen _ hb.2.2) fun _ m6 hm6 _ => KV.bind (KV.setInsertPoint _) fun _ m7 hm7 _ => KV.pure _ (fun _ _ => trivial)
  | .ifElse c t e, _, _, n, h => KV.bind (KV.genR c n) fun v m hm hv => KV.bind (KV.ifStart v hv) fun bs m1 hm1 hb => KV.bind (KV.setInsertPoint _) fun _ m2 hm2 _ =>
      KV.bind (KV.genSt t none [] m2 fun hh => h (.inl hh)) fun _ m3 hm3 _ => KV.bind (KV.brIfOpen _ hb.2.2) fun _ m4 hm4 _ => KV.bind (KV.setInsertPoint _) fun _ m5 hm5 _ =>
      KV.bind (KV.genSt e none [] m5 fun hh => h (.inr hh)) fun _ m6 hm6 _ =>
      KV.bind (KV.brIfOpen _ hb.2.2) fun _ m7 hm7 _ => KV.bind (KV.setInsertPoint _) fun _ m8 hm8 _ => KV.pure _ (fun _ _ => trivial)
  | .while c b, _, _, n, h => KV.bind KV.whileStart fun bs m hm hb => KV.bind (KV.genR c m) fun v m1 hm1 hv => KV.bind (KV.emit _ (by op) (by nl)) fun _ m2 hm2 _ =>
      KV.bind (KV.setTerm _ (by intro j hj; simp [Term.targets] at hj; rcases hj with rfl | rfl <;> simp [hb])) fun _ m3 hm3 _ =>
      KV.bind (KV.setInsertPoint _) fun _ m4 hm4 _ => KV.bind (KV.genSt b none [] m4 h) fun _ m5 hm5 _ => KV.bind (KV.brIfOpen _ hb.1) fun _ m6 hm6 _ =>
      KV.bind (KV.setInsertPoint _) fun _ m7 hm7 _ => KV.pure _ (fun _ _ => trivial)
  | .switch e b, _, _, n, h => KV.bind KV.freshLabelID fun id m hm _ => KV.bind (KV.genR e m) fun v m1 hm1 hv => KV.bind (KV.switchStart id) fun bs m2 hm2 hb =>
      KV.bind (KV.genSt b (some id) [] m2 h) fun vs m3 hm3 _ => KV.bind (KV.brIfOpen _ hb.2) fun _ m4 hm4 _ => KV.bind (KV.setInsertPoint _) fun _ m5 hm5 _ =>
      KV.bind (KV.switchTerm id v _ vs hb.2) fun _ m6 hm6 _ => KV.bind (KV.setInsertPoint _) fun _ m7 hm7 _ => KV.pure _ (fun _ _ => trivial)
  | .case v s, none, _, n, h => KV.fail
  | .case v s, some id, cs, n, h => KV.bind (KV.genLabel _) fun _ m hm _ => KV.genSt s (some id) _ m h
  | .label l s, sw, cs, n, h => KV.bind (KV.genLabel _) fun _ m hm _ => KV.genSt s sw cs m h
  | .goto l, _, _, n, h => KV.bind (KV.genGoto l) fun _ m hm _ => KV.pure _ (fun _ _ => trivial)

/-- declarations -/
theorem KV.declares : ∀ (s : St) (sw : Option Nat) (cs : Cases) (n : Nat), s.Declares → KV true n (Blang.genSt s sw cs) (fun _ _ => True)
  | .skip, _, _, n, _ => KV.pure _ (fun _ _ => trivial)
  | .seq s t, sw, cs, n, h => KV.bind (KV.declares s sw cs n h.1) fun cs m hm _ => KV.declares t sw cs m h.2
  | .auto ds, _, _, n, h => KV.bind (KV.autoCheck ds [] n) fun _ m hm _ => KV.bind (KV.declareAll _ m) fun _ _ _ _ => KV.pure _ (fun _ _ => trivial)
  | .extrn xs, _, _, n, _ => KV.bind (KV.genExtrn xs n) fun _ _ _ _ => KV.pure _ (fun _ _ => trivial)

/-- a body with its declarations first -/
theorem KV.body : ∀ (s : St) (sw : Option Nat) (cs : Cases) (c : CState) (cs' : Cases) (c' : CState), s.AutosFirst → Blang.genSt s sw cs c = .ok cs' c' →
    Fit c → c.cur = 0 → Fit c' := by
  intro s
  have simple : ∀ (s : St) (sw : Option Nat) (cs : Cases) (c : CState) (cs' : Cases) (c' : CState), s.Declares ∨ ¬ s.hasAuto → Blang.genSt s sw cs c = .ok cs' c' →
      Fit c → c.cur = 0 → Fit c' := by
    intro s sw cs c cs' c' h hc hf h0
    rcases h with h | h
    · exact (KV.declares s sw cs 0 h c cs' c' hc hf (Nat.zero_le _) (fun _ => h0)).1
    · exact (KV.genSt s sw cs 0 h c cs' c' hc hf (Nat.zero_le _) nofun).1
  induction s with
  | seq s t ih1 ih2 =>
    intro sw cs c cs' c' h hc hf h0
    obtain ⟨cs1, c1, h1, h2⟩ := seq_run hc
    rcases h with ⟨a, b⟩ | ⟨a, b⟩
    · obtain ⟨f1, _, _, z1⟩ := KV.declares s sw cs 0 a c cs1 c1 h1 hf (Nat.zero_le _) (fun _ => h0)
      exact ih2 _ _ _ _ _ b h2 f1 (z1 rfl)
    · have f1 := ih1 _ _ _ _ _ a h1 hf h0
      exact (KV.genSt t sw cs1 0 b c1 cs' c' h2 f1 (Nat.zero_le _) nofun).1
  | _ => intro sw cs c cs' c' h; exact simple _ _ _ _ _ _ h

theorem KV.firstParam (p : Name) : KV true n (firstParam p) (fun _ _ => True) :=
  KV.bind (KV.emit _ (by op) (fun _ => rfl)) fun a m hm ha => KV.bind (KV.emit _ (by op) (by nl)) fun _ m' hm' _ => KV.addLocal _ _ (by omega)

theorem KV.vaParams (v : Val) : ∀ (ps : List Name) (n : Nat), vb v ≤ n → KV true n (vaParams v ps) (fun _ _ => True)
  | [], n, _ => KV.pure _ (fun _ _ => trivial)
  | p :: ps, n, hv => KV.bind (KV.emit _ (by op) (fun _ => rfl)) fun a m hm ha => KV.bind (KV.emit _ (by op) (by nl)) fun r m1 hm1 hr =>
      KV.bind (KV.emit _ (by op) (by nl)) fun _ m2 hm2 _ => KV.bind (KV.addLocal _ _ (by omega)) fun _ m3 hm3 _ => KV.vaParams v ps m3 (by omega)

theorem KV.paramCode (ps : List Name) : KV true n (paramCode ps) (fun _ _ => True) := by
  unfold Blang.paramCode
  split
  · exact KV.pure _ (fun _ _ => trivial)
  · exact KV.firstParam _
  · exact KV.bind (KV.firstParam _) fun _ m hm _ => KV.bind (KV.emit _ (by op) (fun _ => rfl)) fun a m1 hm1 ha =>
      KV.bind (KV.emit _ (by op) (fun _ => rfl)) fun l m2 hm2 hl => KV.bind (KV.getOrCreateFunc _) fun f m3 hm3 hf =>
      KV.bind (KV.emit _ (by op) (by nl)) fun _ m4 hm4 _ => KV.bind (KV.vaParams _ _ _ (by omega)) fun _ m5 hm5 _ =>
      KV.bind (KV.getOrCreateFunc _) fun g m6 hm6 hg => KV.bind (KV.emit _ (by op) (by nl)) fun _ m7 hm7 _ => KV.pure _ (fun _ _ => trivial)

/-- the finished blocks -/
structure BlocksFit (bs : List Block) : Prop where
  fit : ∀ B ∈ bs, ∃ n, BFit n B
  first : ∀ (i : Nat) (B : Block), bs[i]? = some B → i ≠ 0 → ∀ p ∈ B.insts, ¬ Inst.makesLocal p.2

theorem FuncRun.fit {f : Name} {ps : List Name} {b : St} {c : CState} {bs : List Block} (r : FuncRun f ps b c bs) (hb : b.AutosFirst)
    (hx : ∀ x v, lookup x r.c1.ctx = some v → vb v = 0) (hf : ∀ x v, lookup x r.c1.functions = some v → vb v = 0) : BlocksFit bs := by
  have f0 : Fit (entered (defFunc f ps) r.c1) := by
    refine ⟨by simp [entered], ?_, ?_, ?_, ?_, hx, hf⟩
    · intro B hB
      simp [entered] at hB; subst hB
      exact ⟨.nil, by simp, by simp, by simp⟩
    · intro i B hB hi p hp
      simp only [entered, List.getElem?_singleton] at hB
      rw [if_neg hi] at hB; cases hB
    · intro l j hj; simp [entered, lookup] at hj
    · intro l j hj; simp [entered, lookup] at hj
  obtain ⟨f1, _, _, z1⟩ := KV.paramCode (n := 0) ps _ _ _ r.entry f0 (Nat.zero_le _) (fun _ => rfl)
  have f2 := KV.body b _ _ _ _ _ hb r.body f1 (z1 rfl)
  have f3 : Fit { r.c3 with blocks := closed r.c3 } := by
    have h := (KV.setTerm (z := false) (n := 0) (.ret (.const 0)) (by simp [Term.targets]) _ _ _ (setTerm_eq _ _) f2 (Nat.zero_le _) nofun).1
    unfold closed
    split
    · exact ⟨h.len, h.fit, h.first, h.labels, h.locals, h.ctx, h.funs⟩
    · exact f2
  rw [r.blocks]
  exact ⟨fun B hB => ⟨_, f3.fit B hB⟩, f3.first⟩

/-- on a path, the instructions before the current one in the current block are done; outside the first
block, the whole first block -/
theorem Path.inv {bs : List Block} (hb : BlocksFit bs) {done : List Nat} {i k : Nat} (h : Path bs done i k) :
    ∀ B, bs[0]? = some B → ∀ j p, B.insts[j]? = some p → (i ≠ 0 ∨ j < k) → p.1 ∈ done := by
  induction h with
  | start => intro B _ j p _ h; omega
  | @step done i k r inst A hp hA hi ih =>
    intro B hB j p hj h
    by_cases h' : i ≠ 0 ∨ j < k
    · exact List.mem_cons_of_mem _ (ih B hB j p hj h')
    · have h0 : i = 0 := by omega
      have hk : j = k := by omega
      subst h0 hk
      rw [hA] at hB; cases hB
      rw [hi] at hj; cases hj
      exact List.mem_cons_self
  | @jump done i j A t hp hA ht hj ih =>
    intro B hB k p hk h
    obtain ⟨n, hf⟩ := hb.fit A (List.mem_of_getElem? hA)
    have hj0 := hf.tgt t ht j hj
    refine ih B hB k p hk ?_
    by_cases h0 : i = 0
    · subst h0
      rw [hA] at hB; cases hB
      right
      apply Nat.lt_of_not_le
      intro hl; rw [List.getElem?_eq_none hl] at hk; cases hk
    · exact .inl h0

theorem BlocksFit.computed {bs : List Block} (hb : BlocksFit bs) {a : Nat} (ha : LocalAddr bs a) : ComputedBeforeUse bs a := by
  obtain ⟨A, hA, inst, hi, hm⟩ := ha
  obtain ⟨i0, hi0⟩ := List.mem_iff_getElem?.1 hA
  have h0 : i0 = 0 := Classical.byContradiction fun hn => hb.first i0 A hi0 hn _ hi hm
  subst h0
  obtain ⟨j, hj⟩ := List.mem_iff_getElem?.1 hi
  intro done i k B hp hB
  refine ⟨?_, ?_⟩
  · intro r ins hk hop
    refine Path.inv hb hp A hi0 j _ hj ?_
    by_cases hi' : i = 0
    · subst hi'
      obtain rfl : A = B := by rw [hB] at hi0; exact (Option.some.inj hi0).symm
      right
      obtain ⟨n, hf⟩ := hb.fit _ hA
      have h1 := hf.ops _ (List.mem_of_getElem? hk)
      have h2 : a < r := Nat.lt_of_lt_of_le (vbs_mem hop) h1
      apply Nat.lt_of_not_le
      intro hkj
      have hjl : j < A.insts.length := by
        apply Nat.lt_of_not_le; intro hl; rw [List.getElem?_eq_none hl] at hj; cases hj
      have hkl : k < A.insts.length := by omega
      rw [List.getElem?_eq_getElem hjl] at hj
      rw [List.getElem?_eq_getElem hkl] at hk
      by_cases hjk : j = k
      · subst hjk
        simp only [Option.some.injEq] at hj hk
        rw [hj] at hk
        simp at hk
        omega
      · have := List.pairwise_iff_getElem.1 hf.sorted k j hkl hjl (by omega)
        simp only [Option.some.injEq] at hj hk
        rw [hj, hk] at this
        dsimp only at this
        omega
    · exact .inl hi'
  · intro t hk ht hop
    refine Path.inv hb hp A hi0 j _ hj ?_
    by_cases hi' : i = 0
    · subst hi'
      rw [hB] at hi0; cases hi0
      right
      apply Nat.lt_of_not_le
      intro hl; rw [List.getElem?_eq_none (by omega)] at hj; cases hj
    · exact .inl hi'
end
end Blang
