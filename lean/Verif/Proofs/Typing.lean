import Verif.Proofs.Locals
import Verif.Proofs.Origin
import Verif.Spec.Typing
import Verif.Spec.Calls
/-
The emitted code is well typed.
-/
namespace Blang
open Spec

theorem ValType.mono {S S' : Nat → IRTy → Prop} (h : ∀ r t, S r t → S' r t) {v : Val} {t : IRTy} (hv : ValType S v t) : ValType S' v t := by
  cases v <;> first | exact hv | exact h _ _ hv

theorem Inst.Typed.mono {S S' : Nat → IRTy → Prop} (h : ∀ r t, S r t → S' r t) {i : Inst} (hi : Inst.Typed S i) : Inst.Typed S' i := by
  cases i with
  | call f as =>
    cases f with
    | func s v n =>
      simp only [Inst.Typed] at hi ⊢
      split
      · rw [if_pos ‹_›] at hi
        obtain ⟨a, e, ha⟩ := hi
        exact ⟨a, e, (ValType.mono h ha)⟩
      · rw [if_neg ‹_›] at hi
        exact ⟨hi.1, fun a ha => (ValType.mono h (hi.2 a ha))⟩
    | _ =>
      simp only [Inst.Typed] at hi ⊢
      obtain ⟨⟨k, b, hc⟩, ha⟩ := hi
      exact ⟨⟨k, b, (ValType.mono h hc)⟩, fun a hm => (ValType.mono h (ha a hm))⟩
  | alloca _ => trivial
  | load v => obtain ⟨t, ht⟩ := hi; exact ⟨t, (ValType.mono h ht)⟩
  | ptrtoint v =>
    rcases hi with ⟨t, ht⟩ | ht | ⟨k, b, ht⟩
    · exact .inl ⟨t, (ValType.mono h ht)⟩
    · exact .inr (.inl ((ValType.mono h ht)))
    · exact .inr (.inr ⟨k, b, (ValType.mono h ht)⟩)
  | bitcast v => obtain ⟨k, b, ht⟩ := hi; exact ⟨k, b, (ValType.mono h ht)⟩
  | gepField t v i => exact ⟨(ValType.mono h hi.1), hi.2⟩
  | zext v | inttoptr v | inttofn v _ | vaarg v => exact ValType.mono h hi
  | store v w | bin _ v w | icmp _ v w | gepWord v w | phi v _ w _ => exact ⟨(ValType.mono h hi.1), (ValType.mono h hi.2)⟩

theorem Term.Typed.mono {S S' : Nat → IRTy → Prop} (h : ∀ r t, S r t → S' r t) {i : Term} (hi : Term.Typed S i) : Term.Typed S' i := by
  cases i with
  | br _ => trivial
  | ret v => exact ValType.mono h hi
  | «switch» v _ _ => exact ValType.mono h hi
  | condbr v _ _ => exact ValType.mono h hi

theorem lookup_insert_or' {α : Type} {x y : Name} {v w : α} {m : List (Name × α)} (h : lookup y (insert x v m) = some w) :
    (w = v ∧ y = x) ∨ lookup y m = some w := by
  by_cases hx : x = y
  · left; subst hx; simp [lookup, insert] at h; exact ⟨h.symm, rfl⟩
  · right; rw [lookup_insert_ne hx] at h; exact h

/-- the type of a value in a state -/
abbrev VT (c : CState) (v : Val) (t : IRTy) : Prop := ValType (RegType c.blocks) v t

/-- `c'` has the blocks and instructions of `c` -/
structure Ge (c c' : CState) : Prop where
  reg : ∀ r t, RegType c.blocks r t → RegType c'.blocks r t
  len : c.blocks.length ≤ c'.blocks.length

theorem Ge.refl (c : CState) : Ge c c := ⟨fun _ _ h => h, Nat.le_refl _⟩
theorem Ge.trans {a b c : CState} (h1 : Ge a b) (h2 : Ge b c) : Ge a c := ⟨fun r t h => h2.reg r t (h1.reg r t h), Nat.le_trans h1.len h2.len⟩
theorem Ge.of_eq {c c' : CState} (h : c'.blocks = c.blocks) : Ge c c' := ⟨by rw [h]; exact fun _ _ h => h, by rw [h]; exact Nat.le_refl _⟩

theorem Ge.vt {c c' : CState} (h : Ge c c') {v : Val} {t : IRTy} (hv : VT c v t) : VT c' v t := ValType.mono h.reg hv
theorem Ge.lt {c c' : CState} (h : Ge c c') {b : Nat} (hb : b < c.blocks.length) : b < c'.blocks.length := Nat.lt_of_lt_of_le hb h.len

/-- a value that is a function known to the compiler -/
def IsFn (D : Name → Bool → Nat → Prop) (x : Name) (v : Val) : Prop := ∃ b n, v = .func (globalName x) b n ∧ D (globalName x) b n

/-- calls of functions in `D` with numbers of arguments in `R`, other calls with the number of arguments
that the type demands -/
def CallOk (D : Name → Bool → Nat → Prop) (R : Name → Nat → Prop) (S : Nat → IRTy → Prop) : Inst → Prop
  | .call (.func s v n) as => D s v n ∧ R s as.length
  | .call f as => ∃ k b, ValType S f (.code k b) ∧ Takes k b as.length
  | _ => True

theorem CallOk.mono {D : Name → Bool → Nat → Prop} {R : Name → Nat → Prop} {S S' : Nat → IRTy → Prop} (h : ∀ r t, S r t → S' r t) {i : Inst}
    (hi : CallOk D R S i) : CallOk D R S' i := by
  cases i with
  | call f as =>
    cases f with
    | func s v n => exact hi
    | _ => obtain ⟨k, b, h1, h2⟩ := hi; exact ⟨k, b, ValType.mono h h1, h2⟩
  | _ => trivial

/-- a value that is a variable outside the function -/
def IsVar (v : Val) : Prop := ∃ s, v = .glob s .i64 ∨ ∃ n, v = .glob s (.arr n)

/-- the globals under B names are not byte arrays -/
def NoBytes (c : CState) : Prop := ∀ g ∈ c.globals, ∀ x, g.sym = globalName x → IsVar g.val

structure TInv (D : Name → Bool → Nat → Prop) (R : Name → Nat → Prop) (c : CState) : Prop where
  code : ∀ B ∈ c.blocks, (∀ p ∈ B.insts, Inst.Typed (RegType c.blocks) p.2 ∧ CallOk D R (RegType c.blocks) p.2) ∧
    ∀ t, B.term = some t → Term.Typed (RegType c.blocks) t
  cur : c.cur < c.blocks.length
  labels : ∀ l j, lookup l c.labels = some j → j < c.blocks.length
  locals : ∀ x v, lookup x c.locals = some v → VT c v (.ptr .i64)
  ctx : ∀ x v, lookup x c.ctx = some v → IsVar v
  funs : ∀ x v, lookup x c.functions = some v → IsFn D x v
  funcs : ∀ F ∈ c.funcs, D F.sym F.variadic F.params.length
  globals : NoBytes c

/-- what is known of the numbers of parameters of functions -/
structure DOk (D : Name → Bool → Nat → Prop) (R : Name → Nat → Prop) : Prop where
  ext : ∀ x, D (globalName x) true 0
  intr : ∀ s, isIntrinsic s = true → D s false 1 ∧ R s 1

section
variable {D : Name → Bool → Nat → Prop} {R : Name → Nat → Prop}

/-- only tables change -/
theorem TInv.tables {c c' : CState} (h : TInv D R c) (h1 : c'.blocks = c.blocks) (h2 : c'.cur < c.blocks.length)
    (h3 : ∀ l j, lookup l c'.labels = some j → j < c'.blocks.length) (h4 : ∀ x v, lookup x c'.locals = some v → VT c' v (.ptr .i64))
    (h5 : ∀ x v, lookup x c'.ctx = some v → IsVar v) (h6 : ∀ x v, lookup x c'.functions = some v → IsFn D x v)
    (h8 : ∀ F ∈ c'.funcs, D F.sym F.variadic F.params.length) (h7 : NoBytes c') : TInv D R c' :=
  ⟨by rw [h1]; exact h.code, by rw [h1]; exact h2, h3, h4, h5, h6, h8, h7⟩

def KTy (D : Name → Bool → Nat → Prop) (R : Name → Nat → Prop) (c0 : CState) {α : Type} (f : B α) (ok : CState → α → Prop) : Prop :=
  ∀ c a c', f c = .ok a c' → TInv D R c → Ge c0 c → TInv D R c' ∧ Ge c c' ∧ ok c' a

section
variable {α β : Type} {c0 : CState}

theorem KTy.pure {ok : CState → α → Prop} (a : α) (h : ∀ c, Ge c0 c → ok c a) : KTy D R c0 (pure a : B α) ok := by
  intro c b c' hc hf hn
  simp at hc; obtain ⟨rfl, rfl⟩ := hc; exact ⟨hf, .refl _, h _ hn⟩

theorem KTy.bind {ok1 : CState → α → Prop} {ok2 : CState → β → Prop} {f : B α} {g : α → B β} (hf : KTy D R c0 f ok1)
    (hg : ∀ a c, Ge c0 c → ok1 c a → KTy D R c (g a) ok2) : KTy D R c0 (f >>= g) ok2 := by
  intro c b c' hc hF hn
  obind hc a c1 h1
  obtain ⟨f1, l1, o1⟩ := hf _ _ _ h1 hF hn
  obtain ⟨f2, l2, o2⟩ := hg a c1 (hn.trans l1) o1 _ _ _ hc f1 (.refl _)
  exact ⟨f2, l1.trans l2, o2⟩

theorem KTy.fail {ok : CState → α → Prop} {s : String} : KTy D R c0 (bfail s : B α) ok := by intro c b c' h; cases h

theorem KTy.ite {ok : CState → α → Prop} {p : Prop} [Decidable p] {f g : B α} (hf : p → KTy D R c0 f ok) (hg : ¬ p → KTy D R c0 g ok) : KTy D R c0 (if p then f else g) ok := by
  split
  · exact hf ‹_›
  · exact hg ‹_›

theorem KTy.get {ok : CState → β → Prop} {g : CState → B β} (hg : ∀ c, TInv D R c → Ge c0 c → KTy D R c (g c) ok) :
    KTy D R c0 ((M.get : B CState) >>= g) ok := by
  intro c b c' hc hF hn
  rw [Blang.M.bind_ok (M.get_apply _)] at hc
  exact hg c hF hn c b c' hc hF (.refl _)

theorem RegType.modify {bs : List Block} {k : Nat} {f : Block → Block} (hf : ∀ B, ∀ p ∈ B.insts, p ∈ (f B).insts) {r : Nat} {t : IRTy}
    (h : RegType bs r t) : RegType (bs.modify k f) r t := by
  obtain ⟨B, hB, i, hi, ht⟩ := h
  obtain ⟨j, hj⟩ := List.mem_iff_getElem?.1 hB
  by_cases hk : k = j
  · refine ⟨f B, List.mem_iff_getElem?.2 ⟨j, ?_⟩, i, hf _ _ hi, ht⟩
    rw [List.getElem?_modify, hj]; simp [hk]
  · refine ⟨B, List.mem_iff_getElem?.2 ⟨j, ?_⟩, i, hi, ht⟩
    rw [List.getElem?_modify, hj]; simp [hk]

theorem KTy.emitReg (i : Inst) (hi : ∀ c, Ge c0 c → Inst.Typed (RegType c.blocks) i)
    (hk : ∀ c, Ge c0 c → CallOk D R (RegType c.blocks) i := by exact fun _ _ => trivial) : KTy D R c0 (emit i) (fun c v => ∃ r, v = .reg r ∧ VT c v (Inst.result i)) := by
  intro c v c' hc hf hn
  cases hc
  have hm : ∀ r t, RegType c.blocks r t → RegType (c.blocks.modify c.cur fun b => { b with insts := b.insts ++ [(c.nextReg, i)] }) r t :=
    fun r t h => RegType.modify (h := h) (fun B p hp => List.mem_append_left _ hp)
  have hg : Ge c { c with blocks := c.blocks.modify c.cur fun b => { b with insts := b.insts ++ [(c.nextReg, i)] }, nextReg := c.nextReg + 1 } :=
    ⟨hm, by simp [List.length_modify]⟩
  refine ⟨⟨?_, ?_, ?_, ?_, hf.ctx, hf.funs, hf.funcs, hf.globals⟩, hg, ?_⟩
  · intro B hB
    rcases mem_modify hB with hB | ⟨A, hA, rfl⟩
    · exact ⟨fun p hp => ⟨Inst.Typed.mono hm ((hf.code B hB).1 p hp).1, CallOk.mono hm ((hf.code B hB).1 p hp).2⟩, fun t ht => Term.Typed.mono hm ((hf.code B hB).2 t ht)⟩
    · have h := hf.code A (List.mem_of_getElem? hA)
      refine ⟨fun p hp => ?_, fun t ht => Term.Typed.mono hm (h.2 t ht)⟩
      rw [List.mem_append] at hp
      rcases hp with hp | hp
      · exact ⟨Inst.Typed.mono hm (h.1 p hp).1, CallOk.mono hm (h.1 p hp).2⟩
      · simp at hp; subst hp
        exact ⟨Inst.Typed.mono hm (hi c hn), CallOk.mono hm (hk c hn)⟩
  · simpa [List.length_modify] using hf.cur
  · intro l j hj; simpa [List.length_modify] using hf.labels l j hj
  · intro x w hw; exact hg.vt (hf.locals x w hw)
  · have hcur := hf.cur
    refine ⟨_, rfl, ?_⟩
    show RegType _ _ _
    refine ⟨{ c.blocks[c.cur] with insts := c.blocks[c.cur].insts ++ [(c.nextReg, i)] }, List.mem_iff_getElem?.2 ⟨c.cur, ?_⟩, i, by simp, rfl⟩
    rw [List.getElem?_modify, List.getElem?_eq_getElem hcur]; simp

theorem KTy.imp {ok ok' : CState → α → Prop} {f : B α} (hf : KTy D R c0 f ok) (h : ∀ c a, ok c a → ok' c a) : KTy D R c0 f ok' := by
  intro c a c' hc hF hn
  obtain ⟨f1, l1, o1⟩ := hf _ _ _ hc hF hn
  exact ⟨f1, l1, h _ _ o1⟩

theorem KTy.emit (i : Inst) (hi : ∀ c, Ge c0 c → Inst.Typed (RegType c.blocks) i)
    (hk : ∀ c, Ge c0 c → CallOk D R (RegType c.blocks) i := by exact fun _ _ => trivial) : KTy D R c0 (emit i) (fun c v => VT c v (Inst.result i)) :=
  (KTy.emitReg i hi hk).imp fun _ _ ⟨_, _, h⟩ => h

theorem KTy.setTerm (t : Term) (ht : ∀ c, Ge c0 c → Term.Typed (RegType c.blocks) t) : KTy D R c0 (setTerm t) (fun _ _ => True) := by
  intro c v c' hc hf hn
  cases hc
  have hm : ∀ r ty, RegType c.blocks r ty → RegType (c.blocks.modify c.cur fun b => { b with term := some t }) r ty :=
    fun r ty h => RegType.modify (f := fun b => { b with term := some t }) (fun B p hp => hp) h
  have hg : Ge c { c with blocks := c.blocks.modify c.cur fun b => { b with term := some t } } := ⟨hm, by simp [List.length_modify]⟩
  refine ⟨⟨?_, ?_, ?_, ?_, hf.ctx, hf.funs, hf.funcs, hf.globals⟩, hg, trivial⟩
  · intro B hB
    rcases mem_modify hB with hB | ⟨A, hA, rfl⟩
    · exact ⟨fun p hp => ⟨Inst.Typed.mono hm ((hf.code B hB).1 p hp).1, CallOk.mono hm ((hf.code B hB).1 p hp).2⟩, fun t ht => Term.Typed.mono hm ((hf.code B hB).2 t ht)⟩
    · have h := hf.code A (List.mem_of_getElem? hA)
      refine ⟨fun p hp => ⟨Inst.Typed.mono hm (h.1 p hp).1, CallOk.mono hm (h.1 p hp).2⟩, fun t' ht' => ?_⟩
      cases ht'; exact Term.Typed.mono hm (ht c hn)
  · simpa [List.length_modify] using hf.cur
  · intro l j hj; simpa [List.length_modify] using hf.labels l j hj
  · intro x w hw; exact hg.vt (hf.locals x w hw)

theorem TInv.append {c : CState} (hf : TInv D R c) (nm : Name) (ls : List (Name × Nat)) (hl : ∀ l j, lookup l ls = some j → j < c.blocks.length + 1) :
    TInv D R { c with blocks := c.blocks ++ [⟨nm, [], none⟩], labels := ls } ∧ Ge c { c with blocks := c.blocks ++ [⟨nm, [], none⟩], labels := ls } := by
  have hm : ∀ r ty, RegType c.blocks r ty → RegType (c.blocks ++ [⟨nm, [], none⟩]) r ty := by
    rintro r ty ⟨B, hB, h⟩; exact ⟨B, List.mem_append_left _ hB, h⟩
  have hg : Ge c { c with blocks := c.blocks ++ [⟨nm, [], none⟩], labels := ls } := ⟨hm, by simp⟩
  refine ⟨⟨?_, ?_, ?_, ?_, hf.ctx, hf.funs, hf.funcs, hf.globals⟩, hg⟩
  · intro B hB
    rw [List.mem_append] at hB
    rcases hB with hB | hB
    · exact ⟨fun p hp => ⟨Inst.Typed.mono hm ((hf.code B hB).1 p hp).1, CallOk.mono hm ((hf.code B hB).1 p hp).2⟩, fun t ht => Term.Typed.mono hm ((hf.code B hB).2 t ht)⟩
    · simp at hB; subst hB; simp
  · have := hf.cur; show c.cur < _; simp; omega
  · intro l j hj; have := hl l j hj; simp; omega
  · intro x w hw; exact hg.vt (hf.locals x w hw)

theorem KTy.newBlock (nm : Name) : KTy D R c0 (newBlock nm) (fun c b => b < c.blocks.length) := by
  intro c v c' hc hf hn
  cases hc
  obtain ⟨h1, h2⟩ := hf.append nm c.labels (fun l j hj => Nat.lt_succ_of_lt (hf.labels l j hj))
  exact ⟨h1, h2, by simp⟩

theorem KTy.setInsertPoint (b : Nat) (hb : b < c0.blocks.length) : KTy D R c0 (setInsertPoint b) (fun _ _ => True) := by
  intro c v c' hc hf hn
  cases hc
  exact ⟨hf.tables rfl (hn.lt hb) hf.labels hf.locals hf.ctx hf.funs hf.funcs hf.globals, .of_eq rfl, trivial⟩

theorem KTy.getInsertBlock : KTy D R c0 getInsertBlock (fun _ _ => True) := by
  intro c v c' hc hf hn
  cases hc; exact ⟨hf, .refl _, trivial⟩

theorem KTy.freshLabelID : KTy D R c0 freshLabelID (fun _ _ => True) := by
  intro c v c' hc hf hn
  cases hc; exact ⟨hf.tables rfl hf.cur hf.labels hf.locals hf.ctx hf.funs hf.funcs hf.globals, .of_eq rfl, trivial⟩

theorem KTy.getOrCreateLabel (l : Name) : KTy D R c0 (getOrCreateLabel l) (fun c b => b < c.blocks.length) := by
  intro c v c' hc hf hn
  unfold Blang.getOrCreateLabel at hc
  cases hl : lookup l c.labels with
  | some b => rw [hl] at hc; cases hc; exact ⟨hf, .refl _, hf.labels _ _ hl⟩
  | none =>
    rw [hl] at hc; cases hc
    obtain ⟨h1, h2⟩ := hf.append l (insert l c.blocks.length c.labels) (fun l' j hj => by
      rcases lookup_insert_or hj with rfl | hj
      · omega
      · exact Nat.lt_succ_of_lt (hf.labels l' j hj))
    exact ⟨h1, h2, by simp⟩

theorem KTy.addLocal (x : Name) (v : Val) (hv : VT c0 v (.ptr .i64)) : KTy D R c0 (M.modify fun c => { c with locals := insert x v c.locals } : B Unit) (fun _ _ => True) := by
  intro c u c' hc hf hn
  cases hc
  refine ⟨hf.tables rfl hf.cur hf.labels ?_ hf.ctx hf.funs hf.funcs hf.globals, .of_eq rfl, trivial⟩
  intro y w hw
  rcases lookup_insert_or hw with rfl | hw
  · exact hn.vt hv
  · exact hf.locals _ _ hw

theorem KTy.getOrDeclareFunction (hD : DOk D R) (x : Name) : KTy D R c0 (getOrDeclareFunction x) (fun _ r => ∀ v, r = some v → IsFn D x v) := by
  intro c v c' h hf hn
  unfold Blang.getOrDeclareFunction at h
  cases hl : lookup x c.functions with
  | some f =>
    rw [hl] at h; cases h
    exact ⟨hf, .refl _, fun v hv => by cases hv; exact hf.funs _ _ hl⟩
  | none =>
    rw [hl] at h
    cases hx : lookup x c.ctx with
    | some _ => rw [hx] at h; cases h; exact ⟨hf, .refl _, (fun _ h => by cases h)⟩
    | none =>
      rw [hx] at h; cases h
      refine ⟨hf.tables rfl hf.cur hf.labels hf.locals hf.ctx ?_ ?_ hf.globals, .of_eq rfl, fun v hv => by cases hv; exact ⟨_, _, rfl, hD.ext x⟩⟩
      rotate_left
      · intro F hF
        have hF : F ∈ c.funcs.eraseP _ ++ [_] := hF
        rcases List.mem_append.1 hF with hF | hF
        · exact hf.funcs F (List.mem_of_mem_eraseP hF)
        · simp at hF; subst hF; exact hD.ext x
      intro y w hw
      rcases lookup_insert_or' hw with ⟨rfl, rfl⟩ | hw
      · exact ⟨_, _, rfl, hD.ext _⟩
      · exact hf.funs _ _ hw

theorem KTy.getOrCreateFunc (hD : DOk D R) (x : Name) (hx : isIntrinsic x = true) : KTy D R c0 (getOrCreateFunc x) (fun _ v => ∃ b n, v = .func x b n ∧ D x b n) := by
  intro c v c' h hf hn
  unfold Blang.getOrCreateFunc at h
  split at h <;> cases h
  · rename_i f hx'
    have := List.find?_some hx'
    simp at this
    subst this
    exact ⟨hf, .refl _, ⟨_, _, rfl, hf.funcs _ (List.mem_of_find?_eq_some hx')⟩⟩
  · refine ⟨hf.tables rfl hf.cur hf.labels hf.locals hf.ctx hf.funs ?_ hf.globals, .of_eq rfl, ⟨_, _, rfl, (hD.intr x hx).1⟩⟩
    intro F hF
    have hF : F ∈ c.funcs ++ [_] := hF
    rcases List.mem_append.1 hF with hF | hF
    · exact hf.funcs F hF
    · simp at hF; subst hF; exact (hD.intr x hx).1

theorem strSym_ne (n : Nat) (x : Name) : strSym n ≠ globalName x := by
  unfold strSym globalName globalPrefix
  have e1 : ".str.".toList = ['.', 's', 't', 'r', '.'] := by decide +kernel
  have e2 : "main".toList = ['m', 'a', 'i', 'n'] := by decide +kernel
  have e3 : "b.".toList = ['b', '.'] := by decide +kernel
  rw [e1, e2, e3]
  intro h
  split at h
  · rename_i hx; rw [hx] at h; simp at h
  · simp at h

theorem KTy.createString (s : List Char) : KTy D R c0 (createStringConstant s) (fun _ g => ∃ n, g.init.ty = .bytes n) := by
  intro c v c' h hf hn
  cases h
  refine ⟨hf.tables rfl hf.cur hf.labels hf.locals hf.ctx hf.funs hf.funcs ?_, .of_eq rfl, ⟨_, rfl⟩⟩
  intro g hg x hx
  have hg : g ∈ c.globals ++ [_] := hg
  rw [List.mem_append] at hg
  rcases hg with hg | hg
  · exact hf.globals g hg x hx
  · simp at hg; subst hg
    exact absurd hx (strSym_ne _ _)

theorem KTy.declareExtrn (x : Name) : KTy D R c0 (declareExtrn x) (fun _ _ => True) := by
  intro c v c' h hf hn
  unfold Blang.declareExtrn at h
  have key : ∀ (g : GlobalDef), IsVar g.val → ∀ (y : Name) (w : Val), lookup y (insert x g.val c.ctx) = some w → IsVar w := by
    intro g hg y w hw
    rcases lookup_insert_or hw with rfl | hw
    · exact hg
    · exact hf.ctx _ _ hw
  split at h
  · rename_i g hg
    cases h
    have h1 := List.mem_of_find?_eq_some hg
    have h2 := List.find?_some hg
    simp at h2
    exact ⟨hf.tables rfl hf.cur hf.labels hf.locals (key _ (hf.globals _ h1 _ h2)) hf.funs hf.funcs hf.globals, .of_eq rfl, trivial⟩
  · split at h
    · cases h
      refine ⟨hf.tables rfl hf.cur hf.labels hf.locals (key _ ⟨_, .inl rfl⟩) hf.funs hf.funcs ?_, .of_eq rfl, trivial⟩
      intro g hg y hy
      have hg : g ∈ c.globals ++ [_] := hg
      rw [List.mem_append] at hg
      rcases hg with hg | hg
      · exact hf.globals g hg y hy
      · simp at hg; subst hg
        exact ⟨_, .inl rfl⟩
    · cases h
end

/-- carry a fact over to a later state -/
macro "carry" : tactic => `(tactic| repeat (first | assumption | exact rfl | (refine Ge.vt (by assumption) ?_) | (refine Ge.lt (by assumption) ?_)))

section
variable {c0 : CState}
set_option quotPrecheck false
local notation "WOK" => fun (c : CState) (v : Val) => VT c v .word
/-- an lvalue is the address of a word, another value is a word -/
def LTy (v : LV) : IRTy := if v.2 then .ptr .i64 else .word
local notation "LOK" => fun (c : CState) (v : LV) => VT c v.1 (LTy v)

theorem KTy.rval (v : LV) (hv : VT c0 v.1 (LTy v)) : KTy D R c0 (rval v) WOK := by
  refine KTy.ite (fun h => ?_) (fun h => ?_)
  · rw [LTy, if_pos h] at hv
    exact KTy.emit _ fun c hc => ⟨.i64, hc.vt hv⟩
  · rw [LTy, if_neg h] at hv
    exact KTy.pure _ fun c hc => hc.vt hv

theorem KTy.cmpOp (p : Pred) (x y : Val) (hx : VT c0 x .word) (hy : VT c0 y .word) : KTy D R c0 (cmpOp p x y) WOK :=
  KTy.bind (KTy.emit _ fun c hc => ⟨hc.vt hx, hc.vt hy⟩) fun a c hc ha => KTy.emit _ fun c' hc' => hc'.vt ha

theorem KTy.genOp (o : Op) (x y : Val) (hx : VT c0 x .word) (hy : VT c0 y .word) : KTy D R c0 (genOp o x y) WOK := by
  cases o
  · exact KTy.emit _ fun c hc => ⟨hc.vt hx, hc.vt hy⟩
  · exact KTy.cmpOp _ _ _ hx hy

theorem KTy.needLval (v : LV) (hv : VT c0 v.1 (LTy v)) : KTy D R c0 (needLval v) (fun c a => VT c a (.ptr .i64)) := by
  refine KTy.ite (fun h => ?_) (fun _ => KTy.fail)
  rw [LTy, if_pos h] at hv
  exact KTy.pure _ fun c hc => hc.vt hv

theorem intrinsic_ne (x : Name) : isIntrinsic (globalName x) = false := by
  unfold isIntrinsic globalName globalPrefix
  have e1 : "llvm.va_start".toList = 'l' :: "lvm.va_start".toList := by decide +kernel
  have e0 : "llvm.va_end".toList = 'l' :: "lvm.va_end".toList := by decide +kernel
  have e2 : "main".toList = ['m', 'a', 'i', 'n'] := by decide +kernel
  have e3 : "b.".toList = ['b', '.'] := by decide +kernel
  rw [e0, e1, e2, e3]
  split
  · rename_i h; subst h; simp
  · simp

/-- what can be called: a function or a word -/
def Callable (D : Name → Bool → Nat → Prop) (x : Name) (c : CState) (v : Val) : Prop := IsFn D x v ∨ VT c v .word

theorem Ge.callable {c c' : CState} (h : Ge c c') {v : Val} {x : Name} (hv : Callable D x c v) : Callable D x c' v := hv.imp id h.vt

theorem KTy.genCall (hD : DOk D R) (x : Name) (f : Val) (as : List Val) (hf : (IsFn D x f ∧ R (globalName x) as.length) ∨ VT c0 f .word)
    (ha : ∀ a ∈ as, VT c0 a .word) : KTy D R c0 (genCall f as) WOK := by
  unfold Blang.genCall
  split
  · rename_i s v n
    have hs : isIntrinsic s = false ∧ D s v n ∧ R s as.length := by
      rcases hf with ⟨⟨b, k, e, hd⟩, hr⟩ | h
      · cases e; exact ⟨intrinsic_ne x, hd, hr⟩
      · cases h
    refine KTy.ite (fun hc => KTy.bind (KTy.emitReg _ fun c hc => ⟨_, _, rfl⟩) fun a c hc' hva => ?_) (fun _ => ?_)
    · obtain ⟨r, rfl, hva⟩ := hva
      exact KTy.emit _ (fun c'' hc'' => ⟨⟨_, _, hc''.vt hva⟩, fun a hm => hc''.vt (hc'.vt (ha a hm))⟩) (fun c'' hc'' => ⟨1, true, hc''.vt hva, hc.2.2⟩)
    · refine (KTy.emit (D := D) (R := R) (.call (.func s v n) as) (fun c' hc' => ?_) (fun _ _ => hs.2)).imp fun c a h => ?_
      · simp only [Inst.Typed, hs.1]
        exact ⟨⟨_, _, rfl⟩, fun a hm => hc'.vt (ha a hm)⟩
      · simp only [Inst.result, hs.1] at h; exact h
  · rename_i hnf
    have hw : VT c0 f .word := by
      rcases hf with ⟨⟨b, k, e, _⟩, _⟩ | h
      · exact absurd e (hnf _ _ _)
      · exact h
    refine KTy.bind (KTy.emitReg _ fun c hc => hc.vt hw) fun a c hc hva => ?_
    obtain ⟨r, rfl, hva⟩ := hva
    refine KTy.emit _ (fun c' hc' => ⟨⟨_, _, hc'.vt hva⟩, fun a hm => hc'.vt (hc.vt (ha a hm))⟩) (fun c' hc' => ⟨_, _, hc'.vt hva, ?_⟩)
    by_cases h1 : 1 ≤ as.length
    · simp [h1, Takes]
    · simp [h1, Takes]; simpa using h1

theorem KTy.genStr (s : List Char) : KTy D R c0 (genStr s) WOK :=
  KTy.bind (KTy.createString _) fun g c hc hg => KTy.bind (KTy.emit _ fun c hc => ⟨rfl, by obtain ⟨n, e⟩ := hg; rw [e]; nofun⟩)
    fun a c hc ha => KTy.emit _ fun c' hc' => .inr (.inl (by
      obtain ⟨n, e⟩ := hg
      have := hc'.vt ha
      rw [Inst.result, e] at this; exact this))

theorem KTy.genPostfix (o : BinOp) (v : Val) (hv : VT c0 v (.ptr .i64)) : KTy D R c0 (genPostfix o v) WOK :=
  KTy.bind (KTy.emit _ fun c hc => ⟨_, hc.vt hv⟩) fun a c1 h1 ha => KTy.bind (KTy.emit _ fun c hc => ⟨hc.vt ha, rfl⟩) fun b c2 h2 hb =>
    KTy.bind (KTy.emit _ fun c hc => ⟨hc.vt hb, by carry⟩) fun d c3 h3 _ => KTy.pure _ (fun c hc => by carry)

theorem KTy.genPrefix (o : BinOp) (v : Val) (hv : VT c0 v (.ptr .i64)) : KTy D R c0 (genPrefix o v) (fun _ _ => True) :=
  KTy.bind (KTy.emit _ fun c hc => ⟨_, hc.vt hv⟩) fun a c1 h1 ha => KTy.bind (KTy.emit _ fun c hc => ⟨hc.vt ha, rfl⟩) fun b c2 h2 hb =>
    KTy.bind (KTy.emit _ fun c hc => ⟨hc.vt hb, by carry⟩) fun d c3 h3 _ => KTy.pure _ (fun c hc => trivial)

theorem KTy.genAssign (o : Option Op) (l r : Val) (hl : VT c0 l (.ptr .i64)) (hr : VT c0 r .word) : KTy D R c0 (genAssign o l r) WOK := by
  unfold Blang.genAssign
  split
  · exact KTy.bind (KTy.emit _ fun c hc => ⟨_, hc.vt hl⟩) fun a c1 h1 ha => KTy.bind (KTy.genOp _ _ _ ha (by carry)) fun b c2 h2 hb =>
      KTy.bind (KTy.emit _ fun c hc => ⟨hc.vt hb, by carry⟩) fun d c3 h3 _ => KTy.pure _ (fun c hc => by carry)
  · exact KTy.bind (KTy.emit _ fun c hc => ⟨hc.vt hr, hc.vt hl⟩) fun a c1 h1 ha => KTy.pure _ (fun c hc => by carry)

theorem KTy.getAddress (x : Name) : KTy D R c0 (getAddress x) (fun c r => ∀ v, r = some v → VT c v (.ptr .i64)) := by
  refine KTy.get fun c hf hn => ?_
  cases hl : lookup x c.locals with
  | some v => exact KTy.pure _ (fun m hm w hw => by cases hw; exact hm.vt (hf.locals _ _ hl))
  | none =>
    cases hx : lookup x c.ctx with
    | none => exact KTy.pure _ (fun m hm w hw => by cases hw)
    | some v =>
      obtain ⟨s, rfl | ⟨n, rfl⟩⟩ := hf.ctx _ _ hx
      · exact KTy.pure _ (fun m hm w hw => by cases hw; exact rfl)
      · exact KTy.bind (KTy.emit _ fun c hc => ⟨rfl, nofun⟩) fun a c1 h1 ha => KTy.pure _ (fun c hc w hw => by cases hw; exact hc.vt ha)

theorem findFunc_isFn {c : CState} {x : Name} {fn : Func} (hc : TInv D R c) (h : findFuncByName c x = some fn) : IsFn D x fn.val := by
  have hm := hc.funcs _ (List.mem_of_find?_eq_some h)
  have := List.find?_some h
  simp at this
  rw [this] at hm
  exact ⟨_, _, by unfold Func.val; rw [this], hm⟩

theorem IsFn.vt {v : Val} {x : Name} (h : IsFn D x v) (c : CState) : ∃ k b, VT c v (.code k b) := by
  obtain ⟨b, n, rfl, _⟩ := h; exact ⟨n, b, rfl⟩

theorem KTy.genVar (hD : DOk D R) (x : Name) : KTy D R c0 (genVar x) LOK := by
  refine KTy.bind (KTy.getAddress x) fun r c1 h1 hr => ?_
  cases r with
  | some a => exact KTy.pure _ (fun c hc => hc.vt (hr _ rfl))
  | none =>
    refine KTy.get fun c hf hn => ?_
    cases hx : findFuncByName c x with
    | some fn => exact KTy.bind (KTy.emit _ fun c hc => .inr (.inr ((findFunc_isFn hf hx).vt _))) fun a c1 h1 ha => KTy.pure _ (fun c hc => hc.vt ha)
    | none =>
      refine KTy.bind (KTy.getOrDeclareFunction hD x) fun r c2 h2 hr => ?_
      cases r with
      | some fn => exact KTy.bind (KTy.emit _ fun c hc => .inr (.inr ((hr _ rfl).vt _))) fun a c1 h1 ha => KTy.pure _ (fun c hc => hc.vt ha)
      | none => exact KTy.fail

/-- the callee, loaded if it is a variable -/
theorem KTy.genCallee (hD : DOk D R) (x : Name) : KTy D R c0 (genCallee x) (fun _ v => (v.2 = true ∧ IsVar v.1) ∨ v.2 = false ∧ IsFn D x v.1) := by
  refine KTy.get fun c hf hn => ?_
  cases hx : findFuncByName c x with
  | some fn => exact KTy.pure _ (fun c hc => .inr ⟨rfl, findFunc_isFn hf hx⟩)
  | none =>
    cases hx : lookup x c.ctx with
    | some g => exact KTy.pure _ (fun m hm => .inl ⟨rfl, hf.ctx _ _ hx⟩)
    | none =>
      refine KTy.bind (KTy.getOrDeclareFunction hD x) fun r c2 h2 hr => ?_
      cases r with
      | some fn => exact KTy.pure _ (fun m hm => .inr ⟨rfl, hr _ rfl⟩)
      | none => exact KTy.fail

theorem KTy.rvalCallee {x : Name} (v : LV) (hv : (v.2 = true ∧ IsVar v.1) ∨ v.2 = false ∧ IsFn D x v.1) : KTy D R c0 (Blang.rval v) (Callable D x) := by
  refine KTy.ite (fun h => ?_) (fun h => ?_)
  · rcases hv with ⟨_, s, e⟩ | ⟨h', _⟩
    · refine (KTy.emit _ fun c hc => ?_).imp fun c a ha => .inr ha
      rcases e with e | ⟨n, e⟩ <;> exact ⟨_, by rw [e]; exact rfl⟩
    · rw [h] at h'; cases h'
  · rcases hv with ⟨h', _⟩ | ⟨_, h'⟩
    · exact absurd h' h
    · exact KTy.pure _ fun c hc => .inl h'

theorem KTy.condStart (v : Val) (hv : VT c0 v .word) : KTy D R c0 (condStart v) (fun c b => b.1 < c.blocks.length ∧ b.2.1 < c.blocks.length ∧ b.2.2 < c.blocks.length) :=
  KTy.bind KTy.freshLabelID fun i c1 h1 _ => KTy.bind (KTy.newBlock _) fun b1 c2 h2 k1 => KTy.bind (KTy.newBlock _) fun b2 c3 h3 k2 =>
    KTy.bind (KTy.newBlock _) fun b3 c4 h4 k3 => KTy.bind (KTy.emit _ fun c hc => ⟨by carry, rfl⟩) fun d c5 h5 hd =>
    KTy.bind (KTy.setTerm _ fun c hc => hc.vt hd) fun _ c6 h6 _ => KTy.pure _ (fun c hc => ⟨by carry, by carry, by carry⟩)

theorem KTy.genNeg (v : LV) (hv : VT c0 v.1 (LTy v)) : KTy D R c0 (genNeg v) WOK :=
  KTy.bind (KTy.rval _ hv) fun b c2 h2 hb => KTy.emit _ fun c hc => ⟨rfl, hc.vt hb⟩

theorem KTy.genDeref (v : LV) (hv : VT c0 v.1 (LTy v)) : KTy D R c0 (genDeref v) (fun c a => VT c a (.ptr .i64)) :=
  KTy.bind (KTy.rval _ hv) fun b c2 h2 hb => KTy.emit _ fun c hc => hc.vt hb

/-- all the calls are in `R` -/
def CIn (R : Name → Nat → Prop) (l : List (Name × Nat)) : Prop := ∀ q ∈ l, R (globalName q.1) q.2

theorem CIn.left {a b : List (Name × Nat)} (h : CIn R (a ++ b)) : CIn R a := fun q hq => h q (List.mem_append_left _ hq)
theorem CIn.right {a b : List (Name × Nat)} (h : CIn R (a ++ b)) : CIn R b := fun q hq => h q (List.mem_append_right _ hq)
theorem CIn.head {a : Name × Nat} {b : List (Name × Nat)} (h : CIn R (a :: b)) : R (globalName a.1) a.2 := h a List.mem_cons_self
theorem CIn.tail {a : Name × Nat} {b : List (Name × Nat)} (h : CIn R (a :: b)) : CIn R b := fun q hq => h q (List.mem_cons_of_mem _ hq)

mutual
theorem KTy.genL (hD : DOk D R) : ∀ (e : Ex) (_ : CIn R e.calls) (c0 : CState), KTy D R c0 (genL e) LOK
  | .num _, h, _ => KTy.pure _ (fun _ _ => rfl)
  | .str _, h, _ => KTy.bind (KTy.genStr _) fun a c1 h1 ha => KTy.pure _ (fun c hc => hc.vt ha)
  | .var x, h, _ => KTy.genVar hD x
  | .paren e, h, n => KTy.bind (KTy.genL hD e h n) fun a c1 h1 ha => KTy.bind (KTy.rval _ ha) fun b c2 h2 hb => KTy.pure _ (fun c hc => hc.vt hb)
  | .index a i, h, n => KTy.bind (KTy.genL hD a (CIn.left h) n) fun v c1 h1 hv => KTy.bind (KTy.rval _ hv) fun b c2 h2 hb => KTy.bind (KTy.emit _ fun c hc => hc.vt hb) fun p c3 h3 hp =>
      KTy.bind (KTy.genL hD i (CIn.right h) c3) fun w c4 h4 hw => KTy.bind (KTy.rval _ hw) fun w' c5 h5 hw' => KTy.bind (KTy.emit _ fun c hc => ⟨by carry, by carry⟩) fun r c6 h6 hr =>
      KTy.pure _ (fun c hc => hc.vt hr)
  | .callName f as, h, n => KTy.bind (KTy.genCallee hD f) fun v c1 h1 hv => KTy.bind (KTy.rvalCallee _ hv) fun b c2 h2 hb => KTy.bind (KTy.genArgs hD as (CIn.tail h) c2) fun vs c3 h3 hvs =>
      KTy.bind (KTy.genCall hD f _ _ ((h3.callable hb).imp (fun k => ⟨k, by rw [hvs.1]; exact CIn.head h⟩) id) hvs.2) fun r c4 h4 hr => KTy.pure _ (fun c hc => hc.vt hr)
  | .call f as, h, n => KTy.bind (KTy.genL hD f (CIn.left h) n) fun v c1 h1 hv => KTy.bind (KTy.rval _ hv) fun b c2 h2 hb => KTy.bind (KTy.genArgs hD as (CIn.right h) c2) fun vs c3 h3 hvs =>
      KTy.bind (KTy.genCall hD [] _ _ (.inr (h3.vt hb)) hvs.2) fun r c4 h4 hr => KTy.pure _ (fun c hc => hc.vt hr)
  | .post _ e, h, n => KTy.bind (KTy.genL hD e h n) fun v c1 h1 hv => KTy.bind (KTy.needLval _ hv) fun b c2 h2 hb => KTy.bind (KTy.genPostfix _ _ hb) fun r c3 h3 hr =>
      KTy.pure _ (fun c hc => hc.vt hr)
  | .pre _ e, h, n => KTy.bind (KTy.genL hD e h n) fun v c1 h1 hv => KTy.bind (KTy.needLval _ hv) fun b c2 h2 hb => KTy.bind (KTy.genPrefix _ _ hb) fun r c3 h3 hr =>
      KTy.pure _ (fun c hc => hc.vt (h3.vt hb))
  | .not e, h, n => KTy.bind (KTy.genL hD e h n) fun v c1 h1 hv => KTy.bind (KTy.bind (KTy.rval _ hv) fun b c2 h2 hb => KTy.cmpOp _ _ _ hb rfl) fun r c3 h3 hr =>
      KTy.pure _ (fun c hc => hc.vt hr)
  | .neg e, h, n => KTy.bind (KTy.genL hD e h n) fun v c1 h1 hv => KTy.bind (KTy.genNeg _ hv) fun r c3 h3 hr =>
      KTy.pure _ (fun c hc => hc.vt hr)
  | .deref e, h, n => KTy.bind (KTy.genL hD e h n) fun v c1 h1 hv => KTy.bind (KTy.genDeref _ hv) fun r c3 h3 hr =>
      KTy.pure _ (fun c hc => hc.vt hr)
  | .addr e, h, n => KTy.bind (KTy.genL hD e h n) fun v c1 h1 hv => KTy.bind (KTy.needLval _ hv) fun b c2 h2 hb => KTy.bind (KTy.emit _ fun c hc => .inl ⟨_, hc.vt hb⟩) fun r c3 h3 hr =>
      KTy.pure _ (fun c hc => hc.vt hr)
  | .bin _ l r, h, n => KTy.bind (KTy.genL hD l (CIn.left h) n) fun v c1 h1 hv => KTy.bind (KTy.rval _ hv) fun b c2 h2 hb => KTy.bind (KTy.genL hD r (CIn.right h) c2) fun w c3 h3 hw =>
      KTy.bind (KTy.rval _ hw) fun w' c4 h4 hw' => KTy.bind (KTy.genOp _ _ _ (by carry) hw') fun r c5 h5 hr => KTy.pure _ (fun c hc => hc.vt hr)
  | .cond cn t e, h, n => KTy.bind (KTy.genL hD cn (CIn.left h) n) fun v c1 h1 hv => KTy.bind (KTy.rval _ hv) fun b c2 h2 hb => KTy.bind (KTy.condStart _ hb) fun bs c3 h3 hbs =>
      have ⟨l1, l2, l3⟩ := hbs
      KTy.bind (KTy.setInsertPoint _ l1) fun _ c4 h4 _ => KTy.bind (KTy.genL hD t (CIn.left (CIn.right h)) c4) fun tv c5 h5 htv => KTy.bind (KTy.rval _ htv) fun tv' c6 h6 htv' =>
      KTy.bind KTy.getInsertBlock fun _ c7 h7 _ => KTy.bind (KTy.setTerm _ fun _ _ => trivial) fun _ c8 h8 _ =>
      KTy.bind (KTy.setInsertPoint _ (by carry)) fun _ c9 h9 _ => KTy.bind (KTy.genL hD e (CIn.right (CIn.right h)) c9) fun ev c10 h10 hev => KTy.bind (KTy.rval _ hev) fun ev' c11 h11 hev' =>
      KTy.bind KTy.getInsertBlock fun _ c12 h12 _ => KTy.bind (KTy.setTerm _ fun _ _ => trivial) fun _ c13 h13 _ =>
      KTy.bind (KTy.setInsertPoint _ (by carry)) fun _ c14 h14 _ => KTy.bind (KTy.emit _ fun c hc => ⟨by carry, by carry⟩) fun r c15 h15 hr => KTy.pure _ (fun c hc => hc.vt hr)
  | .assign _ l r, h, n => KTy.bind (KTy.genL hD l (CIn.left h) n) fun v c1 h1 hv => KTy.bind (KTy.needLval _ hv) fun b c2 h2 hb => KTy.bind (KTy.genL hD r (CIn.right h) c2) fun w c3 h3 hw =>
      KTy.bind (KTy.rval _ hw) fun w' c4 h4 hw' => KTy.bind (KTy.genAssign _ _ _ (by carry) hw') fun r c5 h5 hr => KTy.pure _ (fun c hc => hc.vt hr)

theorem KTy.genArgs (hD : DOk D R) : ∀ (es : List Ex) (_ : CIn R (Ex.callsArgs es)) (c0 : CState), KTy D R c0 (genArgs es) (fun c vs => vs.length = es.length ∧ ∀ v ∈ vs, VT c v .word)
  | [], _, n => KTy.pure _ (fun _ _ => ⟨rfl, fun v hv => by cases hv⟩)
  | e :: es, h, n => KTy.bind (KTy.genL hD e (CIn.left h) n) fun v c1 h1 hv => KTy.bind (KTy.rval _ hv) fun b c2 h2 hb => KTy.bind (KTy.genArgs hD es (CIn.right h) c2) fun vs c3 h3 hvs =>
      KTy.pure _ (fun c hc => ⟨by simp [hvs.1], fun w hw => by
        rcases List.mem_cons.1 hw with rfl | hw
        · carry
        · exact hc.vt (hvs.2 w hw)⟩)
end

theorem KTy.genR (hD : DOk D R) (e : Ex) (h : CIn R e.calls) (c0 : CState) : KTy D R c0 (genR e) WOK := KTy.bind (KTy.genL hD e h c0) fun v c1 h1 hv => KTy.rval _ hv

/-! ### statements -/

theorem KTy.brIfOpen (b : Nat) : KTy D R c0 (brIfOpen b) (fun _ _ => True) :=
  KTy.get fun _ _ _ => KTy.ite (fun _ => KTy.setTerm _ fun _ _ => trivial) (fun _ => KTy.pure _ fun _ _ => trivial)

theorem KTy.genLabel (l : Name) : KTy D R c0 (genLabel l) (fun _ _ => True) :=
  KTy.bind (KTy.getOrCreateLabel l) fun b c1 h1 hb => KTy.bind (KTy.brIfOpen b) fun _ c2 h2 _ => KTy.setInsertPoint _ (h2.lt hb)

theorem KTy.genGoto (l : Name) : KTy D R c0 (genGoto l) (fun _ _ => True) :=
  KTy.bind (KTy.getOrCreateLabel l) fun b c1 h1 hb => KTy.bind (KTy.setTerm _ fun _ _ => trivial) fun _ c2 h2 _ => KTy.get fun _ _ _ =>
    KTy.bind (KTy.newBlock _) fun d c3 h3 hd => KTy.bind KTy.freshLabelID fun _ c4 h4 _ => KTy.setInsertPoint _ (h4.lt hd)

theorem KTy.ifStart (v : Val) (hv : VT c0 v .word) : KTy D R c0 (ifStart v) (fun c b => b.1 < c.blocks.length ∧ b.2.1 < c.blocks.length ∧ b.2.2 < c.blocks.length) :=
  KTy.bind KTy.freshLabelID fun i c1 h1 _ => KTy.bind (KTy.newBlock _) fun b1 c2 h2 k1 => KTy.bind (KTy.newBlock _) fun b2 c3 h3 k2 =>
    KTy.bind (KTy.newBlock _) fun b3 c4 h4 k3 => KTy.bind (KTy.emit _ fun c hc => ⟨by carry, rfl⟩) fun d c5 h5 hd =>
    KTy.bind (KTy.setTerm _ fun c hc => hc.vt hd) fun _ c6 h6 _ => KTy.pure _ (fun c hc => ⟨by carry, by carry, by carry⟩)

theorem KTy.whileStart : KTy D R c0 whileStart (fun c b => b.1 < c.blocks.length ∧ b.2.1 < c.blocks.length ∧ b.2.2 < c.blocks.length) :=
  KTy.bind KTy.freshLabelID fun i c1 h1 _ => KTy.bind (KTy.newBlock _) fun b1 c2 h2 k1 => KTy.bind (KTy.newBlock _) fun b2 c3 h3 k2 =>
    KTy.bind (KTy.newBlock _) fun b3 c4 h4 k3 => KTy.bind (KTy.setTerm _ fun _ _ => trivial) fun _ c5 h5 _ => KTy.bind (KTy.setInsertPoint _ (by carry)) fun _ c6 h6 _ =>
    KTy.pure _ (fun c hc => ⟨by carry, by carry, by carry⟩)

theorem KTy.switchStart (id : Nat) : KTy D R c0 (switchStart id) (fun c b => b.1 < c.blocks.length ∧ b.2 < c.blocks.length) :=
  KTy.bind (KTy.newBlock _) fun b1 c2 h2 k1 => KTy.bind (KTy.newBlock _) fun b2 c3 h3 k2 =>
    KTy.bind (KTy.newBlock _) fun b3 c4 h4 k3 => KTy.bind (KTy.setTerm _ fun _ _ => trivial) fun _ c5 h5 _ => KTy.bind (KTy.setInsertPoint _ (by carry)) fun _ c6 h6 _ =>
    KTy.pure _ (fun c hc => ⟨by carry, by carry⟩)

theorem KTy.switchCases (id : Nat) : ∀ (vs : Cases) (c0 : CState), KTy D R c0 (switchCases id vs) (fun _ _ => True)
  | [], n => KTy.pure _ (fun _ _ => trivial)
  | v :: vs, n => KTy.bind (KTy.getOrCreateLabel _) fun b c1 h1 hb => KTy.bind (KTy.switchCases id vs c1) fun ps c2 h2 hps => KTy.pure _ (fun _ _ => trivial)

theorem KTy.switchTerm (id : Nat) (v : Val) (b : Nat) (vs : Cases) (hv : VT c0 v .word) : KTy D R c0 (switchTerm id v b vs) (fun _ _ => True) := by
  unfold Blang.switchTerm
  exact KTy.ite (fun _ => KTy.bind (KTy.switchCases id vs c0) fun ps c1 h1 hps => KTy.setTerm _ fun c hc => hc.vt (h1.vt hv)) (fun _ => KTy.setTerm _ fun _ _ => trivial)

theorem KTy.genExtrn : ∀ (xs : List Name) (c0 : CState), KTy D R c0 (genExtrn xs) (fun _ _ => True)
  | [], n => KTy.pure _ (fun _ _ => trivial)
  | x :: xs, n => KTy.bind (KTy.declareExtrn x) fun _ c1 h1 _ => KTy.genExtrn xs c1

theorem KTy.autoCheck : ∀ (ds : List (Name × Option Word)) (seen : List Name) (c0 : CState), KTy D R c0 (autoCheck seen ds) (fun _ _ => True)
  | [], seen, n => KTy.pure _ (fun _ _ => trivial)
  | d :: ds, seen, n => KTy.get fun c _ hc => KTy.ite (fun _ => KTy.fail) (fun _ => KTy.autoCheck ds _ _)

theorem KTy.declareLocal (x : Name) : KTy D R c0 (declareLocal x) (fun _ _ => True) :=
  KTy.bind (KTy.emit _ fun _ _ => trivial) fun a c1 h1 ha => KTy.bind (KTy.emit _ fun c hc => ⟨rfl, by carry⟩) fun _ c2 h2 _ => KTy.addLocal _ _ (by carry)

theorem KTy.declareLocalArray (x : Name) (k : W) : KTy D R c0 (declareLocalArray x k) (fun _ _ => True) :=
  KTy.bind (KTy.emit _ fun _ _ => trivial) fun a c1 h1 ha => KTy.bind (KTy.emit _ fun c hc => ⟨hc.vt ha, nofun⟩) fun b c2 h2 hb =>
    KTy.bind (KTy.emit _ fun c hc => .inl ⟨_, hc.vt hb⟩) fun p c3 h3 hp => KTy.bind (KTy.emit _ fun c hc => ⟨by carry, nofun⟩) fun q c4 h4 hq =>
    KTy.bind (KTy.emit _ fun c hc => ⟨by carry, hc.vt hq⟩) fun _ c5 h5 _ => KTy.addLocal _ _ (h5.vt hq)

theorem KTy.declareAll : ∀ (ds : List (Name × W)) (c0 : CState), KTy D R c0 (declareAll ds) (fun _ _ => True)
  | [], n => KTy.pure _ (fun _ _ => trivial)
  | d :: ds, n => KTy.bind (KTy.ite (fun _ => KTy.declareLocal _) (fun _ => KTy.declareLocalArray _ _)) fun _ c1 h1 _ => KTy.declareAll ds c1

theorem KTy.genSt (hD : DOk D R) : ∀ (s : St) (_ : CIn R s.calls) (sw : Option Nat) (cs : Cases) (c0 : CState), KTy D R c0 (genSt s sw cs) (fun _ _ => True)
  | .skip, h, _, _, n => KTy.pure _ (fun _ _ => trivial)
  | .seq s t, h, sw, cs, n => KTy.bind (KTy.genSt hD s (CIn.left h) sw cs n) fun cs c1 h1 _ => KTy.genSt hD t (CIn.right h) sw cs c1
  | .expr e, h, _, _, n => KTy.bind (KTy.genR hD e h n) fun _ _ _ _ => KTy.pure _ (fun _ _ => trivial)
  | .ret none, h, _, _, n => KTy.bind (KTy.setTerm _ fun _ _ => rfl) fun _ _ _ _ => KTy.pure _ (fun _ _ => trivial)
  | .ret (some e), h, _, _, n => KTy.bind (KTy.genR hD e h n) fun v c1 h1 hv => KTy.bind (KTy.setTerm _ fun c hc => hc.vt hv) fun _ _ _ _ => KTy.pure _ (fun _ _ => trivial)
  | .auto ds, h, _, _, n => KTy.bind (KTy.autoCheck ds [] n) fun _ c1 h1 _ => KTy.bind (KTy.declareAll _ c1) fun _ _ _ _ => KTy.pure _ (fun _ _ => trivial)
  | .extrn xs, h, _, _, n => KTy.bind (KTy.genExtrn xs n) fun _ _ _ _ => KTy.pure _ (fun _ _ => trivial)
  | .ifThen c t, h, _, _, n => KTy.bind (KTy.genR hD c (CIn.left h) n) fun v c1 h1 hv => KTy.bind (KTy.ifStart v hv) fun bs c2 h2 hb =>
      have ⟨l1, l2, l3⟩ := hb
      KTy.bind (KTy.setInsertPoint _ l1) fun _ c3 h3 _ =>
      KTy.bind (KTy.genSt hD t (CIn.right h) none [] c3) fun _ c4 h4 _ => KTy.bind (KTy.brIfOpen _) fun _ c5 h5 _ => KTy.bind (KTy.setInsertPoint _ (by carry)) fun _ c6 h6 _ =>
      KTy.bind (KTy.brIfOpen _) fun _ c7 h7 _ => KTy.bind (KTy.setInsertPoint _ (by carry)) fun _ c8 h8 _ => KTy.pure _ (fun _ _ => trivial)
  | .ifElse c t e, h, _, _, n => KTy.bind (KTy.genR hD c (CIn.left h) n) fun v c1 h1 hv => KTy.bind (KTy.ifStart v hv) fun bs c2 h2 hb =>
      have ⟨l1, l2, l3⟩ := hb
      KTy.bind (KTy.setInsertPoint _ l1) fun _ c3 h3 _ =>
      KTy.bind (KTy.genSt hD t (CIn.left (CIn.right h)) none [] c3) fun _ c4 h4 _ => KTy.bind (KTy.brIfOpen _) fun _ c5 h5 _ => KTy.bind (KTy.setInsertPoint _ (by carry)) fun _ c6 h6 _ =>
      KTy.bind (KTy.genSt hD e (CIn.right (CIn.right h)) none [] c6) fun _ c7 h7 _ =>
      KTy.bind (KTy.brIfOpen _) fun _ c8 h8 _ => KTy.bind (KTy.setInsertPoint _ (by carry)) fun _ c9 h9 _ => KTy.pure _ (fun _ _ => trivial)
  | .while c b, h, _, _, n => KTy.bind KTy.whileStart fun bs c1 h1 hb =>
      have ⟨l1, l2, l3⟩ := hb
      KTy.bind (KTy.genR hD c (CIn.left h) c1) fun v c2 h2 hv => KTy.bind (KTy.emit _ fun c hc => ⟨hc.vt hv, rfl⟩) fun d c3 h3 hd =>
      KTy.bind (KTy.setTerm _ fun c hc => hc.vt hd) fun _ c4 h4 _ =>
      KTy.bind (KTy.setInsertPoint _ (by carry)) fun _ c5 h5 _ => KTy.bind (KTy.genSt hD b (CIn.right h) none [] c5) fun _ c6 h6 _ => KTy.bind (KTy.brIfOpen _) fun _ c7 h7 _ =>
      KTy.bind (KTy.setInsertPoint _ (by carry)) fun _ c8 h8 _ => KTy.pure _ (fun _ _ => trivial)
  | .switch e b, h, _, _, n => KTy.bind KTy.freshLabelID fun id c1 h1 _ => KTy.bind (KTy.genR hD e (CIn.left h) c1) fun v c2 h2 hv => KTy.bind (KTy.switchStart id) fun bs c3 h3 hb =>
      have ⟨l1, l2⟩ := hb
      KTy.bind (KTy.genSt hD b (CIn.right h) (some id) [] c3) fun vs c4 h4 _ => KTy.bind (KTy.brIfOpen _) fun _ c5 h5 _ => KTy.bind (KTy.setInsertPoint _ (by carry)) fun _ c6 h6 _ =>
      KTy.bind (KTy.switchTerm id v _ vs (by carry)) fun _ c7 h7 _ => KTy.bind (KTy.setInsertPoint _ (by carry)) fun _ c8 h8 _ => KTy.pure _ (fun _ _ => trivial)
  | .case v s, h, none, _, n => KTy.fail
  | .case v s, h, some id, cs, n => KTy.bind (KTy.genLabel _) fun _ c1 h1 _ => KTy.genSt hD s h (some id) _ c1
  | .label l s, h, sw, cs, n => KTy.bind (KTy.genLabel _) fun _ c1 h1 _ => KTy.genSt hD s h sw cs c1
  | .goto l, h, _, _, n => KTy.bind (KTy.genGoto l) fun _ c1 h1 _ => KTy.pure _ (fun _ _ => trivial)

theorem KTy.firstParam (p : Name) : KTy D R c0 (firstParam p) (fun _ _ => True) :=
  KTy.bind (KTy.emit _ fun _ _ => trivial) fun a c1 h1 ha => KTy.bind (KTy.emit _ fun c hc => ⟨rfl, hc.vt ha⟩) fun _ c2 h2 _ => KTy.addLocal _ _ (h2.vt ha)

theorem KTy.vaParams (v : Val) : ∀ (ps : List Name) (c0 : CState), VT c0 v .bytePtr → KTy D R c0 (vaParams v ps) (fun _ _ => True)
  | [], n, _ => KTy.pure _ (fun _ _ => trivial)
  | p :: ps, n, hv => KTy.bind (KTy.emit _ fun _ _ => trivial) fun a c1 h1 ha => KTy.bind (KTy.emit _ fun c hc => hc.vt (h1.vt hv)) fun r c2 h2 hr =>
      KTy.bind (KTy.emit _ fun c hc => ⟨hc.vt hr, by carry⟩) fun _ c3 h3 _ => KTy.bind (KTy.addLocal _ _ (by carry)) fun _ c4 h4 _ => KTy.vaParams v ps c4 (by carry)

theorem KTy.intrinsic (f a : Val) (s : Name) (hs : isIntrinsic s = true) (hD : DOk D R) (hf : ∃ b n, f = .func s b n ∧ D s b n) (ha : VT c0 a .bytePtr) : KTy D R c0 (Blang.emit (.call f [a])) (fun _ _ => True) := by
  obtain ⟨b, n, rfl, hd⟩ := hf
  refine (KTy.emit (D := D) (R := R) (.call (.func s b n) [a]) (fun c hc => ?_) (fun _ _ => ⟨hd, (hD.intr s hs).2⟩)).imp fun _ _ _ => trivial
  simp only [Inst.Typed, hs, if_true]
  exact ⟨a, rfl, hc.vt ha⟩

theorem KTy.paramCode (hD : DOk D R) (ps : List Name) : KTy D R c0 (paramCode ps) (fun _ _ => True) := by
  unfold Blang.paramCode
  split
  · exact KTy.pure _ (fun _ _ => trivial)
  · exact KTy.firstParam _
  · exact KTy.bind (KTy.firstParam _) fun _ c1 h1 _ => KTy.bind (KTy.emit _ fun _ _ => trivial) fun a c2 h2 ha =>
      KTy.bind (KTy.emit _ fun c hc => ⟨hc.vt ha, nofun⟩) fun l c3 h3 hl => KTy.bind (KTy.getOrCreateFunc hD _ (by simp [isIntrinsic])) fun f c4 h4 hf =>
      KTy.bind (KTy.intrinsic _ _ _ (by simp [isIntrinsic]) hD hf (h4.vt hl)) fun _ c5 h5 _ => KTy.bind (KTy.vaParams _ _ _ (by carry)) fun _ c6 h6 _ =>
      KTy.bind (KTy.getOrCreateFunc hD _ (by simp [isIntrinsic])) fun g c7 h7 hg => KTy.bind (KTy.intrinsic _ _ _ (by simp [isIntrinsic]) hD hg (by carry)) fun _ c8 h8 _ => KTy.pure _ (fun _ _ => trivial)

theorem FuncRun.typed' {f : Name} {ps : List Name} {b : St} {c : CState} {bs : List Block} (hD : DOk D R) (r : FuncRun f ps b c bs) (hb : CIn R b.calls)
    (hx : ∀ x v, lookup x r.c1.ctx = some v → IsVar v) (hf : ∀ x v, lookup x r.c1.functions = some v → IsFn D x v)
    (hF : ∀ F ∈ r.c1.funcs, D F.sym F.variadic F.params.length) (hg : NoBytes r.c1) :
    (∀ B ∈ bs, (∀ p ∈ B.insts, Inst.Typed (RegType bs) p.2 ∧ CallOk D R (RegType bs) p.2) ∧ ∀ t, B.term = some t → Term.Typed (RegType bs) t) ∧
    NoBytes r.c3 ∧ ∀ F ∈ r.c3.funcs, D F.sym F.variadic F.params.length := by
  have f0 : TInv D R (entered (defFunc f ps) r.c1) := by
    refine ⟨?_, by simp [entered], ?_, ?_, hx, hf, hF, hg⟩
    · intro B hB
      simp [entered] at hB; subst hB; simp
    · intro l j hj; simp [entered, lookup] at hj
    · intro l j hj; simp [entered, lookup] at hj
  obtain ⟨f1, _, _⟩ := KTy.paramCode hD ps _ _ _ r.entry f0 (.refl _)
  obtain ⟨f2, _, _⟩ := KTy.genSt hD b hb _ _ _ _ _ _ r.body f1 (.refl _)
  refine ⟨?_, f2.globals, f2.funcs⟩
  rw [r.blocks]
  unfold closed
  split
  · obtain ⟨f3, _⟩ := KTy.setTerm (c0 := r.c3) (.ret (.const 0)) (fun _ _ => rfl) _ _ _ (setTerm_eq _ _) f2 (.refl _)
    exact f3.code
  · exact f2.code

end
end

theorem FuncRun.typed {f : Name} {ps : List Name} {b : St} {c : CState} {bs : List Block} (r : FuncRun f ps b c bs) 
    (hx : ∀ x v, lookup x r.c1.ctx = some v → IsVar v) (hf : ∀ x v, lookup x r.c1.functions = some v → IsFn (fun _ _ _ => True) x v) (hg : NoBytes r.c1) :
    CodeTyped bs ∧ NoBytes r.c3 := by
  obtain ⟨h1, h2, _⟩ := r.typed' (D := fun _ _ _ => True) (R := fun _ _ => True) ⟨fun _ => trivial, fun _ _ => ⟨trivial, trivial⟩⟩ (fun _ _ => trivial) hx hf (fun _ _ => trivial) hg
  exact ⟨fun B hB => ⟨fun p hp => ((h1 B hB).1 p hp).1, (h1 B hB).2⟩, h2⟩

theorem NoBytes.sub {c c' : CState} (h : NoBytes c) (hs : ∀ g ∈ c'.globals, g ∈ c.globals) : NoBytes c' := fun g hg => h g (hs g hg)

theorem NoBytes.add {c : CState} (h : NoBytes c) {g : GlobalDef} (hg : ∀ x, g.sym = globalName x → IsVar g.val) : NoBytes (newGlobalDef c g) := by
  intro g' hg' x hx
  have hg' : g' ∈ c.globals ++ [g] := hg'
  rcases List.mem_append.1 hg' with hm | hm
  · exact h g' hm x hx
  · simp at hm; subst hm; exact hg x hx

theorem genIvals_noBytes {vs : List Ival} {c c' : CState} {ks : List Const} (h : genIvals vs c = .ok ks c') (hc : NoBytes c) : NoBytes c' := by
  induction vs generalizing c ks with
  | nil => simp [genIvals] at h; obtain ⟨_, rfl⟩ := h; exact hc
  | cons v vs ih =>
    simp only [genIvals] at h
    obind h k c1 h1
    obind h ks' c2 h2
    simp at h; obtain ⟨_, rfl⟩ := h
    refine ih h2 ?_
    cases v with
    | int v => simp [genIval] at h1; obtain ⟨_, rfl⟩ := h1; exact hc
    | str s =>
      simp only [genIval] at h1
      obind h1 g c3 h3
      simp at h1; obtain ⟨_, rfl⟩ := h1
      cases h3
      exact hc.add (g := ⟨strSym c.stringID, _, true⟩) fun x hx => absurd hx.symm (globalName_ne_str x _)

theorem genDecl_noBytes {d : Decl} {c c' : CState} (hn : d.All NameOk) (hx : c.ctx = []) (hf : c.functions = []) (hc : NoBytes c) (h : genDecl d c = .ok () c') : NoBytes c' := by
  cases d with
  | global x vals =>
    obtain ⟨ks, c2, k1, e⟩ := genDecl_global h
    subst e
    have h2 := genIvals_noBytes k1 (hc.sub fun g hg => List.mem_of_mem_eraseP hg)
    exact h2.add fun y _ => ⟨_, by
      unfold GlobalDef.val valsInit; split
      · exact .inl rfl
      · exact .inl rfl
      · exact .inr ⟨_, rfl⟩⟩
  | vector x n vals =>
    obtain ⟨ks, c2, c3, g', k1, k3, e⟩ := genDecl_vector h
    subst e
    have h2 := genIvals_noBytes k1 (hc.sub fun g hg => List.mem_of_mem_eraseP hg)
    cases k3 with
    | separate _ _ e e' =>
      subst e e'
      exact (h2.add fun y _ => ⟨_, .inr ⟨_, rfl⟩⟩).add fun y _ => ⟨_, .inr ⟨_, rfl⟩⟩
    | inline _ _ _ e e' =>
      subst e e'
      exact h2.add fun y _ => ⟨_, .inr ⟨_, rfl⟩⟩
  | func f ps b =>
    obtain ⟨bs, r, rfl⟩ := genDecl_func hf h
    have := (r.typed (by rw [r.c1_eq]; intro x v hv; simp [hx, lookup] at hv) (by
      rw [r.c1_eq]
      intro x v hv
      rcases lookup_insert_or' hv with ⟨rfl, rfl⟩ | hv
      · exact ⟨_, _, rfl, trivial⟩
      · simp [hf, lookup] at hv) (by rw [r.c1_eq]; exact hc)).2
    exact this

theorem Between.noBytes {p : Program} {c c' : CState} (h : Between p c c') (hn : ∀ d ∈ p, d.All NameOk) (hx : c.ctx = []) (hf : c.functions = []) (hc : NoBytes c) : NoBytes c' := by
  induction h with
  | nil => exact hc
  | cons h1 _ ih => exact ih (fun d h => hn d (by simp [h])) rfl rfl (show NoBytes _ from fun g => genDecl_noBytes (hn _ List.mem_cons_self) hx hf hc h1 g)

/-- the code of every function is well typed -/
theorem Source.typed {p : Program} {f : Ident} {ps : List Ident} {b : St} {F : Func} (s : Source p newCompiler f ps b F)
    (hn : ∀ d ∈ p, d.All NameOk) : CodeTyped F.blocks := by
  obtain ⟨c, ⟨r⟩, x1, x2, q, hq, hs⟩ := s.run
  refine (r.typed ?_ ?_ ?_).1
  · rw [r.c1_eq]; intro x v hv; simp [x1, lookup] at hv
  · rw [r.c1_eq]; intro x v hv
    rcases lookup_insert_or' hv with ⟨rfl, rfl⟩ | hv
    · exact ⟨_, _, rfl, trivial⟩
    · simp [x2, lookup] at hv
  · rw [r.c1_eq]; exact hq.noBytes (fun d hd => hn d (hs d hd)) rfl rfl (by intro g hg; cases hg)

/-! ### numbers of arguments -/

/-- the functions that the compiler may know while it compiles `p` -/
def KnownFn (p : Program) (s : Name) (v : Bool) (n : Nat) : Prop :=
  (isIntrinsic s = true ∧ v = false ∧ n = 1) ∨
  ∃ x, s = globalName x ∧ ((v = true ∧ n = 0) ∨ ∃ ps b, Decl.func x ps b ∈ p ∧ n = (ps.take 1).length ∧ v = decide (ps ≠ []))

/-- the calls that the program makes -/
def ProgCalls (p : Program) (s : Name) (k : Nat) : Prop := (isIntrinsic s = true ∧ k = 1) ∨ ∃ x, s = globalName x ∧ (x, k) ∈ p.calls

theorem KnownFn.ok (p : Program) : DOk (KnownFn p) (ProgCalls p) := ⟨fun x => .inr ⟨x, rfl, .inl ⟨rfl, rfl⟩⟩, fun s hs => ⟨.inl ⟨hs, rfl, rfl⟩, .inl ⟨hs, rfl⟩⟩⟩

theorem ProgCalls.body {p : Program} {f : Ident} {ps : List Ident} {b : St} (h : Decl.func f ps b ∈ p) : CIn (ProgCalls p) b.calls :=
  fun q hq => .inr ⟨q.1, rfl, List.mem_flatMap.2 ⟨_, h, hq⟩⟩

theorem KnownFn.takes {p : Program} {s : Name} {v : Bool} {n k : Nat} (h1 : KnownFn p s v n) (h2 : ProgCalls p s k) :
    Takes n v k ∨ ∃ f ps b, Decl.func f ps b ∈ p ∧ s = globalName f ∧ (f, k) ∈ p.calls ∧ ¬ (ps = [] ↔ k = 0) := by
  unfold Takes
  rcases h1 with ⟨hs, rfl, rfl⟩ | ⟨x, rfl, h1⟩
  · rcases h2 with ⟨_, rfl⟩ | ⟨x, rfl, _⟩
    · exact .inl rfl
    · rw [intrinsic_ne] at hs; cases hs
  · rcases h2 with ⟨h, _⟩ | ⟨y, e, h2⟩
    · rw [intrinsic_ne] at h; cases h
    · cases globalName_inj e
      rcases h1 with ⟨rfl, rfl⟩ | ⟨ps, b, hd, rfl, rfl⟩
      · simp
      · by_cases hp : ps = [] ↔ k = 0
        · left
          cases ps with
          | nil => simp at hp; simp [hp]
          | cons a ps => simp at hp; simp; omega
        · exact .inr ⟨x, ps, b, hd, rfl, h2, hp⟩

theorem genIvals_funcs {vs : List Ival} {c c' : CState} {ks : List Const} (h : genIvals vs c = .ok ks c') : c'.funcs = c.funcs := (genIvals_grow h).1

theorem genDecl_known {p : Program} {d : Decl} {c c' : CState} (hd : d ∈ p) (hx : c.ctx = []) (hf : c.functions = []) (hc : NoBytes c)
    (hk : ∀ F ∈ c.funcs, KnownFn p F.sym F.variadic F.params.length) (h : genDecl d c = .ok () c') : ∀ F ∈ c'.funcs, KnownFn p F.sym F.variadic F.params.length := by
  cases d with
  | global x vals =>
    obtain ⟨ks, c2, k1, e⟩ := genDecl_global h
    subst e
    have := genIvals_funcs k1
    intro F hF
    have hF : F ∈ c2.funcs := hF
    rw [this] at hF; exact hk F hF
  | vector x n vals =>
    obtain ⟨ks, c2, c3, g', k1, k3, e⟩ := genDecl_vector h
    subst e
    have := genIvals_funcs k1
    intro F hF
    have hF : F ∈ c3.funcs := hF
    cases k3 with
    | separate _ _ e _ => subst e; have hF : F ∈ c2.funcs := hF; rw [this] at hF; exact hk F hF
    | inline _ _ _ e _ => subst e; rw [this] at hF; exact hk F hF
  | func f ps b =>
    obtain ⟨bs, r, rfl⟩ := genDecl_func hf h
    have := (r.typed' (KnownFn.ok p) (ProgCalls.body hd) (by rw [r.c1_eq]; intro x v hv; simp [hx, lookup] at hv) (by
      rw [r.c1_eq]
      intro x v hv
      rcases lookup_insert_or' hv with ⟨rfl, rfl⟩ | hv
      · exact ⟨_, _, rfl, .inr ⟨_, rfl, .inr ⟨ps, b, hd, rfl, rfl⟩⟩⟩
      · simp [hf, lookup] at hv) (by
      rw [r.c1_eq]
      intro F hF
      have hF : F ∈ c.funcs.eraseP _ ++ [_] := hF
      rcases List.mem_append.1 hF with hF | hF
      · exact hk F (List.mem_of_mem_eraseP hF)
      · simp at hF; subst hF
        exact .inr ⟨_, rfl, .inr ⟨ps, b, hd, rfl, rfl⟩⟩) (by rw [r.c1_eq]; exact hc)).2.2
    intro F hF
    have hF : F ∈ r.c3.funcs.map fun g => if g.sym = r.c3.curSym then { g with blocks := bs } else g := hF
    rw [List.mem_map] at hF
    obtain ⟨g, hg, e⟩ := hF
    have h2 := this g hg
    split at e <;> (subst e; exact h2)

theorem Between.known {p q : Program} {c c' : CState} (h : Between q c c') (hq : ∀ d ∈ q, d ∈ p) (hn : ∀ d ∈ p, d.All NameOk) (hx : c.ctx = []) (hf : c.functions = [])
    (hc : NoBytes c) (hk : ∀ F ∈ c.funcs, KnownFn p F.sym F.variadic F.params.length) : ∀ F ∈ c'.funcs, KnownFn p F.sym F.variadic F.params.length := by
  induction h with
  | nil => exact hk
  | cons h1 _ ih =>
    exact ih (fun d h => hq d (by simp [h])) rfl rfl (show NoBytes _ from fun g => genDecl_noBytes (hn _ (hq _ List.mem_cons_self)) hx hf hc h1 g)
      (fun F hF => genDecl_known (hq _ List.mem_cons_self) hx hf hc hk h1 F hF)

/-- calls pass the number of arguments that is demanded -/
theorem Source.arity {p : Program} {f : Ident} {ps : List Ident} {b : St} {F : Func} (s : Source p newCompiler f ps b F) (hd : Decl.func f ps b ∈ p)
    (hn : ∀ d ∈ p, d.All NameOk) : ∀ B ∈ F.blocks, ∀ q ∈ B.insts, Inst.ArityOk (RegType F.blocks) q.2 ∨
      ∃ f ps b v n as, Decl.func f ps b ∈ p ∧ q.2 = .call (.func (globalName f) v n) as ∧ (f, as.length) ∈ p.calls ∧ ¬ (ps = [] ↔ as.length = 0) := by
  obtain ⟨c, ⟨r⟩, x1, x2, q, hq, hs⟩ := s.run
  have h := (r.typed' (KnownFn.ok p) (ProgCalls.body hd) (by rw [r.c1_eq]; intro x v hv; simp [x1, lookup] at hv) (by
      rw [r.c1_eq]
      intro x v hv
      rcases lookup_insert_or' hv with ⟨rfl, rfl⟩ | hv
      · exact ⟨_, _, rfl, .inr ⟨_, rfl, .inr ⟨ps, b, hd, rfl, rfl⟩⟩⟩
      · simp [x2, lookup] at hv) (by
      rw [r.c1_eq]
      intro F hF
      have hF : F ∈ c.funcs.eraseP _ ++ [_] := hF
      rcases List.mem_append.1 hF with hF | hF
      · exact hq.known hs hn rfl rfl (by intro g hg; cases hg) (by intro g hg; cases hg) F (List.mem_of_mem_eraseP hF)
      · simp at hF; subst hF
        exact .inr ⟨_, rfl, .inr ⟨ps, b, hd, rfl, rfl⟩⟩) (by rw [r.c1_eq]; exact hq.noBytes (fun d hd => hn d (hs d hd)) rfl rfl (by intro g hg; cases hg))).1
  intro B hB ⟨k, i⟩ hi
  have := ((h B hB).1 _ hi).2
  cases i with
  | call f as =>
    cases f with
    | func s v n =>
      rcases KnownFn.takes this.1 this.2 with h | ⟨f, ps, b, h1, rfl, h2, h3⟩
      · exact .inl ⟨n, v, rfl, h⟩
      · exact .inr ⟨f, ps, b, v, n, as, h1, rfl, h2, h3⟩
    | _ => exact .inl this
  | _ => exact .inl trivial

end Blang
