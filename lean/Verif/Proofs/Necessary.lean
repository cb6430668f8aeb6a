import Verif.Proofs.DeclaredSt
import Verif.Proofs.SimFun
/-
Definite declaration is necessary: where the text can use a variable before it is declared, so can the code.

Both ways of every branch are paths through the code, so a path to the beginning of a piece of code extends to every place in it.
-/
namespace Blang
open Spec

/-- a path leads to the end of what has been generated in the current block -/
def To (bs : List Block) (done : List Nat) (c : CState) : Prop := ∃ B : Block, c.blocks[c.cur]? = some B ∧ Path bs done c.cur B.insts.length

/-- what is new was numbered in between -/
def Newer (c c' : CState) (done done' : List Nat) : Prop := ∀ r ∈ done', r ∈ done ∨ c.nextReg ≤ r ∧ r < c'.nextReg

theorem Newer.refl {c c' : CState} {done : List Nat} : Newer c c' done done := fun _ h => .inl h

theorem Newer.trans {a b c : CState} {d1 d2 d3 : List Nat} (h1 : Newer a b d1 d2) (h2 : Newer b c d2 d3) (r1 : a.nextReg ≤ b.nextReg)
    (r2 : b.nextReg ≤ c.nextReg) : Newer a c d1 d3 := by
  intro r hr
  rcases h2 r hr with h | ⟨x, y⟩
  · rcases h1 r h with h | ⟨x, y⟩
    · exact .inl h
    · exact .inr ⟨x, by omega⟩
  · exact .inr ⟨by omega, y⟩

/-- the path extends to an instruction that uses the value -/
def Used (bs : List Block) (c c' : CState) (done : List Nat) (u : Val) : Prop :=
  ∃ done' i k B r inst, Newer c c' done done' ∧ Path bs done' i k ∧ bs[i]? = some B ∧ B.insts[k]? = some (r, inst) ∧ ¬ Inst.isPhi inst ∧
    u ∈ Inst.operands inst

theorem Used.after {bs : List Block} {a b c : CState} {d1 d2 : List Nat} {u : Val} (h : Used bs b c d2 u) (h1 : Newer a b d1 d2)
    (r1 : a.nextReg ≤ b.nextReg) (r2 : b.nextReg ≤ c.nextReg) : Used bs a c d1 u := by
  obtain ⟨d, i, k, B, r, inst, h2, h3⟩ := h
  exact ⟨d, i, k, B, r, inst, h1.trans h2 r1 r2, h3⟩

theorem Used.before {bs : List Block} {a b c : CState} {d1 : List Nat} {u : Val} (h : Used bs a b d1 u) (r2 : b.nextReg ≤ c.nextReg) : Used bs a c d1 u := by
  obtain ⟨d, i, k, B, r, inst, h2, h3⟩ := h
  refine ⟨d, i, k, B, r, inst, fun x hx => (h2 x hx).imp id fun ⟨p, q⟩ => ⟨p, by omega⟩, h3⟩

theorem Start.to {bs : List Block} {done : List Nat} {c : CState} (h : Start c) : To bs done c ↔ Path bs done c.cur 0 := by
  obtain ⟨b, h1, _, h3⟩ := h
  constructor
  · rintro ⟨B, hB, hp⟩
    rw [h1] at hB; cases hB
    rw [h3] at hp; exact hp
  · intro hp
    exact ⟨b, h1, by rw [h3]; exact hp⟩

section
variable {bs : List Block} {c c' : CState} {done : List Nat}

theorem To.emit {i : Inst} (h : To bs done c) (he : Ext (emitted c i).blocks bs) : To bs (c.nextReg :: done) (emitted c i) ∧
    ∃ k B, Path bs done c.cur k ∧ bs[c.cur]? = some B ∧ B.insts[k]? = some (c.nextReg, i) := by
  obtain ⟨B, hB, hp⟩ := h
  have hB' : (emitted c i).blocks[c.cur]? = some { B with insts := B.insts ++ [(c.nextReg, i)] } := by
    show (c.blocks.modify c.cur _)[c.cur]? = _
    rw [List.getElem?_modify]; simp [hB]
  obtain ⟨B2, h2, e2⟩ := he _ _ hB'
  have hk : B2.insts[B.insts.length]? = some (c.nextReg, i) := by
    obtain ⟨t, ht⟩ := e2.insts
    rw [← ht]; simp
  refine ⟨⟨_, hB', ?_⟩, _, B2, hp, h2, hk⟩
  simp only [List.length_append, List.length_cons, List.length_nil]
  exact .step hp h2 hk

theorem To.term {t : Term} (h : To bs done c) (he : Ext (withTerm c t).blocks bs) {j : Nat} (hj : j ∈ Term.targets t) : Path bs done j 0 := by
  obtain ⟨B, hB, hp⟩ := h
  obtain ⟨B2, h2, e2⟩ := he _ _ (withTerm_at hB t)
  have e := e2.closed (by simp)
  subst e
  exact .jump (B := { B with term := some t }) hp h2 rfl hj

theorem To.withTerm {t : Term} : To bs done (withTerm c t) ↔ To bs done c := by
  constructor
  · rintro ⟨B, hB, hp⟩
    cases h : c.blocks[c.cur]? with
    | none =>
      have : (Blang.withTerm c t).blocks[(Blang.withTerm c t).cur]? = none := by
        show (c.blocks.modify c.cur _)[c.cur]? = _
        rw [List.getElem?_modify]; simp [h]
      rw [this] at hB; cases hB
    | some B' =>
      have e := withTerm_at h t
      have hB' : (Blang.withTerm c t).blocks[c.cur]? = some B := hB
      rw [e] at hB'; cases hB'
      exact ⟨B', h, hp⟩
  · rintro ⟨B, hB, hp⟩
    exact ⟨_, withTerm_at hB t, hp⟩
end

/-- From where `c` stands, `f` can be passed; on the way each value of `U` is used, or else left in the result. -/
def XP (bs : List Block) (c : CState) (U : Val → Prop) {α : Type} (f : B α) (pend : α → Val → Prop) : Prop :=
  ∀ a c', f c = .ok a c' → Open c → EInv c c' ∧ c.nextReg ≤ c'.nextReg ∧ c'.locals = c.locals ∧
    (Ext c'.blocks bs → ∀ done, To bs done c → (∃ done', To bs done' c' ∧ Newer c c' done done') ∧ ∀ u, U u → pend a u ∨ Used bs c c' done u)

section
variable {bs : List Block} {α β : Type} {c : CState} {U U1 U2 : Val → Prop}

theorem XP.pure (a : α) {p : α → Val → Prop} (h : ∀ u, U u → p a u) : XP bs c U (pure a : B α) p := by
  intro b c' hc ho
  simp at hc; obtain ⟨rfl, rfl⟩ := hc
  exact ⟨.refl ho, Nat.le_refl _, rfl, fun _ d hd => ⟨⟨d, hd, .refl⟩, fun u hu => .inl (h u hu)⟩⟩

theorem XP.fail {s : String} {p : α → Val → Prop} : XP bs c U (bfail s : B α) p := by intro b c' h; cases h

theorem XP.bind {f : B α} {k : α → B β} {p : α → Val → Prop} {q : β → Val → Prop} (hf : XP bs c U1 f p)
    (hk : ∀ a c1, c1.locals = c.locals → XP bs c1 (fun u => p a u ∨ U2 u) (k a) q) (hU : ∀ u, U u → U1 u ∨ U2 u) : XP bs c U (f >>= k) q := by
  intro b c' hc ho
  obind hc a c1 h1
  obtain ⟨e1, r1, l1, t1⟩ := hf a c1 h1 ho
  obtain ⟨e2, r2, l2, t2⟩ := hk a c1 l1 b c' hc e1.opn
  refine ⟨e1.trans e2, Nat.le_trans r1 r2, l2.trans l1, fun he d hd => ?_⟩
  obtain ⟨⟨d1, hd1, n1⟩, u1⟩ := t1 (e2.ext.trans he) d hd
  obtain ⟨⟨d2, hd2, n2⟩, u2⟩ := t2 he d1 hd1
  refine ⟨⟨d2, hd2, n1.trans n2 r1 r2⟩, fun u hu => ?_⟩
  rcases hU u hu with hu | hu
  · rcases u1 u hu with h | h
    · exact (u2 u (.inl h)).imp id fun h => h.after n1 r1 r2
    · exact .inr (h.before r2)
  · exact (u2 u (.inr hu)).imp id fun h => h.after n1 r1 r2

theorem XP.ite {p : Prop} [Decidable p] {f k : B α} {q : α → Val → Prop} (hf : p → XP bs c U f q) (hg : ¬ p → XP bs c U k q) :
    XP bs c U (if p then f else k) q := by
  split
  · exact hf ‹_›
  · exact hg ‹_›

theorem XP.get {k : CState → B β} {q : β → Val → Prop} (h : XP bs c U (k c) q) : XP bs c U ((M.get : B CState) >>= k) q := by
  intro b c' hc ho
  rw [Blang.M.bind_ok (M.get_apply _)] at hc
  exact h b c' hc ho

/-- only tables change -/
theorem XP.tables {f : B α} {p : α → Val → Prop} (h : ∀ a c', f c = .ok a c' → c'.blocks = c.blocks ∧ c'.cur = c.cur ∧ c'.nextReg = c.nextReg ∧ c'.locals = c.locals ∧
    ∀ u, U u → p a u) : XP bs c U f p := by
  intro a c' hc ho
  obtain ⟨h1, h2, h3, h4, h5⟩ := h a c' hc
  refine ⟨.of_eq ho h1 h2, by omega, h4, fun _ d hd => ⟨⟨d, ?_, .refl⟩, fun u hu => .inl (h5 u hu)⟩⟩
  unfold To; rw [h1, h2]; exact hd

theorem XP.emit (i : Inst) {p : Val → Val → Prop} (h : ∀ u, U u → u ∈ Inst.operands i ∧ ¬ Inst.isPhi i) : XP bs c U (emit i) p := by
  intro a c' hc ho
  refine ⟨KE.emit i _ _ _ hc ho, by rw [(emit_blocks hc).2.2.2]; omega, emit_locals hc, fun he d hd => ?_⟩
  rw [emit_eq] at hc; cases hc
  obtain ⟨h1, k, B, h2, h3, h4⟩ := hd.emit he
  refine ⟨⟨_, h1, fun r hr => ?_⟩, fun u hu => .inr ⟨d, _, k, B, _, i, .refl, h2, h3, h4, (h u hu).2, (h u hu).1⟩⟩
  rcases List.mem_cons.1 hr with rfl | hr
  · exact .inr ⟨Nat.le_refl _, Nat.lt_succ_self _⟩
  · exact .inl hr

/-- nothing to use -/
theorem XP.emit0 (i : Inst) {p : Val → Val → Prop} (h : ∀ u, ¬ U u) : XP bs c U (Blang.emit i) p := .emit i fun u hu => absurd hu (h u)

/-! ### expressions -/

/-- the value is left in an lvalue -/
def LeftL (v : LV) (u : Val) : Prop := v = (u, true)
/-- nothing is left -/
def None' {α : Type} (_ : α) (_ : Val) : Prop := False

theorem XP.rval (v : LV) (h : ∀ u, U u → LeftL v u) : XP bs c U (rval v) None' := by
  refine XP.ite (fun _ => XP.emit _ fun u hu => ?_) (fun hn => XP.pure _ fun u hu => ?_)
  · rw [h u hu]; exact ⟨List.mem_singleton_self _, id⟩
  · rw [h u hu] at hn; exact absurd rfl hn

theorem XP.needLval (v : LV) (h : ∀ u, U u → LeftL v u) : XP bs c U (needLval v) (fun a u => a = u) :=
  XP.ite (fun _ => XP.pure _ fun u hu => by rw [h u hu]) (fun _ => XP.fail)

/-- code with nothing to use: from a version with no uses -/
theorem XP.none {f : B α} {p : α → Val → Prop} (h : XP bs c (fun _ => False) f p) (hU : ∀ u, ¬ U u) : XP bs c U f p := by
  intro a c' hc ho
  obtain ⟨e, r, l, t⟩ := h a c' hc ho
  exact ⟨e, r, l, fun he d hd => ⟨(t he d hd).1, fun u hu => absurd hu (hU u)⟩⟩

theorem XP.imp {f : B α} {p q : α → Val → Prop} (h : XP bs c U1 f p) (hU : ∀ u, U u → U1 u) (hq : ∀ a u, p a u → q a u) : XP bs c U f q := by
  intro a c' hc ho
  obtain ⟨e, r, l, t⟩ := h a c' hc ho
  exact ⟨e, r, l, fun he d hd => ⟨(t he d hd).1, fun u hu => ((t he d hd).2 u (hU u hu)).imp (hq a u) id⟩⟩

/-- two steps, where only the first uses -/
theorem XP.first {f : B α} {k : α → B β} {p : α → Val → Prop} {q : β → Val → Prop} (hf : XP bs c U f p)
    (hk : ∀ a c1, c1.locals = c.locals → XP bs c1 (p a) (k a) q) : XP bs c U (f >>= k) q :=
  XP.bind (U1 := U) (U2 := fun _ => False) hf (fun a c1 h => (hk a c1 h).imp (fun u h => h.resolve_right id) fun _ _ h => h) fun _ h => .inl h

/-- two steps, where only the second uses -/
theorem XP.second {f : B α} {k : α → B β} {q : β → Val → Prop} (hf : XP bs c (fun _ => False) f None')
    (hk : ∀ a c1, c1.locals = c.locals → XP bs c1 U (k a) q) : XP bs c U (f >>= k) q :=
  XP.bind (U1 := fun _ => False) (U2 := U) hf (fun a c1 h => (hk a c1 h).imp (fun u h => h.resolve_left id) fun _ _ h => h) fun _ h => .inr h

abbrev NoU : Val → Prop := fun _ => False

theorem XP.e (i : Inst) : XP bs c NoU (Blang.emit i) None' := .emit0 i fun _ h => h

theorem XP.cmpOp (p : Pred) (x y : Val) : XP bs c NoU (cmpOp p x y) None' := XP.second (.e _) fun _ _ _ => .e _

theorem XP.genOp (o : Op) (x y : Val) : XP bs c NoU (genOp o x y) None' := by
  cases o
  · exact .e _
  · exact .cmpOp _ _ _

theorem XP.genCall (f : Val) (as : List Val) : XP bs c NoU (genCall f as) None' := by
  unfold Blang.genCall
  split
  · exact XP.ite (fun _ => XP.second (.e _) fun _ _ _ => .e _) (fun _ => .e _)
  · exact XP.second (.e _) fun _ _ _ => .e _

theorem XP.genStr (s : List Char) : XP bs c NoU (genStr s) None' :=
  XP.second (XP.tables fun a c' h => by cases h; exact ⟨rfl, rfl, rfl, rfl, nofun⟩) fun _ _ _ => XP.second (.e _) fun _ _ _ => .e _

theorem XP.genPostfix (o : BinOp) (v : Val) (h : ∀ u, U u → v = u) : XP bs c U (genPostfix o v) None' :=
  XP.first (p := None') (.emit _ fun u hu => by rw [h u hu]; exact ⟨List.mem_singleton_self _, id⟩) fun _ _ _ =>
    XP.first (p := None') (.e _) fun _ _ _ => XP.first (p := None') (.e _) fun _ _ _ => XP.pure _ fun _ h => h

theorem XP.genPrefix (o : BinOp) (v : Val) (h : ∀ u, U u → v = u) : XP bs c U (genPrefix o v) None' :=
  XP.first (p := None') (.emit _ fun u hu => by rw [h u hu]; exact ⟨List.mem_singleton_self _, id⟩) fun _ _ _ =>
    XP.first (p := None') (.e _) fun _ _ _ => XP.first (p := None') (.e _) fun _ _ _ => XP.pure _ fun _ h => h

theorem XP.genAssign (o : Option Op) (l r : Val) (h : ∀ u, U u → l = u) : XP bs c U (genAssign o l r) None' := by
  unfold Blang.genAssign
  split
  · exact XP.first (p := None') (.emit _ fun u hu => by rw [h u hu]; exact ⟨List.mem_singleton_self _, id⟩) fun _ _ _ =>
      XP.first (p := None') (.genOp _ _ _) fun _ _ _ => XP.first (p := None') (.e _) fun _ _ _ => XP.pure _ fun _ h => h
  · exact XP.first (p := None') (.emit _ fun u hu => by rw [h u hu]; exact ⟨by simp [Inst.operands], id⟩) fun _ _ _ => XP.pure _ fun _ h => h

theorem XP.getOrDeclareFunction (x : Name) : XP bs c NoU (getOrDeclareFunction x) None' :=
  XP.tables fun v c' hc => by
    unfold Blang.getOrDeclareFunction at hc
    cases hl : lookup x c.functions with
    | some f => rw [hl] at hc; cases hc; exact ⟨rfl, rfl, rfl, rfl, nofun⟩
    | none =>
      rw [hl] at hc
      cases hx : lookup x c.ctx with
      | some _ => rw [hx] at hc; cases hc; exact ⟨rfl, rfl, rfl, rfl, nofun⟩
      | none => rw [hx] at hc; cases hc; exact ⟨rfl, rfl, rfl, rfl, nofun⟩

theorem XP.getAddress (x : Name) : XP bs c (fun u => lookup x c.locals = some u) (getAddress x) (fun r u => r = some u) := by
  refine XP.get ?_
  cases hl : lookup x c.locals with
  | some v => exact XP.pure _ fun u hu => hu
  | none =>
    refine XP.none ?_ (fun u hu => by cases hu)
    cases hx : lookup x c.ctx with
    | none => exact XP.pure _ fun _ h => h.elim
    | some v =>
      cases v with
      | glob s t =>
        cases t with
        | i64 => exact XP.pure _ fun _ h => h.elim
        | arr n => exact XP.second (.e _) fun _ _ _ => XP.pure _ fun _ h => h.elim
        | bytes n => exact XP.second (.e _) fun _ _ _ => XP.pure _ fun _ h => h.elim
      | _ => exact XP.pure _ fun _ h => h.elim

theorem XP.genVar (x : Name) : XP bs c (fun u => lookup x c.locals = some u) (genVar x) LeftL := by
  refine XP.first (XP.getAddress x) fun r c1 h1 => ?_
  cases r with
  | some a => exact XP.pure _ fun u hu => by cases hu; rfl
  | none =>
    refine XP.none ?_ (fun u hu => by cases hu)
    refine XP.get ?_
    cases hx : findFuncByName c1 x with
    | some fn => exact XP.second (.e _) fun _ _ _ => XP.pure _ fun _ h => h.elim
    | none =>
      refine XP.second (XP.getOrDeclareFunction x) fun r c2 h2 => ?_
      cases r with
      | some fn => exact XP.second (.e _) fun _ _ _ => XP.pure _ fun _ h => h.elim
      | none => exact XP.fail

theorem XP.genCallee (x : Name) : XP bs c NoU (genCallee x) LeftL := by
  refine XP.get ?_
  cases hx : findFuncByName c x with
  | some fn => exact XP.pure _ fun _ h => h.elim
  | none =>
    cases hx : lookup x c.ctx with
    | some v => exact XP.pure _ fun _ h => h.elim
    | none =>
      refine XP.second (XP.getOrDeclareFunction x) fun r c2 h2 => ?_
      cases r with
      | some fn => exact XP.pure _ fun _ h => h.elim
      | none => exact XP.fail

theorem XP.genNot (v : LV) (h : ∀ u, U u → LeftL v u) : XP bs c U (genNot v) None' :=
  XP.first (.rval v h) fun _ _ _ => .cmpOp _ _ _
theorem XP.genNeg (v : LV) (h : ∀ u, U u → LeftL v u) : XP bs c U (genNeg v) None' :=
  XP.first (.rval v h) fun _ _ _ => .e _
theorem XP.genDeref (v : LV) (h : ∀ u, U u → LeftL v u) : XP bs c U (genDeref v) None' :=
  XP.first (.rval v h) fun _ _ _ => .e _

/-- the addresses of the names -/
def Adr (xs : List Ident) (c : CState) (u : Val) : Prop := ∃ x ∈ xs, lookup x c.locals = some u

theorem Adr.app {xs ys : List Ident} {u : Val} (h : Adr (xs ++ ys) c u) : Adr xs c u ∨ Adr ys c u := by
  obtain ⟨x, hx, hl⟩ := h
  rcases List.mem_append.1 hx with h | h
  · exact .inl ⟨x, h, hl⟩
  · exact .inr ⟨x, h, hl⟩

theorem Adr.at {xs : List Ident} {c1 : CState} (h : c1.locals = c.locals) {u : Val} : Adr xs c u → Adr xs c1 u := by
  rintro ⟨x, hx, hl⟩; exact ⟨x, hx, by rw [h]; exact hl⟩

/-- pass, with a bound for what is left afterwards -/
theorem XP.seq2 {xs ys : List Ident} {f : B α} {k : α → B β} {p : α → Val → Prop} {q : β → Val → Prop} (hf : XP bs c (Adr xs c) f p)
    (hk : ∀ a c1, c1.locals = c.locals → XP bs c1 (fun u => p a u ∨ Adr ys c1 u) (k a) q) : XP bs c (Adr (xs ++ ys) c) (f >>= k) q :=
  XP.bind (U2 := Adr ys c) hf (fun a c1 h => (hk a c1 h).imp (fun u h' => h'.imp id (Adr.at h)) fun _ _ h => h) fun _ h => h.app

theorem XP.load {ys : List Ident} {v : LV} {k : Val → B β} {q : β → Val → Prop} (hk : ∀ a c1, c1.locals = c.locals → XP bs c1 (Adr ys c1) (k a) q) :
    XP bs c (fun u => LeftL v u ∨ Adr ys c u) (Blang.rval v >>= k) q :=
  XP.bind (U1 := LeftL v) (U2 := Adr ys c) (.rval v fun _ h => h)
    (fun a c1 h => (hk a c1 h).imp (fun _ h' => Adr.at h (h'.resolve_left fun h => h)) fun _ _ h => h) fun _ h => h

theorem XP.on {ys : List Ident} {f : B α} {k : α → B β} {q : β → Val → Prop} (hf : XP bs c NoU f None')
    (hk : ∀ a c1, c1.locals = c.locals → XP bs c1 (Adr ys c1) (k a) q) : XP bs c (Adr ys c) (f >>= k) q :=
  XP.second hf fun a c1 h => (hk a c1 h).imp (fun _ => Adr.at h) fun _ _ h => h

theorem XP.done (a : α) {p : α → Val → Prop} : XP bs c NoU (Pure.pure a : B α) p := XP.pure _ fun _ h => h.elim

/-- the branch of a `?:` -/
theorem XP.cond {cn t e : Ex} (hc : ∀ c, XP bs c (Adr cn.vars c) (genL cn) LeftL) (ht : ∀ c, XP bs c (Adr t.vars c) (genL t) LeftL)
    (he : ∀ c, XP bs c (Adr e.vars c) (genL e) LeftL) (c : CState) : XP bs c (Adr (cn.vars ++ t.vars ++ e.vars) c) (genL (.cond cn t e)) LeftL := by
  intro v c' hg ho
  have R : ∀ (x : Ex), (∀ c, XP bs c (Adr x.vars c) (genL x) LeftL) → ∀ c, XP bs c (Adr x.vars c) (genL x >>= Blang.rval) None' :=
    fun x hx c => XP.first (hx c) fun v c1 _ => .rval v fun _ h => h
  have hK : KE (genL (.cond cn t e)) := KE.genL _
  have oc : ∀ cv c1 cond c2, genL cn c = .ok cv c1 → Blang.rval cv c1 = .ok cond c2 → Open c2 := by
    intro cv c1 cond c2 h1 h2
    exact (KE.rval _ _ _ _ h2 (KE.genL _ _ _ _ h1 ho).opn).opn
  obtain ⟨r, _, hv⟩ := condRun hg oc
  have cb := condBlocks (KE.genL cn) (KE.genL t) (KE.genL e) ho r
  obtain ⟨_, ra, la, ta⟩ := R cn hc c r.cond r.c2 (by rw [M.bind_ok r.h1]; exact r.h2) ho
  obtain ⟨fk, _⟩ := condStart_forked cb.e2.opn r.h3
  obtain ⟨_, rb, lb, tb⟩ := R t ht (goto' r.c3 r.c2.blocks.length) r.thenVal r.c5 (by rw [M.bind_ok r.h4]; exact r.h5) cb.start3.open
  obtain ⟨_, rc, lc, tc⟩ := R e he (goto' (withTerm r.c5 (.br (r.c2.blocks.length + 2))) (r.c2.blocks.length + 1)) r.elseVal r.c7
    (by rw [M.bind_ok r.h6]; exact r.h7) cb.start6.open
  have em := emit_blocks hv
  have r3 := fk.reg
  have rb' : r.c3.nextReg ≤ r.c5.nextReg := rb
  have rc' : r.c5.nextReg ≤ r.c7.nextReg := rc
  have r8 : c'.nextReg = r.c7.nextReg + 1 := em.2.2.2
  have lb' : r.c5.locals = r.c3.locals := lb
  have lc' : r.c7.locals = r.c5.locals := lc
  have l3 := fk.locals
  have l8 : c'.locals = r.c7.locals := (emit_locals hv :)
  refine ⟨hK _ _ _ hg ho, by omega, by rw [l8, lc', lb', l3, la], fun hx d hd => ?_⟩
  have x7 : Ext (withTerm r.c7 (.br (r.c2.blocks.length + 2))).blocks bs := cb.e'.ext.trans hx
  have x7' : Ext r.c7.blocks bs := (withTerm_ext cb.e7.opn _).trans x7
  have x5 : Ext (withTerm r.c5 (.br (r.c2.blocks.length + 2))).blocks bs := cb.e7.ext.trans x7'
  have x5' : Ext r.c5.blocks bs := (withTerm_ext cb.e5.opn _).trans x5
  have x3 : Ext r.c3.blocks bs := cb.e5.ext.trans x5'
  have x2 : Ext r.c2.blocks bs := (fk.ext cb.e2.opn).trans x3
  obtain ⟨⟨d2, hd2, n2⟩, u2⟩ := ta x2 d hd
  -- the branch
  obtain ⟨b, hb1, hb2⟩ := fk.blocks
  obtain ⟨B2, hB2, hp2⟩ := hd2
  rw [hb1] at hB2; cases hB2
  have hb3 := hb2 r.c2.cur
  rw [if_pos rfl] at hb3
  obtain ⟨B3, hB3, e3⟩ := x3 _ _ hb3
  have e3' := e3.closed (by simp)
  subst e3'
  have p3 : ∀ j, j = r.c2.blocks.length ∨ j = r.c2.blocks.length + 1 → Path bs (r.c2.nextReg :: d2) j 0 := by
    intro j hj
    have ps := Path.step hp2 hB3 (r := r.c2.nextReg) (inst := .icmp .ne r.cond (.const 0)) (by simp)
    refine .jump (B := _) (t := .condbr (.reg r.c2.nextReg) r.c2.blocks.length (r.c2.blocks.length + 1)) ?_ hB3 rfl (by simpa [Term.targets] using hj)
    simpa using ps
  have n3 : Newer c (goto' r.c3 r.c2.blocks.length) d (r.c2.nextReg :: d2) := by
    intro x hxm
    rcases List.mem_cons.1 hxm with rfl | hxm
    · exact .inr ⟨ra, by show r.c2.nextReg < r.c3.nextReg; omega⟩
    · rcases n2 x hxm with h | ⟨h1, h2⟩
      · exact .inl h
      · exact .inr ⟨h1, by show x < r.c3.nextReg; omega⟩
  obtain ⟨⟨d5, hd5, n5⟩, u5⟩ := tb x5' _ (cb.start3.to.2 (p3 _ (.inl rfl)))
  obtain ⟨⟨d7, hd7, n7⟩, u7⟩ := tc x7' _ (cb.start6.to.2 (p3 _ (.inr rfl)))
  have p8 : Path bs d5 (r.c2.blocks.length + 2) 0 := hd5.term x5 (by simp [Term.targets])
  have t8 : To bs d5 (goto' (withTerm r.c7 (.br (r.c2.blocks.length + 2))) (r.c2.blocks.length + 2)) := cb.start8.to.2 p8
  have n5' : Newer c r.c5 d d5 := n3.trans n5 (by show c.nextReg ≤ r.c3.nextReg; omega) rb'
  have h8 : Blang.R.ok v.1 c' = Blang.R.ok _ _ := hv.symm.trans (emit_eq _ _)
  have ec : c' = Blang.emitted (goto' (withTerm r.c7 (.br (r.c2.blocks.length + 2))) (r.c2.blocks.length + 2)) (.phi r.thenVal r.c5.cur r.elseVal r.c7.cur) := by
    injection h8
  refine ⟨⟨r.c7.nextReg :: d5, ?_, fun x hxm => ?_⟩, fun u hu => .inr ?_⟩
  · have := (t8.emit (i := .phi r.thenVal r.c5.cur r.elseVal r.c7.cur) (by rw [← ec]; exact hx)).1
    rw [← ec] at this
    exact this
  · rcases List.mem_cons.1 hxm with rfl | hxm
    · exact .inr ⟨by omega, by omega⟩
    · rcases n5' x hxm with h | ⟨h1, h2⟩
      · exact .inl h
      · exact .inr ⟨h1, by omega⟩
  · rcases hu.app with hu | hu
    · rcases hu.app with hu | hu
      · exact ((u2 u hu).resolve_left fun h => h).before (by omega)
      · have hu5 := (u5 u (Adr.at (by show r.c3.locals = c.locals; rw [l3, la]) hu)).resolve_left fun h => h
        exact (hu5.after n3 (by show c.nextReg ≤ r.c3.nextReg; omega) rb').before (by omega)
    · have hu7 := (u7 u (Adr.at (by show r.c5.locals = c.locals; rw [lb', l3, la]) hu)).resolve_left fun h => h
      refine (hu7.after (a := c) (d1 := d) ?_ (by show c.nextReg ≤ r.c5.nextReg; omega) rc').before (by omega)
      intro x hxm
      rcases n3 x hxm with h | ⟨h1, h2⟩
      · exact .inl h
      · have h2' : x < r.c3.nextReg := h2
        exact .inr ⟨h1, by show x < r.c5.nextReg; omega⟩

mutual
theorem XP.genL : ∀ (e : Ex) (c : CState), XP bs c (Adr e.vars c) (genL e) LeftL
  | .num _, c => XP.none (.done _) (fun u h => by obtain ⟨x, hx, _⟩ := h; simp [Ex.vars] at hx)
  | .str _, c => XP.none (XP.second (.genStr _) fun _ _ _ => .done _) (fun u h => by obtain ⟨x, hx, _⟩ := h; simp [Ex.vars] at hx)
  | .var x, c => (XP.genVar x).imp (fun u h => by obtain ⟨y, hy, hl⟩ := h; simp [Ex.vars] at hy; subst hy; exact hl) fun _ _ h => h
  | .paren e, c => by
      simp only [Ex.vars]
      exact XP.first (XP.genL e c) fun v c1 _ => XP.first (.rval v fun _ h => h) fun _ _ _ => .done _
  | .index a i, c => by
      simp only [Ex.vars]
      exact XP.seq2 (XP.genL a c) fun v c1 _ => XP.load fun b c2 _ => XP.on (.e _) fun p c3 _ => XP.first (XP.genL i c3) fun w c4 _ =>
        XP.first (.rval w fun _ h => h) fun _ _ _ => XP.second (.e _) fun _ _ _ => .done _
  | .callName f as, c => by
      simp only [Ex.vars]
      refine XP.bind (U1 := NoU) (U2 := Adr (Ex.varsArgs as) c) (XP.genCallee f) (fun v c1 h1 => ?_) fun _ h => .inr h
      refine XP.imp (U1 := fun u => LeftL v u ∨ Adr (Ex.varsArgs as) c1 u) ?_ (fun _ h => h.imp id (Adr.at h1)) fun _ _ h => h
      exact XP.load fun b c2 _ => XP.first (XP.genArgs as c2) fun vs c3 _ => XP.second (.genCall _ _) fun _ _ _ => .done _
  | .call f as, c => by
      simp only [Ex.vars]
      exact XP.seq2 (XP.genL f c) fun v c1 _ => XP.load fun b c2 _ => XP.first (XP.genArgs as c2) fun vs c3 _ =>
        XP.second (.genCall _ _) fun _ _ _ => .done _
  | .post _ e, c => by
      simp only [Ex.vars]
      exact XP.first (XP.genL e c) fun v c1 _ => XP.first (.needLval v fun _ h => h) fun a c2 _ => XP.first (.genPostfix _ a fun _ h => h) fun _ _ _ => .done _
  | .pre _ e, c => by
      simp only [Ex.vars]
      exact XP.first (XP.genL e c) fun v c1 _ => XP.first (.needLval v fun _ h => h) fun a c2 _ => XP.first (.genPrefix _ a fun _ h => h) fun _ _ _ => .done _
  | .not e, c => by
      simp only [Ex.vars]
      exact XP.first (XP.genL e c) fun v c1 _ => XP.first (.genNot v fun _ h => h) fun _ _ _ => .done _
  | .neg e, c => by
      simp only [Ex.vars]
      exact XP.first (XP.genL e c) fun v c1 _ => XP.first (.genNeg v fun _ h => h) fun _ _ _ => .done _
  | .deref e, c => by
      simp only [Ex.vars]
      exact XP.first (XP.genL e c) fun v c1 _ => XP.first (.genDeref v fun _ h => h) fun _ _ _ => .done _
  | .addr e, c => by
      simp only [Ex.vars]
      exact XP.first (XP.genL e c) fun v c1 _ => XP.first (.needLval v fun _ h => h) fun a c2 _ =>
        XP.first (p := None') (.emit _ fun u hu => by cases hu; exact ⟨List.mem_singleton_self _, id⟩) fun _ _ _ => .done _
  | .bin _ l r, c => by
      simp only [Ex.vars]
      exact XP.seq2 (XP.genL l c) fun v c1 _ => XP.load fun b c2 _ => XP.first (XP.genL r c2) fun w c3 _ =>
        XP.first (.rval w fun _ h => h) fun _ _ _ => XP.second (.genOp _ _ _) fun _ _ _ => .done _
  | .cond cn t e, c => by
      simp only [Ex.vars]
      exact XP.cond (XP.genL cn) (XP.genL t) (XP.genL e) c
  | .assign _ l r, c => by
      simp only [Ex.vars]
      refine XP.seq2 (XP.genL l c) fun v c1 _ => ?_
      refine XP.bind (U1 := LeftL v) (U2 := Adr r.vars c1) (.needLval v fun _ h => h) (fun a c2 h2 => ?_) fun _ h => h
      refine XP.bind (U1 := Adr r.vars c2) (U2 := fun u => a = u) (XP.genL r c2) (fun w c3 h3 => ?_) fun _ h => h.symm.imp (Adr.at h2) id
      refine XP.bind (U1 := LeftL w) (U2 := fun u => a = u) (.rval w fun _ h => h) (fun b c4 h4 => ?_) fun _ h => h
      exact XP.first (.genAssign _ a b fun _ h => h.resolve_left fun h => h) fun _ _ _ => .done _
theorem XP.genArgs : ∀ (es : List Ex) (c : CState), XP bs c (Adr (Ex.varsArgs es) c) (genArgs es) None'
  | [], c => XP.none (.done _) (fun u h => by obtain ⟨x, hx, _⟩ := h; simp [Ex.varsArgs] at hx)
  | e :: es, c => by
      simp only [Ex.varsArgs]
      exact XP.seq2 (XP.genL e c) fun v c1 _ => XP.load fun b c2 _ => XP.first (XP.genArgs es c2) fun vs c3 _ => .done _
end

theorem XP.genR (e : Ex) (c : CState) : XP bs c (Adr e.vars c) (genR e) None' := XP.first (XP.genL e c) fun v _ _ => .rval v fun _ h => h
end
end Blang
