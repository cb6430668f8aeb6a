import Verif.Proofs.Necessary
/-
Definite declaration is necessary: statements and functions.
-/
namespace Blang
open Spec

theorem _root_.Blang.Spec.St.Declared.more {L : Ident → Names} : ∀ (s : St) {K : Word → Names} {V : List Ident} {r : Bool} {D E D' : Names},
    D.Within E → s.Declared L K V r D D' → s.Declared L K V r E D'
  | .skip, _, _, _, _, _, _, h, hd | .extrn _, _, _, _, _, _, _, h, hd => fun x hx => h x (hd x hx)
  | .seq s t, _, _, _, _, _, _, h, ⟨D1, h1, h2⟩ => ⟨D1, h1.more s h, h2⟩
  | .expr e, _, _, _, _, _, _, h, ⟨h1, h2⟩ => ⟨fun x hx hv => h x (h1 x hx hv), fun x hx => h x (h2 x hx)⟩
  | .ret none, _, _, _, _, _, _, h, hd => fun x hx => h x (hd x hx)
  | .ret (some e), _, _, _, _, _, _, h, ⟨h1, h2⟩ => ⟨fun x hx hv => h x (h1 x hx hv), fun x hx => h x (h2 x hx)⟩
  | .auto ds, _, _, _, _, _, _, h, hd => fun x hx => (hd x hx).imp (h x) id
  | .ifThen c t, _, _, _, _, _, _, h, ⟨h1, D1, h2, h3, h4⟩ => ⟨fun x hx hv => h x (h1 x hx hv), D1, h2.more t h, h3, fun x hx => h x (h4 x hx)⟩
  | .ifElse c t e, _, _, _, _, _, _, h, ⟨h1, D1, D2, h2, h3, h4⟩ => ⟨fun x hx hv => h x (h1 x hx hv), D1, D2, h2.more t h, h3.more e h, h4⟩
  | .while c b, _, _, _, _, _, _, h, ⟨I, D1, h1, h2⟩ => ⟨I, D1, fun x hx => h x (h1 x hx), h2⟩
  | .switch e b, _, _, _, _, _, _, h, ⟨h1, K, D1, h2, h3, h4, h5⟩ =>
    ⟨fun x hx hv => h x (h1 x hx hv), K, D1, fun v hv x hx => h x (h2 v hv x hx), h3, h4, fun x hx => h x (h5 x hx)⟩
  | .case v s, _, _, _, _, _, _, h, ⟨h1, h2⟩ => ⟨fun hr x hx => h x (h1 hr x hx), h2⟩
  | .label l s, _, _, _, _, _, _, h, ⟨h1, h2⟩ => ⟨fun hr x hx => h x (h1 hr x hx), h2⟩
  | .goto l, _, _, _, _, _, _, h, hd => fun x hx => h x (hd x hx)

theorem exit_flows : ∀ (s : St) {o o' : Bool}, s.exit o = some o' → s.flows o = o' := by
  intro s
  induction s with
  | seq s t ih1 ih2 =>
    intro o o' h
    simp only [St.exit] at h
    cases h1 : s.exit o with
    | none => rw [h1] at h; cases h
    | some o1 => rw [h1] at h; simp only [St.flows, ih1 h1]; exact ih2 h
  | case v s ih | label l s ih => intro o o' h; exact ih h
  | ifThen cn t _ =>
    intro o o' h
    simp only [St.exit] at h
    split at h
    · cases h1 : t.exit true with
      | none => rw [h1] at h; cases h
      | some _ => rw [h1] at h; cases h; rfl
    · cases h
  | ifElse cn t e _ _ =>
    intro o o' h
    simp only [St.exit] at h
    split at h
    · cases h1 : t.exit true with
      | none => rw [h1] at h; cases h
      | some _ =>
        cases h2 : e.exit true with
        | none => rw [h1, h2] at h; cases h
        | some _ => rw [h1, h2] at h; cases h; rfl
    · cases h
  | «while» cn t _ | switch cn t _ =>
    intro o o' h
    simp only [St.exit] at h
    split at h
    · cases h1 : t.exit true with
      | none => rw [h1] at h; cases h
      | some _ => rw [h1] at h; cases h; rfl
    · cases h
  | _ => intro o o' h; cases o <;> simp [St.exit] at h <;> subst h <;> simp [St.flows]

/-! ### what has been declared on every path -/

/-- the variables of `X` whose addresses are computed on every path of `T` -/
def PathD (fin : CState) (X : Ident → Prop) (T : List Nat → Prop) : Names :=
  fun x => X x ∧ ∃ a, lookup x fin.locals = some (.reg a) ∧ ∀ done, T done → a ∈ done

section
variable {fin : CState} {X : Ident → Prop} {T T' : List Nat → Prop} {c c' : CState} {bs : List Block}

theorem PathD.mono (h : ∀ done, T done → T' done) : (PathD fin X T').Within (PathD fin X T) :=
  fun _ ⟨h1, a, h2, h3⟩ => ⟨h1, a, h2, fun d hd => h3 d (h d hd)⟩

theorem PathD.grow {N : List Name} (h : ∀ done, T done → ∃ done', T' done' ∧ Newer c c' done done') (hl : LocOk c) (hg : Gr c' fin)
    (hk : ∀ x v, lookup x c'.locals = some v → lookup x c.locals = some v ∨ x ∈ N) :
    (PathD fin X T').Within fun x => PathD fin X T x ∨ x ∈ N := by
  rintro x ⟨h1, a, h2, h3⟩
  by_cases hN : x ∈ N
  · exact .inr hN
  refine .inl ⟨h1, a, h2, fun d hd => ?_⟩
  obtain ⟨d', hd', hn⟩ := h d hd
  rcases hn a (h3 d' hd') with h | ⟨ha, hb⟩
  · exact h
  · rcases hg.new x _ h2 with h | ⟨r, e, hr, _⟩
    · rcases hk x _ h with h | h
      · obtain ⟨r, e, hr⟩ := hl x _ h
        cases e; omega
      · exact absurd h hN
    · cases e; omega

theorem PathD.within (h : ∀ done, T done → ∃ done', T' done' ∧ Newer c c' done done') (hl : LocOk c) (hg : Gr c' fin)
    (hk : c'.locals = c.locals) : (PathD fin X T').Within (PathD fin X T) := fun x hx =>
  (PathD.grow (N := []) h hl hg (fun x v hv => .inl (by rw [← hk]; exact hv)) x hx).resolve_right nofun

theorem LocOk.same (h : LocOk c) (hk : c'.locals = c.locals) (hr : c.nextReg ≤ c'.nextReg) : LocOk c' := by
  intro x v hx
  rw [hk] at hx
  obtain ⟨r, e, hr'⟩ := h x v hx
  exact ⟨r, e, by omega⟩

/-- what an expression uses has been declared -/
theorem used_declared (hdom : ∀ a, Dominated fin.blocks a) {e : Ex} {v : Val} {V : List Ident} (hg : genR e c = .ok v c') (ho : Open c) (hl : LocOk c)
    (hf : Gr c fin) (hf' : Ext c'.blocks fin.blocks) (hV : ∀ x ∈ V, (lookup x c.locals).isSome ∧ X x) : e.Declared V (PathD fin X (To fin.blocks · c)) := by
  intro x hx hv
  obtain ⟨h1, h2⟩ := hV x hv
  obtain ⟨v, hv⟩ := Option.isSome_iff_exists.1 h1
  obtain ⟨a, rfl, ha⟩ := hl x v hv
  refine ⟨h2, a, hf.locals _ _ hv, fun d hd => ?_⟩
  obtain ⟨_, _, _, t⟩ := XP.genR (bs := fin.blocks) e c _ _ hg ho
  obtain ⟨d', i, k, B, r, inst, n, p, hB, hk, hp, hm⟩ := ((t hf' d hd).2 (.reg a) ⟨x, hx, hv⟩).resolve_left fun h => h
  rcases n a ((hdom a d' i k B p hB).1 r inst hk hp hm) with h | ⟨h, _⟩
  · exact h
  · omega

theorem genR_go {e : Ex} {v : Val} (hg : genR e c = .ok v c') (ho : Open c) (he : Ext c'.blocks bs) : c.nextReg ≤ c'.nextReg ∧ c'.locals = c.locals ∧
    ∀ done, To bs done c → ∃ done', To bs done' c' ∧ Newer c c' done done' := by
  obtain ⟨_, h1, h2, t⟩ := XP.genR (bs := bs) e c _ _ hg ho
  exact ⟨h1, h2, fun d hd => (t he d hd).1⟩

/-! ### passing straight code -/

structure Thru (bs : List Block) (c c' : CState) : Prop where
  inv : EInv c c'
  reg : c.nextReg ≤ c'.nextReg
  labels : c'.labels = c.labels
  go : Ext c'.blocks bs → ∀ done, To bs done c → ∃ done', To bs done' c' ∧ Newer c c' done done'

theorem Thru.refl (h : Open c) : Thru bs c c := ⟨.refl h, Nat.le_refl _, rfl, fun _ d hd => ⟨d, hd, .refl⟩⟩

theorem Thru.trans {c1 : CState} (h1 : Thru bs c c1) (h2 : Thru bs c1 c') : Thru bs c c' :=
  ⟨h1.inv.trans h2.inv, Nat.le_trans h1.reg h2.reg, h2.labels.trans h1.labels, fun he d hd => by
    obtain ⟨d1, hd1, n1⟩ := h1.go (h2.inv.ext.trans he) d hd
    obtain ⟨d2, hd2, n2⟩ := h2.go he d1 hd1
    exact ⟨d2, hd2, n1.trans n2 h1.reg h2.reg⟩⟩

theorem Thru.emit {i : Inst} {v : Val} (h : emit i c = .ok v c') (ho : Open c) : Thru bs c c' := by
  have k := KE.emit i _ _ _ h ho
  rw [emit_eq] at h; cases h
  refine ⟨k, Nat.le_succ _, rfl, fun he d hd => ⟨_, (hd.emit he).1, fun r hr => ?_⟩⟩
  rcases List.mem_cons.1 hr with rfl | hr
  · exact .inr ⟨Nat.le_refl _, Nat.lt_succ_self _⟩
  · exact .inl hr

theorem Thru.same (ho : Open c) (h1 : c'.blocks = c.blocks) (h2 : c'.cur = c.cur) (h3 : c'.nextReg = c.nextReg) (h4 : c'.labels = c.labels) : Thru bs c c' :=
  ⟨.of_eq ho h1 h2, by omega, h4, fun _ d hd => ⟨d, by unfold To; rw [h1, h2]; exact hd, .refl⟩⟩


theorem Thru.local {x : Name} {v : Val} (ho : Open c) : Thru bs c { c with locals := insert x v c.locals } := .same ho rfl rfl rfl rfl

theorem declareOne_thru {x : Name} {n : Word} {u : Unit} (h : declareOne x n c = .ok u c') (ho : Open c) : Thru bs c c' := by
  unfold declareOne at h
  replace h := ite_ok h
  rcases h with ⟨_, h⟩ | ⟨_, h⟩
  · unfold declareLocal at h
    obind h a c1 h1
    obind h b c2 h2
    simp at h; subst h
    have t1 := Thru.emit (bs := bs) h1 ho
    have t2 := t1.trans (.emit h2 t1.inv.opn)
    exact t2.trans (.local t2.inv.opn)
  · unfold declareLocalArray at h
    obind h a c1 h1
    obind h b c2 h2
    obind h b3 c3 h3
    obind h b4 c4 h4
    obind h b5 c5 h5
    simp at h; subst h
    have t1 := Thru.emit (bs := bs) h1 ho
    have t2 := t1.trans (.emit h2 t1.inv.opn)
    have t3 := t2.trans (.emit h3 t2.inv.opn)
    have t4 := t3.trans (.emit h4 t3.inv.opn)
    have t5 := t4.trans (.emit h5 t4.inv.opn)
    exact t5.trans (.local t5.inv.opn)

theorem declareAll_thru : ∀ (ds : List (Name × Option Word)) {c c' : CState} {u : Unit}, declareAll (ds.map autoSizeOf) c = .ok u c' → Open c → LabOk c →
    (∀ d ∈ ds, lookup d.1 c.locals = none) → (ds.map (·.1)).Nodup →
    Thru bs c c' ∧ (∀ x v, lookup x c'.locals = some v → lookup x c.locals = some v ∨ x ∈ ds.map (·.1)) ∧ ∀ d ∈ ds, (lookup d.1 c'.locals).isSome
  | [], c, c', u, h, ho, hl, _, _ => by
    simp only [List.map_nil, declareAll] at h; simp at h; subst h
    exact ⟨.refl ho, fun _ _ h => .inl h, nofun⟩
  | (x, n) :: ds, c, c', u, h, ho, hl, hx, hn => by
    simp only [List.map_cons, List.nodup_cons] at hn
    simp only [List.map_cons, autoSizeOf, declareAll] at h
    obind h u1 c1 h1
    obtain ⟨s1, o1, r, e1⟩ := declareOne_SI (D := fun _ => False) h1 ho hl (hx (x, n) (by simp))
    have hx1 : ∀ d ∈ ds, lookup d.1 c1.locals = none := fun d hd => by
      rw [e1, lookup_insert, if_neg (fun e : x = d.1 => hn.1 (List.mem_map.2 ⟨d, hd, e.symm⟩))]
      exact hx d (by simp [hd])
    obtain ⟨t2, k2, m2⟩ := declareAll_thru ds h o1 s1.lab hx1 hn.2
    obtain ⟨s2, _⟩ := declareAll_SI (D := fun _ => False) ds h o1 s1.lab hx1 hn.2
    refine ⟨(declareOne_thru h1 ho).trans t2, fun y v hy => ?_, fun d hd => ?_⟩
    · rcases k2 y v hy with hy | hy
      · rw [e1] at hy
        rcases lookup_insert_or hy with rfl | hy
        · rw [lookup_insert] at hy
          split at hy
          · rename_i e; subst e; exact .inr (by simp)
          · exact .inl hy
        · exact .inl hy
      · exact .inr (by simp only [List.map_cons, List.mem_cons]; exact .inr hy)
    · rcases List.mem_cons.1 hd with rfl | hd
      · have : lookup x c1.locals = some (.reg r) := by rw [e1, lookup_insert, if_pos rfl]
        rw [s2.gr.locals _ _ this]; rfl
      · exact m2 d hd

theorem To.br {done : List Nat} {b : Nat} (h : To bs done c) (ho : Open c) (he : Ext (brTo c b).blocks bs) : Path bs done b 0 := by
  rw [brTo_open ho] at he
  exact h.term he (by simp [Term.targets])

theorem To.more {done : List Nat} {bl : List Block} (h : To bs done c) (h1 : c'.blocks = c.blocks ++ bl) (h2 : c'.cur = c.cur) : To bs done c' := by
  obtain ⟨B, hB, hp⟩ := h
  refine ⟨B, ?_, by rw [h2]; exact hp⟩
  rw [h1, h2, List.getElem?_append_left (List.getElem?_eq_some_iff.1 hB).1]; exact hB

theorem To.label {done : List Nat} (l : Name) (h : To bs done c) : To bs done (withLabel l c) := by
  unfold withLabel
  split
  · exact h
  · exact h.more rfl rfl

/-- the two ways of an `if` -/
theorem To.fork {done : List Nat} {v : Val} (h : To bs done c) (he : Ext (forkIf c v).blocks bs) {j : Nat} (hj : j = c.blocks.length ∨ j = c.blocks.length + 1) :
    ∃ done', Path bs done' j 0 ∧ Newer c (forkIf c v) done done' := by
  unfold forkIf at he
  generalize "if.".toList ++ natDec c.labelID ++ ".then".toList = x1 at he
  generalize "if.".toList ++ natDec c.labelID ++ ".else".toList = x2 at he
  generalize "if.".toList ++ natDec c.labelID ++ ".end".toList = x3 at he
  have h1 : To bs done (add3 (bump c) x1 x2 x3) := h.more rfl rfl
  obtain ⟨B, hB, hp⟩ := h1
  have hB' : (Blang.emitted (add3 (bump c) x1 x2 x3) (.icmp .ne v (.const 0))).blocks[c.cur]? = some { B with insts := B.insts ++ [(c.nextReg, .icmp .ne v (.const 0))] } := by
    show ((add3 (bump c) x1 x2 x3).blocks.modify c.cur _)[c.cur]? = _
    rw [List.getElem?_modify]
    have hB0 : (add3 (bump c) x1 x2 x3).blocks[c.cur]? = some B := hB
    simp [hB0]; rfl
  obtain ⟨B2, h2, e2⟩ := he _ _ (withTerm_at hB' _)
  have e := e2.closed (by simp)
  subst e
  have ps := Path.step hp h2 (r := c.nextReg) (inst := .icmp .ne v (.const 0)) (by simp)
  refine ⟨c.nextReg :: done, .jump (B := _) (t := .condbr (.reg c.nextReg) c.blocks.length (c.blocks.length + 1)) (by simp only [List.length_append, List.length_cons, List.length_nil]; exact ps) h2 rfl
    (by simpa [Term.targets] using hj), fun r hr => ?_⟩
  rcases List.mem_cons.1 hr with rfl | hr
  · exact .inr ⟨Nat.le_refl _, by show c.nextReg < c.nextReg + 1; omega⟩
  · exact .inl hr

/-- the two ways of a `while` -/
theorem To.test {done : List Nat} {v : Val} {c0 : CState} (h : To bs done c) (he : Ext (whileTest c0 c v).blocks bs) {j : Nat}
    (hj : j = c0.blocks.length + 1 ∨ j = c0.blocks.length + 2) :
    ∃ done', Path bs done' j 0 ∧ Newer c (whileTest c0 c v) done done' := by
  unfold whileTest at he
  obtain ⟨B, hB, hp⟩ := h
  have hB' : (Blang.emitted c (.icmp .ne v (.const 0))).blocks[c.cur]? = some { B with insts := B.insts ++ [(c.nextReg, .icmp .ne v (.const 0))] } := by
    show (c.blocks.modify c.cur _)[c.cur]? = _
    rw [List.getElem?_modify]
    simp [hB]
  obtain ⟨B2, h2, e2⟩ := he _ _ (withTerm_at hB' _)
  have e := e2.closed (by simp)
  subst e
  have ps := Path.step hp h2 (r := c.nextReg) (inst := .icmp .ne v (.const 0)) (by simp)
  refine ⟨c.nextReg :: done, .jump (B := _) (t := .condbr (.reg c.nextReg) (c0.blocks.length + 1) (c0.blocks.length + 2)) (by simp only [List.length_append, List.length_cons, List.length_nil]; exact ps) h2 rfl
    (by simpa [Term.targets] using hj), fun r hr => ?_⟩
  rcases List.mem_cons.1 hr with rfl | hr
  · exact .inr ⟨Nat.le_refl _, by show c.nextReg < c.nextReg + 1; omega⟩
  · exact .inl hr

theorem To.head {done : List Nat} (h : To bs done c) (he : Ext (whileHead c).blocks bs) : Path bs done c.blocks.length 0 := by
  unfold whileHead at he
  generalize "while.".toList ++ natDec c.labelID ++ ".cond".toList = x1 at he
  generalize "while.".toList ++ natDec c.labelID ++ ".body".toList = x2 at he
  generalize "while.".toList ++ natDec c.labelID ++ ".end".toList = x3 at he
  have h1 : To bs done (add3 (bump c) x1 x2 x3) := h.more rfl rfl
  exact h1.term (t := .br c.blocks.length) he (by simp [Term.targets])

theorem To.switchHead {done : List Nat} {k : Nat} (h : To bs done c) (he : Ext (switchHead c k).blocks bs) : Path bs done (c.blocks.length + 1) 0 := by
  unfold Blang.switchHead at he
  generalize "switch.".toList ++ natDec k ++ ".stmts".toList = x1 at he
  generalize "switch.".toList ++ natDec k ++ ".cmp".toList = x2 at he
  generalize "switch.".toList ++ natDec k ++ ".end".toList = x3 at he
  have h1 : To bs done (add3 c x1 x2 x3) := h.more rfl rfl
  exact h1.term (t := .br (c.blocks.length + 1)) he (by simp [Term.targets])

/-! ### statements -/

/-- declared on every path to the end of what has been generated -/
abbrev EndD (fin : CState) (X : Ident → Prop) (c : CState) : Names := PathD fin X (To fin.blocks · c)
/-- declared on every path to a label -/
abbrev LabD (fin : CState) (X : Ident → Prop) (l : Name) : Names := PathD fin X fun done => ∃ j, lookup l fin.labels = some j ∧ Path fin.blocks done j 0

/-- what is to be shown of a statement -/
def Nec (fin : CState) (X : Ident → Prop) (s : St) (sw : Option Nat) (V : List Ident) (o : Bool) (c c' : CState) : Prop :=
  (∀ K : Word → Names, (∀ id, sw = some id → ∀ v, K v = LabD fin X (caseName id v)) → s.Declared (LabD fin X) K V o (EndD fin X c) (EndD fin X c')) ∧
    ∀ x ∈ s.autos, lookup x c.locals = none ∧ (lookup x c'.locals).isSome

theorem Nec.plain {s : St} {sw : Option Nat} {V : List Ident} {o : Bool} (h : s.autos = [])
    (hd : ∀ K, s.Declared (LabD fin X) K V o (EndD fin X c) (EndD fin X c')) : Nec fin X s sw V o c c' :=
  ⟨fun K _ => hd K, by rw [h]; nofun⟩

theorem isSome_locals {x : Name} (hg : Gr c c') (h : (lookup x c.locals).isSome) : (lookup x c'.locals).isSome := by
  obtain ⟨v, hv⟩ := Option.isSome_iff_exists.1 h
  rw [hg.locals _ _ hv]; rfl

theorem none_locals {x : Name} (hg : Gr c c') (h : lookup x c'.locals = none) : lookup x c.locals = none := by
  cases hl : lookup x c.locals with
  | none => rfl
  | some v => rw [hg.locals _ _ hl] at h; cases h

/-- the hypothesis of the induction -/
def NecIH (fin : CState) (X : Ident → Prop) (s : St) : Prop := ∀ (sw : Option Nat) (o : Bool) (cs : Cases) (c : CState) (cs' : Cases) (c' : CState) (V : List Ident),
  genSt s sw cs c = .ok cs' c' → Stat s sw o c → Gr c' fin → LocOk c → (∀ x ∈ V, (lookup x c.locals).isSome ∧ X x) → (∀ x ∈ s.autos, X x) →
  Nec fin X s sw V o c c'

theorem SameTabs.some {x : Name} (s : SameTabs c c') (h : (lookup x c.locals).isSome) : (lookup x c'.locals).isSome := by rw [s.locals]; exact h

theorem nec_if (hdom : ∀ a, Dominated fin.blocks a) {cn : Ex} {t e : St} (it : NecIH fin X t) (ie : NecIH fin X e) : NecIH fin X (.ifElse cn t e) := by
  intro sw o cs c cs' c' V h H hg hl hV hX
  obtain ⟨v, c1, x3, c3, x5, c5, h1, h3, h5, rfl, rfl⟩ := if_run h
  obtain ⟨o', ho'⟩ := H.ex
  obtain ⟨rfl, S⟩ := if_static (cs := cs') H h1 h3 h5 (fun c cs' H c' h => genSt_static _ _ _ _ _ _ _ H h)
    (fun c cs' H c' h => genSt_static _ _ _ _ _ _ _ H h)
  have gE : Gr (brTo c5 (c1.blocks.length + 2)) fin := hg.goto
  have g5 : Gr c5 fin := S.siBrE.gr.trans gE
  have gT : Gr (brTo c3 (c1.blocks.length + 2)) fin := (S.postE.si.gr.goto).trans g5
  have g3 := S.siBr.gr.trans gT
  have gF : Gr (forkIf c1 v) fin := (S.postT.si.gr.goto).trans g3
  have g1 : Gr c1 fin := (fork_stage (D := fun _ => False) v S.opn1 S.lab1).1.gr.trans gF
  have gc : Gr c fin := S.si1.gr.trans g1
  obtain ⟨r1, l1, t1⟩ := genR_go (bs := fin.blocks) h1 S.opn g1.ext
  have st := (SameTabs.forkIf c1 v)
  have lT : (forkIf c1 v).locals = c.locals := by rw [st.locals, l1]
  have rT : c.nextReg ≤ (forkIf c1 v).nextReg := Nat.le_trans r1 st.reg
  have okT : LocOk (goto' (forkIf c1 v) c1.blocks.length) := hl.same (c' := goto' (forkIf c1 v) c1.blocks.length) lT rT
  have ok3 := okT.gr S.postT.si.gr
  have sE := (SameTabs.brTo c3 (c1.blocks.length + 2)).trans (.goto _ (c1.blocks.length + 1))
  have okE : LocOk (goto' (brTo c3 (c1.blocks.length + 2)) (c1.blocks.length + 1)) := ok3.same sE.locals sE.reg
  have hVT : ∀ x ∈ V, (lookup x (goto' (forkIf c1 v) c1.blocks.length).locals).isSome ∧ X x := fun x hx => ⟨by
    show (lookup x (forkIf c1 v).locals).isSome = true
    rw [lT]; exact (hV x hx).1, (hV x hx).2⟩
  obtain ⟨d3, a3⟩ := it _ _ _ _ _ _ V h3 S.statT g3 okT hVT (fun x hx => hX x (by simp [St.autos, hx]))
  obtain ⟨d5, a5⟩ := ie _ _ _ _ _ _ (V ++ t.autos) h5 S.statE g5 okE (fun x hx => by
    rcases List.mem_append.1 hx with hx | hx
    · exact ⟨sE.some (isSome_locals S.postT.si.gr (hVT x hx).1), (hV x hx).2⟩
    · exact ⟨sE.some (a3 x hx).2, hX x (by simp [St.autos, hx])⟩) (fun x hx => hX x (by simp [St.autos, hx]))
  -- both ways are paths
  have way : ∀ j, (j = c1.blocks.length ∨ j = c1.blocks.length + 1) → ∀ done, To fin.blocks done c → ∃ done', Path fin.blocks done' j 0 ∧ Newer c (forkIf c1 v) done done' := by
    intro j hj d hd
    obtain ⟨d1, hd1, n1⟩ := t1 d hd
    obtain ⟨d2, hd2, n2⟩ := hd1.fork gF.ext hj
    exact ⟨d2, hd2, n1.trans n2 r1 st.reg⟩
  refine ⟨fun K _ => ⟨used_declared hdom h1 S.opn hl gc g1.ext hV, EndD fin X c3, EndD fin X c5, ?_, ?_, ?_, ?_⟩, fun x hx => ?_⟩
  · refine (d3 K nofun).more _ (PathD.within (c' := forkIf c1 v) (fun d hd => ?_) hl gF lT)
    obtain ⟨d', p, n⟩ := way _ (.inl rfl) d hd
    exact ⟨d', S.startT.to.2 p, n⟩
  · refine (d5 K nofun).more _ (PathD.within (c' := forkIf c1 v) (fun d hd => ?_) hl gF lT)
    obtain ⟨d', p, n⟩ := way _ (.inr rfl) d hd
    exact ⟨d', S.startE.to.2 p, n⟩
  · intro hf
    refine PathD.mono fun d hd => S.start'.to.2 ?_
    obtain ⟨ot, xt⟩ := S.statT.ex
    have := exit_flows _ xt
    rw [hf] at this; subst this
    exact hd.br (S.postT.st _ xt).open gT.ext
  · intro hf
    refine PathD.mono fun d hd => S.start'.to.2 ?_
    obtain ⟨ot, xt⟩ := S.statE.ex
    have := exit_flows _ xt
    rw [hf] at this; subst this
    exact hd.br (S.postE.st _ xt).open gE.ext
  · have gB : Gr c5 (goto' (brTo c5 (c1.blocks.length + 2)) (c1.blocks.length + 2)) := by
      have := S.siBrE.gr
      exact ⟨this.ext, this.locals, this.new, this.labels, this.reg, this.id⟩
    simp only [St.autos, List.mem_append] at hx
    rcases hx with hx | hx
    · obtain ⟨p, q⟩ := a3 x hx
      refine ⟨by rw [← lT]; exact p, isSome_locals gB (isSome_locals S.postE.si.gr (sE.some q))⟩
    · obtain ⟨p, q⟩ := a5 x hx
      have p3 : lookup x c3.locals = none := by rw [← sE.locals]; exact p
      refine ⟨by rw [← lT]; exact none_locals S.postT.si.gr.goto p3, isSome_locals gB q⟩

theorem nec_while (hdom : ∀ a, Dominated fin.blocks a) {cn : Ex} {b : St} (ib : NecIH fin X b) : NecIH fin X (.while cn b) := by
  intro sw o cs c cs' c' V h H hg hl hV hX
  obtain ⟨v, c1, x3, c3, h1, h3, rfl, rfl⟩ := while_run h
  obtain ⟨rfl, S⟩ := while_static (cs := cs') H h1 h3 (fun c cs' H c' h => genSt_static _ _ _ _ _ _ _ H h)
  have gB : Gr (brTo c3 c.blocks.length) fin := hg.goto
  have g3 := S.siBr.gr.trans gB
  have gt : Gr (whileTest c c1 v) fin := (S.postB.si.gr.goto).trans g3
  have g1 := S.si2.gr.trans gt
  have gH : Gr (whileHead c) fin := S.si1.gr.trans g1
  have tH := SameTabs.whileHead c
  have tT := SameTabs.whileTest c c1 v
  have okH : LocOk (whileHead c) := hl.same tH.locals tH.reg
  obtain ⟨r1, l1, t1⟩ := genR_go (bs := fin.blocks) h1 S.startH.open g1.ext
  have lT : (whileTest c c1 v).locals = (whileHead c).locals := by rw [tT.locals, l1]
  have rT : (whileHead c).nextReg ≤ (whileTest c c1 v).nextReg := Nat.le_trans r1 tT.reg
  have okB : LocOk (goto' (whileTest c c1 v) (c.blocks.length + 1)) := okH.same (c' := goto' (whileTest c c1 v) (c.blocks.length + 1)) lT rT
  have hVH : ∀ x ∈ V, (lookup x (whileHead c).locals).isSome ∧ X x := hV
  have hVB : ∀ x ∈ V, (lookup x (goto' (whileTest c c1 v) (c.blocks.length + 1)).locals).isSome ∧ X x := fun x hx => ⟨by
    show (lookup x (whileTest c c1 v).locals).isSome = true
    rw [lT]; exact (hV x hx).1, (hV x hx).2⟩
  obtain ⟨d3, a3⟩ := ib _ _ _ _ _ _ V h3 S.statB g3 okB hVB (fun x hx => hX x (by simpa [St.autos] using hx))
  have way : ∀ j, (j = c.blocks.length + 1 ∨ j = c.blocks.length + 2) → ∀ done, To fin.blocks done (whileHead c) →
      ∃ done', Path fin.blocks done' j 0 ∧ Newer (whileHead c) (whileTest c c1 v) done done' := by
    intro j hj d hd
    obtain ⟨d1, hd1, n1⟩ := t1 d hd
    obtain ⟨d2, hd2, n2⟩ := hd1.test gt.ext hj
    exact ⟨d2, hd2, n1.trans n2 r1 tT.reg⟩
  refine ⟨fun K _ => ⟨EndD fin X (whileHead c), EndD fin X c3, PathD.mono fun d hd => S.startH.to.2 (hd.head gH.ext),
    used_declared hdom h1 S.startH.open okH gH g1.ext hVH, ?_, ?_, ?_⟩, fun x hx => ?_⟩
  · refine (d3 K nofun).more _ (PathD.within (c' := whileTest c c1 v) (fun d hd => ?_) okH gt lT)
    obtain ⟨d', p, n⟩ := way _ (.inl rfl) d hd
    exact ⟨d', S.startB.to.2 p, n⟩
  · intro hf
    refine PathD.mono fun d hd => S.startH.to.2 ?_
    obtain ⟨ot, xt⟩ := S.statB.ex
    have := exit_flows _ xt
    rw [hf] at this; subst this
    exact hd.br (S.postB.st _ xt).open gB.ext
  · refine PathD.within (c' := whileTest c c1 v) (fun d hd => ?_) okH gt lT
    obtain ⟨d', p, n⟩ := way _ (.inr rfl) d hd
    exact ⟨d', S.start'.to.2 p, n⟩
  · obtain ⟨p, q⟩ := a3 x (by simpa [St.autos] using hx)
    have gG : Gr c3 (goto' (brTo c3 c.blocks.length) (c.blocks.length + 2)) := by
      have := S.siBr.gr
      exact ⟨this.ext, this.locals, this.new, this.labels, this.reg, this.id⟩
    have p' : lookup x (whileTest c c1 v).locals = none := p
    rw [lT] at p'
    exact ⟨p', isSome_locals gG q⟩

theorem nec_switch (hdom : ∀ a, Dominated fin.blocks a) {e : Ex} {b : St} (ib : NecIH fin X b) : NecIH fin X (.switch e b) := by
  intro sw o cs c cs' c' V h H hg hl hV hX
  obtain ⟨v, c1, vs, c3, c4, h1, h3, h4, rfl, rfl⟩ := switch_run h
  obtain ⟨rfl, S⟩ := switch_static (cs := cs') H h1 h3 h4 (fun id c cs' H c' h => genSt_static _ _ _ _ _ _ _ H h)
  have g4 : Gr c4 fin := hg.goto
  have w := (SI.withTerm (D := fun _ => False) (switchT c.labelID v (c1.blocks.length + 2) b.cases
      (goto' (brTo c3 (c1.blocks.length + 2)) (c1.blocks.length + 1))) S.startC.open S.labC).gr
  rw [← S.eq4] at w
  have gB : Gr (brTo c3 (c1.blocks.length + 2)) fin := Gr.goto (w.trans g4)
  have g3 := S.siBr.gr.trans gB
  have gH := S.postB.si.gr.trans g3
  have g1 := S.siH.gr.trans gH
  have g0 : Gr (bump c) fin := S.si1.gr.trans g1
  have ob : Open (bump c) := S.opn
  obtain ⟨r1, l1, t1⟩ := genR_go (bs := fin.blocks) h1 ob g1.ext
  have tH := SameTabs.switchHead c1 c.labelID
  have ok0 : LocOk (bump c) := hl.same rfl (Nat.le_refl _)
  have lH : (switchHead c1 c.labelID).locals = (bump c).locals := by rw [tH.locals, l1]
  have okH : LocOk (switchHead c1 c.labelID) := ok0.same lH (Nat.le_trans r1 tH.reg)
  have hV0 : ∀ x ∈ V, (lookup x (bump c).locals).isSome ∧ X x := hV
  have hVH : ∀ x ∈ V, (lookup x (switchHead c1 c.labelID).locals).isSome ∧ X x := fun x hx => ⟨by rw [lH]; exact (hV x hx).1, (hV x hx).2⟩
  obtain ⟨d3, a3⟩ := ib _ _ _ _ _ _ V h3 S.statB g3 okH hVH (fun x hx => hX x (by simpa [St.autos] using hx))
  have way : ∀ j, j ∈ Term.targets (switchT c.labelID v (c1.blocks.length + 2) b.cases (goto' (brTo c3 (c1.blocks.length + 2)) (c1.blocks.length + 1))) →
      ∀ done, To fin.blocks done c → ∃ done', Path fin.blocks done' j 0 ∧ Newer (bump c) c1 done done' := by
    intro j hj d hd
    obtain ⟨d1, hd1, n1⟩ := t1 d hd
    have p := S.startC.to.2 (hd1.switchHead gH.ext)
    refine ⟨d1, p.term (t := switchT c.labelID v (c1.blocks.length + 2) b.cases (goto' (brTo c3 (c1.blocks.length + 2)) (c1.blocks.length + 1))) ?_ hj, n1⟩
    rw [← S.eq4]; exact g4.ext
  have hu := used_declared (X := X) hdom h1 ob ok0 g0 g1.ext hV0
  refine ⟨fun K _ => ⟨hu, fun v => LabD fin X (caseName c.labelID v), EndD fin X c3, ?_, ?_, ?_, ?_⟩, fun x hx => ?_⟩
  · intro w hw
    refine PathD.within (c := bump c) (c' := c1) (fun d hd => ?_) ok0 g1 l1
    obtain ⟨j, hj⟩ := Option.isSome_iff_exists.1 (S.look w hw)
    have hne : b.cases ≠ [] := by rintro e; rw [e] at hw; cases hw
    have hj' : lookup (caseName c.labelID w) (goto' (brTo c3 (c1.blocks.length + 2)) (c1.blocks.length + 1)).labels = some j := by
      show lookup _ (brTo c3 _).labels = _
      rw [brTo_labels]; exact hj
    obtain ⟨d', p, n⟩ := way j (by
      unfold switchT
      rw [if_neg hne]
      refine List.mem_cons_of_mem _ (List.mem_map.2 ⟨(w, j), List.mem_map.2 ⟨w, hw, ?_⟩, rfl⟩)
      unfold labelBlock
      rw [hj']; rfl) d hd
    exact ⟨d', ⟨j, g3.labels _ _ hj, p⟩, n⟩
  · exact (d3 _ (fun id e v => by cases e; rfl)).more _ fun _ _ => trivial
  · intro hf
    refine PathD.mono fun d hd => S.start'.to.2 ?_
    obtain ⟨ot, xt⟩ := S.statB.ex
    have := exit_flows _ xt
    rw [hf] at this; subst this
    exact hd.br (S.postB.st _ xt).open gB.ext
  · refine PathD.within (c := bump c) (c' := c1) (fun d hd => ?_) ok0 g1 l1
    obtain ⟨d', p, n⟩ := way (c1.blocks.length + 2) (by unfold switchT; split <;> simp [Term.targets]) d hd
    exact ⟨d', S.start'.to.2 p, n⟩
  · obtain ⟨p, q⟩ := a3 x (by simpa [St.autos] using hx)
    rw [lH] at p
    have q3 := isSome_locals S.siBr.gr q
    have q4 : (lookup x c4.locals).isSome := by rw [S.eq4]; exact q3
    exact ⟨p, q4⟩

/-- a statement with a label or a case before it -/
theorem nec_labelled {l : Name} {s : St} {sw : Option Nat} {o : Bool} {V : List Ident} (hg : Gr c' fin) (hst : Status o c)
    (gp : Gr (goto' (brTo (withLabel l c) (labelBlock l c)) (labelBlock l c)) c')
    (a2 : Start (goto' (brTo (withLabel l c) (labelBlock l c)) (labelBlock l c)))
    (a3 : lookup l (goto' (brTo (withLabel l c) (labelBlock l c)) (labelBlock l c)).labels = some (labelBlock l c))
    (n : Nec fin X s sw V true (goto' (brTo (withLabel l c) (labelBlock l c)) (labelBlock l c)) c') {K : Word → Names}
    (hK : ∀ id, sw = some id → ∀ v, K v = LabD fin X (caseName id v)) :
    (o = true → (LabD fin X l).Within (EndD fin X c)) ∧ s.Declared (LabD fin X) K V true (LabD fin X l) (EndD fin X c') := by
  have gf := gp.trans hg
  have hl := gf.labels _ _ a3
  refine ⟨fun ho => PathD.mono fun d hd => ⟨_, hl, ?_⟩, (n.1 K hK).more _ (PathD.mono ?_)⟩
  · subst ho
    exact (hd.label l).br (withLabel_status l hst).open gf.goto.ext
  · rintro d ⟨j, hj, p⟩
    rw [hl] at hj; cases hj
    exact a2.to.2 p

theorem nec_all (hdom : ∀ a, Dominated fin.blocks a) : ∀ s : St, NecIH fin X s := by
  intro s
  induction s with
  | skip =>
    intro sw o cs c cs' c' V h H hg hl hV hX
    simp only [genSt] at h; simp at h; obtain ⟨rfl, rfl⟩ := h
    exact .plain rfl fun K => fun _ h => h
  | seq s t ih1 ih2 =>
    intro sw o cs c cs' c' V h H hg hl hV hX
    obtain ⟨cs1, c1, h1, h2⟩ := seq_run h
    have p := genSt_static _ _ _ _ _ _ _ (seq_first H) h1
    obtain ⟨o1, e1, H2⟩ := seq_second H p
    have q := genSt_static _ _ _ _ _ _ _ H2 h2
    obtain ⟨d1, a1⟩ := ih1 _ _ _ _ _ _ V h1 (seq_first H) (q.si.gr.trans hg) hl hV (fun x hx => hX x (by simp [St.autos, hx]))
    obtain ⟨d2, a2⟩ := ih2 _ _ _ _ _ _ (V ++ s.autos) h2 H2 hg (hl.gr p.si.gr) (fun x hx => by
      rcases List.mem_append.1 hx with hx | hx
      · exact ⟨isSome_locals p.si.gr (hV x hx).1, (hV x hx).2⟩
      · exact ⟨(a1 x hx).2, hX x (by simp [St.autos, hx])⟩) (fun x hx => hX x (by simp [St.autos, hx]))
    refine ⟨fun K hK => ⟨EndD fin X c1, d1 K hK, by rw [exit_flows _ e1]; exact d2 K hK⟩, fun x hx => ?_⟩
    simp only [St.autos, List.mem_append] at hx
    rcases hx with hx | hx
    · exact ⟨(a1 x hx).1, isSome_locals q.si.gr (a1 x hx).2⟩
    · exact ⟨none_locals p.si.gr (a2 x hx).1, (a2 x hx).2⟩
  | expr e =>
    intro sw o cs c cs' c' V h H hg hl hV hX
    simp only [genSt] at h
    obind h v c1 h1
    simp at h; obtain ⟨rfl, rfl⟩ := h
    have ho := exit_true H.ex (r := true) (fun o => rfl)
    subst ho
    obtain ⟨s1, _⟩ := SI.genR (D := fun _ => False) h1 H.names H.st.open H.lab
    obtain ⟨r1, l1, t1⟩ := genR_go (bs := fin.blocks) h1 H.st.open hg.ext
    exact .plain rfl fun K => ⟨used_declared hdom h1 H.st.open hl (s1.gr.trans hg) hg.ext hV, PathD.within t1 hl hg l1⟩
  | ret e =>
    intro sw o cs c cs' c' V h H hg hl hV hX
    have ho := exit_true H.ex (r := false) (fun o => rfl)
    subst ho
    cases e with
    | none =>
      simp only [genSt] at h
      rw [M.bind_ok (setTerm_eq _ _)] at h
      simp at h; obtain ⟨rfl, rfl⟩ := h
      exact .plain rfl fun K => PathD.mono fun d hd => To.withTerm.2 hd
    | some e =>
      simp only [genSt] at h
      obind h v c1 h1
      rw [M.bind_ok (setTerm_eq _ _)] at h
      simp at h; obtain ⟨rfl, rfl⟩ := h
      obtain ⟨s1, o1⟩ := SI.genR (D := fun _ => False) h1 H.names H.st.open H.lab
      have g1 : Gr c1 fin := (SI.withTerm (D := fun _ => False) (.ret v) o1 s1.lab).gr.trans hg
      obtain ⟨r1, l1, t1⟩ := genR_go (bs := fin.blocks) h1 H.st.open g1.ext
      refine .plain rfl fun K => ⟨used_declared hdom h1 H.st.open hl (s1.gr.trans g1) g1.ext hV, PathD.within (c' := c1) (fun d hd => ?_) hl g1 l1⟩
      obtain ⟨d', p, n⟩ := t1 d hd
      exact ⟨d', To.withTerm.2 p, n⟩
  | auto ds =>
    intro sw o cs c cs' c' V h H hg hl hV hX
    have ho := exit_true H.ex (r := true) (fun o => rfl)
    subst ho
    simp only [genSt] at h
    obind h u c1 h1
    obind h u2 c2 h2
    simp at h; obtain ⟨rfl, rfl⟩ := h
    obtain ⟨rfl, a1, a2⟩ := autoCheck_ok _ _ h1
    obtain ⟨t, k, m⟩ := declareAll_thru (bs := fin.blocks) ds h2 H.st.open H.lab (fun d hd => (a1 d hd).2) a2
    refine ⟨fun K _ => PathD.grow (t.go hg.ext) hl hg k, fun x hx => ?_⟩
    obtain ⟨d, hd, rfl⟩ := List.mem_map.1 hx
    exact ⟨(a1 d hd).2, m d hd⟩
  | extrn xs =>
    intro sw o cs c cs' c' V h H hg hl hV hX
    simp only [genSt] at h
    obind h u c1 h1
    simp at h; obtain ⟨rfl, rfl⟩ := h
    obtain ⟨a1, a2, a3, a4, a5, a6⟩ := genExtrn_code _ h1
    refine .plain rfl fun K => PathD.mono fun d hd => ?_
    unfold To
    rw [a1, a2]; exact hd
  | ifThen cn t ih =>
    intro sw o cs c cs' c' V h H hg hl hV hX
    rw [genSt_ifThen] at h
    have hx : ∀ o, (St.ifElse cn t .skip).exit o = (St.ifThen cn t).exit o := by
      intro o; simp only [St.exit]; split
      · cases t.exit true <;> rfl
      · rfl
    have H' : Stat (.ifElse cn t .skip) sw o c := by
      refine ⟨⟨H.names.1, H.names.2, trivial⟩, H.lab, ?_, ⟨H.dist, trivial⟩, fun h => H.cases h, ?_, H.pendC, H.pendF, H.swlt, H.st, by rw [hx]; exact H.ex⟩
      · simpa [St.labels] using H.labels
      · simpa [St.labels] using H.pendL
    have is : NecIH fin X .skip := by
      intro sw o cs c cs' c' V h H hg hl hV hX
      simp only [genSt] at h; simp at h; obtain ⟨rfl, rfl⟩ := h
      exact .plain rfl fun K => fun _ h => h
    obtain ⟨d, a⟩ := nec_if hdom ih is sw o cs c cs' c' V h H' hg hl hV (fun x hx => hX x (by simpa [St.autos] using hx))
    refine ⟨fun K hK => ?_, fun x hx => a x (by simpa [St.autos] using hx)⟩
    obtain ⟨h1, D1, D2, h2, h3, h4, h5⟩ := d K hK
    exact ⟨h1, D1, h2, h4, fun x hx => h3 x (h5 rfl x hx)⟩
  | ifElse cn t e ih1 ih2 => exact nec_if hdom ih1 ih2
  | «while» cn b ih => exact nec_while hdom ih
  | switch e b ih => exact nec_switch hdom ih
  | case v s ih =>
    intro sw o cs c cs' c' V h H hg hl hV hX
    obtain ⟨id, rfl, h⟩ := case_run h
    obtain ⟨a1, a2, a3, a4⟩ := case_static H
    have p := genSt_static _ _ _ _ _ _ _ a4 h
    have e0 : (St.case v s).autos = s.autos := rfl
    obtain ⟨d, a⟩ := ih _ _ _ _ _ _ V h a4 hg (hl.gr a1.gr) (fun x hx => ⟨isSome_locals a1.gr (hV x hx).1, (hV x hx).2⟩) hX
    refine ⟨fun K hK => ?_, fun x hx => ⟨none_locals a1.gr (a x hx).1, (a x hx).2⟩⟩
    obtain ⟨q1, q2⟩ := nec_labelled hg H.st p.si.gr a2 a3 ⟨d, a⟩ hK
    have e := hK id rfl v
    refine ⟨by rw [e]; exact q1, by rw [e]; exact q2⟩
  | label l s ih =>
    intro sw o cs c cs' c' V h H hg hl hV hX
    have h := label_run h
    obtain ⟨a1, a2, a3, a4⟩ := label_static H
    have p := genSt_static _ _ _ _ _ _ _ a4 h
    obtain ⟨d, a⟩ := ih _ _ _ _ _ _ V h a4 hg (hl.gr a1.gr) (fun x hx => ⟨isSome_locals a1.gr (hV x hx).1, (hV x hx).2⟩) hX
    exact ⟨fun K hK => nec_labelled hg H.st p.si.gr a2 a3 ⟨d, a⟩ hK, fun x hx => ⟨none_locals a1.gr (a x hx).1, (a x hx).2⟩⟩
  | goto l =>
    intro sw o cs c cs' c' V h H hg hl hV hX
    have ho := exit_true H.ex (r := true) (fun o => rfl)
    subst ho
    obtain ⟨s1, st1, e1⟩ := goto_SI (D := fun _ => False) H.st.open H.lab h
    have hl' : lookup l c'.labels = some (labelBlock l c) := by
      obtain ⟨rfl, _⟩ := goto_run h
      show lookup l (withLabel l c).labels = _
      unfold withLabel labelBlock
      cases hx : lookup l c.labels with
      | some b => simp [hx]
      | none => simp [lookup_insert]
    refine .plain rfl fun K => PathD.mono fun d hd => ⟨_, hg.labels _ _ hl', ?_⟩
    exact (hd.label l).term (e1.trans hg.ext) (by simp [Term.targets])

/-! ### functions -/

theorem LocOk.insert {x : Name} {a : Nat} (h : LocOk c) (ha : a < c.nextReg) : LocOk { c with locals := Blang.insert x (.reg a) c.locals } := by
  intro y v hy
  rcases lookup_insert_or hy with rfl | hy
  · exact ⟨a, rfl, ha⟩
  · exact h y v hy

theorem LocOk.emitted (h : LocOk c) (i : Inst) : LocOk (emitted c i) := h.same rfl (Nat.le_succ _)

theorem func_thru {x : Name} {v : Val} (h : getOrCreateFunc x c = .ok v c') (ho : Open c) (hl : LocOk c) : Thru bs c c' ∧ LocOk c' := by
  unfold getOrCreateFunc at h
  split at h <;> cases h
  · exact ⟨.refl ho, hl⟩
  · exact ⟨.same ho rfl rfl rfl rfl, hl.same rfl (Nat.le_refl _)⟩

theorem firstParam_thru {p : Name} {u : Unit} (h : firstParam p c = .ok u c') (ho : Open c) (hl : LocOk c) : Thru bs c c' ∧ LocOk c' := by
  have t1 := Thru.emit (bs := bs) (emit_eq (.alloca .i64) c) ho
  have t2 := t1.trans (.emit (emit_eq (.store .param (.reg c.nextReg)) _) t1.inv.opn)
  cases h
  exact ⟨t2.trans (.local t2.inv.opn), ((hl.emitted _).emitted _).insert (by show c.nextReg < c.nextReg + 1 + 1; omega)⟩

theorem vaParams_thru {v : Val} : ∀ (ps : List Name) {c c' : CState} {u : Unit}, vaParams v ps c = .ok u c' → Open c → LocOk c → Thru bs c c' ∧ LocOk c'
  | [], c, c', u, h, ho, hl => by cases h; exact ⟨.refl ho, hl⟩
  | p :: ps, c, c', u, h, ho, hl => by
    unfold Blang.vaParams at h
    rw [M.bind_ok (emit_eq _ _), M.bind_ok (emit_eq _ _), M.bind_ok (emit_eq _ _)] at h
    have t1 := Thru.emit (bs := bs) (emit_eq (.alloca .i64) c) ho
    have t2 := t1.trans (.emit (emit_eq (.vaarg v) _) t1.inv.opn)
    have t3 := t2.trans (.emit (emit_eq (.store (.reg (c.nextReg + 1)) (.reg c.nextReg)) _) t2.inv.opn)
    have t4 := t3.trans (.local (x := p) (v := .reg c.nextReg) t3.inv.opn)
    have k4 := (((hl.emitted (.alloca .i64)).emitted (.vaarg v)).emitted (.store (.reg (c.nextReg + 1)) (.reg c.nextReg))).insert (x := p) (a := c.nextReg)
      (by show c.nextReg < c.nextReg + 1 + 1 + 1; omega)
    obtain ⟨t5, k5⟩ := vaParams_thru ps h t4.inv.opn k4
    exact ⟨t4.trans t5, k5⟩

theorem paramCode_thru (ps : List Name) {u : Unit} (h : paramCode ps c = .ok u c') (ho : Open c) (hl : LocOk c) : Thru bs c c' ∧ LocOk c' := by
  unfold Blang.paramCode at h
  split at h
  · cases h; exact ⟨.refl ho, hl⟩
  · exact firstParam_thru h ho hl
  · obind h u1 c1 h1
    obtain ⟨t1, k1⟩ := firstParam_thru (bs := bs) h1 ho hl
    rw [M.bind_ok (emit_eq _ _), M.bind_ok (emit_eq _ _)] at h
    have t2 := t1.trans (.emit (emit_eq (.alloca (.bytes 48)) _) t1.inv.opn)
    have t3 := t2.trans (.emit (emit_eq (.gepField (.bytes 48) (.reg c1.nextReg) 0) _) t2.inv.opn)
    have k3 := (k1.emitted (.alloca (.bytes 48))).emitted (.gepField (.bytes 48) (.reg c1.nextReg) 0)
    obind h f c4 h4
    obtain ⟨t4', k4⟩ := func_thru (bs := bs) h4 t3.inv.opn k3
    have t4 := t3.trans t4'
    rw [M.bind_ok (emit_eq _ _)] at h
    have t5 := t4.trans (.emit (emit_eq (.call f [.reg (c1.nextReg + 1)]) _) t4.inv.opn)
    have k5 := k4.emitted (.call f [.reg (c1.nextReg + 1)])
    obind h u6 c6 h6
    obtain ⟨t6', k6⟩ := vaParams_thru (bs := bs) _ h6 t5.inv.opn k5
    have t6 := t5.trans t6'
    obind h f' c7 h7
    obtain ⟨t7', k7⟩ := func_thru (bs := bs) h7 t6.inv.opn k6
    have t7 := t6.trans t7'
    have t8 := t7.trans (.emit (emit_eq (.call f' [.reg (c1.nextReg + 1)]) _) t7.inv.opn)
    cases h
    exact ⟨t8, k7.emitted _⟩

/-- **Necessity**: if definitions dominate uses, variables are declared first. -/
theorem FuncRun.necessary {f : Name} {ps : List Name} {b : St} {c : CState} {bs : List Block} (r : FuncRun f ps b c bs) (hn : b.All NameOk)
    (h1 : (b.exit true).isSome) (h2 : b.labels.Nodup) (h3 : b.Distinct) (hd : ∀ a, Dominated bs a) : b.DeclaredFirst := by
  have ho0 : Open (entered (defFunc f ps) r.c1) := ⟨⟨"entry".toList, [], none⟩, rfl, rfl⟩
  have hs0 : Start (entered (defFunc f ps) r.c1) := ⟨⟨"entry".toList, [], none⟩, rfl, rfl, rfl⟩
  have hl0 : LocOk (entered (defFunc f ps) r.c1) := by intro x v h; simp [entered, lookup] at h
  obtain ⟨t, k⟩ := paramCode_thru (bs := bs) ps r.entry ho0 hl0
  have el : r.c2.labels = [] := t.labels
  have lab : LabOk r.c2 := ⟨by rw [el]; intro l l' b h; simp [lookup] at h, by rw [el]; intro l b h; simp [lookup] at h⟩
  have pend : ∀ l, Pend l r.c2 := by intro l b h; rw [el] at h; simp [lookup] at h
  have st : Stat b none true r.c2 := ⟨hn, lab, h2, h3, fun h => (by cases h), fun l _ => pend l,
    fun _ _ h => (by cases h), fun _ _ _ => pend _, fun _ h => (by cases h), t.inv.opn.status, Option.isSome_iff_exists.1 h1⟩
  have post := genSt_static _ _ _ _ _ _ _ st r.body
  obtain ⟨o', ho'⟩ := Option.isSome_iff_exists.1 h1
  have gc := (post.st o' ho').gr_closeTo
  have g2 := post.si.gr.trans gc
  have ebs : (closeTo r.c3).blocks = bs := (closeTo_blocks _).trans r.blocks.symm
  obtain ⟨d, a⟩ := nec_all (fin := closeTo r.c3) (X := fun x => x ∈ b.autos) (by rw [ebs]; exact hd) b _ _ _ _ _ _ [] r.body st gc k nofun (fun _ h => h)
  refine ⟨_, fun _ _ => False, _, (d (fun _ _ => False) nofun).more _ ?_⟩
  rintro x ⟨hx, r', hr, hp⟩
  have g2e := g2.ext
  rw [ebs] at g2e
  obtain ⟨d', hd', n⟩ := t.go g2e [] (hs0.to.2 (by exact .start))
  rw [ebs] at hp
  have ha := hp d' hd'
  have hlt : r' < r.c2.nextReg := by
    rcases n r' ha with h | ⟨_, h⟩
    · cases h
    · exact h
  rcases g2.new x _ hr with h | ⟨r'', e, h, _⟩
  · rw [(a x hx).1] at h; cases h
  · cases e; omega
end

end Blang
