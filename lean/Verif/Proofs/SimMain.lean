import Verif.Proofs.SimSt
/-
One step of the meaning of a function body is some steps of its code.
-/
namespace Blang
open Spec

section
variable {M : IRMachine} {R : Calls M.World} {args : List Word} {Ei : Env} {fin : CState}

/-- the cells of the locals are in the registers in which the code expects them -/
def MR (fin : CState) (ρ : Frame) (g : Cfg M.World) : Prop :=
  ∀ x a, ρ x = some a → ∃ r, lookup x fin.locals = some (.reg r) ∧ g.regs r = some a

theorem MR.run {ρ : Frame} {c c' : CState} {g g' : Cfg M.World} {bs : List Block} (h : MR fin ρ g) (hr : Run R bs args c g c' g')
    (hl : c'.locals = c.locals) (hc : LocOk c) (hg : Gr c' fin) : MR fin ρ g' := by
  intro x a hx
  obtain ⟨r, h1, h2⟩ := h x a hx
  refine ⟨r, h1, ?_⟩
  rw [hr.regs r ?_]; exact h2
  rcases hg.new x _ h1 with h3 | ⟨r', e, h3, _⟩
  · rw [hl] at h3
    obtain ⟨r', e, h4⟩ := hc x _ h3
    cases e; exact .inl h4
  · cases e; exact .inr h3

theorem MR.regs {ρ : Frame} {g g' : Cfg M.World} (h : MR fin ρ g) (hr : g'.regs = g.regs) : MR fin ρ g' := by
  intro x a hx
  obtain ⟨r, h1, h2⟩ := h x a hx
  exact ⟨r, h1, by rw [hr]; exact h2⟩

theorem PM.ectx {P : Place} {c : CState} {ρ : Frame} {g : Cfg M.World} (hd : ∀ x ∈ Ei.vars, x ∉ Ei.funs) (h : PM P c)
    (hle : Env.Le P.env Ei) (ho : Open c) (hat : At c g) (hm : MR fin ρ g) (hg : Gr c fin) : ECtx P.env ρ P.lits c g := by
  refine ⟨ho, hat, ⟨h.tabs.ctxv, h.tabs.fns, ?_⟩, h.knows.locals, h.knows.exts, h.str, ?_⟩
  · intro x hx hf
    obtain ⟨h1, h2⟩ := h.tabs.ctxn x hx
    exact hd x (hle.vars x ((h.knows.vars x h1).2 h2)) (hle.funs x ((h.knows.funs x h1).2 hf))
  · intro x a hx ha
    obtain ⟨r, h1, h2⟩ := hm x a ha
    have hs := (h.knows.locals x).1 hx
    cases hl : lookup x c.locals with
    | none => rw [hl] at hs; cases hs
    | some v =>
      rw [hg.locals x v hl] at h1
      cases h1
      obtain ⟨r', e, hr⟩ := h.loc x _ hl
      cases e
      exact ⟨r, rfl, hr, h2⟩

/-- the value of an expression -/
theorem value_run {P : Place} {c c1 : CState} {ρ : Frame} {g : Cfg M.World} {e : Ex} {v : Val} {w : Word} {st : Store M.World}
    (hd : ∀ x ∈ Ei.vars, x ∉ Ei.funs) (h : PM P c) (hle : Env.Le P.env Ei) (ho : Open c) (hat : At c g) (hm : MR fin ρ g)
    (hn : e.All NameOk) (hcal : ∀ f ∈ e.callees, f ∉ Ei.locals) (hg : genR e c = .ok v c1) (hfin : Gr c1 fin)
    (hv : e.Value M.toB R P ρ g.st w st) :
    ∃ g', Run R fin.blocks args c g c1 g' ∧ g'.st = st ∧ Holds M args c1 g' v w ∧ MR fin ρ g' := by
  obtain ⟨d, he, rfl⟩ := hv
  have k := KE.genR e _ _ _ hg ho
  have er := ER.stable.genR e hn _ _ _ hg
  have ctx : ECtx P.env ρ P.lits c g := h.ectx hd hle ho hat hm ((Gr.of_expr k er).trans hfin)
  unfold genR at hg
  obind hg lv c0 h0
  obtain ⟨g', r1, r2, r3, _⟩ := (genL_sim (R := R) (bs := fin.blocks) (args := args) e hn (fun f hf hl => hcal f hf (hle.locals f hl))).rv hn ctx h0 hg hfin.ext he
  exact ⟨g', r1, r2, r3, hm.run r1 er.locals h.loc hfin⟩

theorem At.add3 {c : CState} {g : Cfg M.World} (h : At c g) (x y z : Name) : At (add3 (bump c) x y z) g := by
  obtain ⟨h1, b, h2, h3⟩ := h
  refine ⟨h1, b, ?_, h3⟩
  show (c.blocks ++ _)[c.cur]? = _
  rw [List.getElem?_append_left, h2]
  apply Nat.lt_of_not_le; intro hl; rw [List.getElem?_eq_none hl] at h2; cases h2

theorem At.withLabel {c : CState} {g : Cfg M.World} (h : At c g) (l : Name) : At (withLabel l c) g := by
  obtain ⟨h1, b, h2, h3⟩ := h
  refine ⟨by rw [withLabel_cur]; exact h1, b, ?_, h3⟩
  rw [withLabel_cur]
  unfold Blang.withLabel
  cases lookup l c.labels with
  | some b => exact h2
  | none =>
    show (c.blocks ++ _)[c.cur]? = _
    rw [List.getElem?_append_left, h2]
    apply Nat.lt_of_not_le; intro hl; rw [List.getElem?_eq_none hl] at h2; cases h2

/-- a test for zero and the jump -/
theorem test_run {ρ : Frame} {c1 : CState} {v : Val} {w : Word} {t e : Nat} {g : Cfg M.World} (ho : Open c1) (hat : At c1 g)
    (hv : Holds M args c1 g v w)
    (hg : Gr (withTerm (emitted c1 (.icmp .ne v (.const 0))) (.condbr (.reg c1.nextReg) t e)) fin)
    (hm : MR fin ρ g) (hl : LocOk c1) :
    ∃ g', IRSteps M R fin.blocks args g g' ∧ g'.st = g.st ∧ MR fin ρ g' ∧ g'.blk = (if w ≠ 0 then t else e) ∧ g'.pc = 0 := by
  have oe := (KE.emit (.icmp .ne v (.const 0)) _ _ _ (emit_eq _ c1) ho).opn
  have hbe := (withTerm_ext oe (.condbr (.reg c1.nextReg) t e)).trans hg.ext
  have ge : Gr (emitted c1 (.icmp .ne v (.const 0))) fin := ⟨hbe, hg.locals, hg.new, hg.labels, hg.reg, hg.id⟩
  obtain ⟨g1, r1, r2, r3⟩ := emit_run (R := R) (bs := fin.blocks) (args := args) (i := .icmp .ne v (.const 0)) (emit_eq _ c1) hbe hat
    (r := if Pred.sem w 0 .ne then 1 else 0) (st := g.st) ⟨⟨w, 0, hv.now, rfl, rfl⟩, rfl, rfl⟩
  refine ⟨g1.jump (if w ≠ 0 then t else e), steps_trans r1.steps (steps_one (term_step r1.arr hg.ext ⟨_, r3.now, ?_⟩)), r2,
    (hm.run r1 rfl hl ge).regs rfl, rfl, rfl⟩
  by_cases hw : w = 0
  · subst hw; rfl
  · have : Pred.sem w 0 .ne = true := by simpa [Pred.sem] using hw
    rw [if_pos hw, this]; rfl

/-! ### `auto` -/

theorem declareOne_run {x : Name} {n : Option Word} {c c' : CState} {u : Unit} {ρ : Frame} {g : Cfg M.World}
    (h : declareOne x (n.getD (-1)) c = .ok u c') (hn : n ≠ some (-1)) (ho : Open c) (hat : At c g) (hm : MR fin ρ g) (hloc : LocOk c)
    (hx : lookup x c.locals = none) (hfin : Gr c' fin) :
    ∃ g', IRSteps M R fin.blocks args g g' ∧ At c' g' ∧ MR fin (declare M.toB [(x, n)] ρ g.st).1 g' ∧
      g'.st = (declare M.toB [(x, n)] ρ g.st).2 := by
  unfold declareOne at h
  replace h := ite_ok h
  rcases h with ⟨hs, h⟩ | ⟨hs, h⟩
  · have e : n = none := by
      cases n with
      | none => rfl
      | some w => exact absurd (congrArg some hs) hn
    subst e
    unfold declareLocal at h
    obind h a c1 h1
    obind h b c2 h2
    simp at h; subst h
    have hb2 : Ext c2.blocks fin.blocks := hfin.ext
    have o1 := (KE.emit _ _ _ _ h1 ho).opn
    have hb1 : Ext c1.blocks fin.blocks := (KE.emit _ _ _ _ h2 o1).ext.trans hb2
    obtain ⟨g1, r1, s1, v1⟩ := emit_run (R := R) (bs := fin.blocks) (args := args) (i := .alloca .i64) h1 hb1 hat
      (r := (M.alloc g.st.world 8).1) (st := ⟨g.st.mem, (M.alloc g.st.world 8).2⟩) ⟨rfl, rfl, rfl⟩
    obtain ⟨g2, r2, s2, v2⟩ := emit_run (R := R) (bs := fin.blocks) (args := args) (i := .store (.const 0) a) h2 hb2 r1.arr
      (r := 0) (st := g1.st.store (M.alloc g.st.world 8).1 0) ⟨⟨0, _, rfl, v1.now, rfl⟩, rfl, rfl⟩
    obtain ⟨rfl, n1⟩ := emit_reg h1
    obtain ⟨_, n2⟩ := emit_reg h2
    have el : c2.locals = c.locals := (emit_locals h2).trans (emit_locals h1)
    have r12 := r1.trans r2
    refine ⟨g2, r12.steps, r12.arr, ?_, by rw [s2, s1]; rfl⟩
    intro y b hy
    have hy : (ρ.bind x (M.alloc g.st.world 8).1) y = some b := hy
    by_cases exy : y = x
    · subst exy
      have hy := Option.some.inj ((if_pos rfl).symm.trans hy)
      subst hy
      refine ⟨c.nextReg, hfin.locals _ _ (by simp only [lookup_insert, if_true]), ?_⟩
      have := (v1.later r2).now
      exact this
    · have hy : ρ y = some b := (if_neg exy).symm.trans hy
      obtain ⟨r, k1, k2⟩ := hm y b hy
      refine ⟨r, k1, ?_⟩
      rw [r12.regs r ?_]; exact k2
      rcases hfin.new y _ k1 with k3 | ⟨r', e, k3, _⟩
      · simp only [lookup_insert] at k3
        rw [if_neg (fun e => exy e.symm), el] at k3
        obtain ⟨r', e, k4⟩ := hloc y _ k3
        cases e; exact .inl k4
      · cases e; exact .inr k3
  · cases n with
    | none => exact absurd rfl hs
    | some n =>
    have hs : n ≠ -1 := hs
    have h : declareLocalArray x n c = .ok u c' := h
    unfold declareLocalArray at h
    generalize hsz : (if n = 0 then 1 else n) = sz at h
    have hsz' : (sz + 1).toNat = (if n = 0 then 1 else n.toNat) + 1 := by
      subst hsz
      split
      · rfl
      · rw [BitVec.toNat_add]
        have : n.toNat < 2 ^ 64 := n.isLt
        have : n.toNat ≠ 2 ^ 64 - 1 := by
          intro e
          apply hs
          apply BitVec.eq_of_toNat_eq
          rw [e]; rfl
        have e1 : (1 : BitVec 64).toNat = 1 := rfl
        rw [e1]
        omega
    rw [hsz'] at h
    generalize hk : (if n = 0 then 1 else n.toNat) = k at h
    obind h a c1 h1
    obind h b c2 h2
    obind h b3 c3 h3
    obind h b4 c4 h4
    obind h b5 c5 h5
    simp at h; subst h
    have o1 := (KE.emit _ _ _ _ h1 ho).opn
    have k2 := KE.emit _ _ _ _ h2 o1
    have k3 := KE.emit _ _ _ _ h3 k2.opn
    have k4 := KE.emit _ _ _ _ h4 k3.opn
    have k5 := KE.emit _ _ _ _ h5 k4.opn
    have hb5 : Ext c5.blocks fin.blocks := hfin.ext
    have hb4 := k5.ext.trans hb5
    have hb3 := k4.ext.trans hb4
    have hb2 := k3.ext.trans hb3
    have hb1 := k2.ext.trans hb2
    obtain ⟨g1, r1, s1, v1⟩ := emit_run (R := R) (bs := fin.blocks) (args := args) (i := .alloca (.arr (k + 1))) h1 hb1 hat
      (r := (M.alloc g.st.world (8 * (k + 1))).1) (st := ⟨g.st.mem, (M.alloc g.st.world (8 * (k + 1))).2⟩) ⟨rfl, rfl, rfl⟩
    obtain ⟨g2, r2, s2, v2⟩ := emit_run (R := R) (bs := fin.blocks) (args := args) (i := .gepField (.arr (k + 1)) a 1) h2 hb2 r1.arr
      (r := (M.alloc g.st.world (8 * (k + 1))).1 + BitVec.ofNat 64 (elemSize (.arr (k + 1)) * 1)) (st := g1.st) ⟨⟨_, v1.now, rfl⟩, rfl, rfl⟩
    obtain ⟨g3, r3, s3, v3⟩ := emit_run (R := R) (bs := fin.blocks) (args := args) (i := .ptrtoint b) h3 hb3 r2.arr
      (r := (M.alloc g.st.world (8 * (k + 1))).1 + BitVec.ofNat 64 (elemSize (.arr (k + 1)) * 1)) (st := g2.st) ⟨v2.now, rfl, rfl⟩
    obtain ⟨g4, r4, s4, v4⟩ := emit_run (R := R) (bs := fin.blocks) (args := args) (i := .gepField (.arr (k + 1)) a 0) h4 hb4 r3.arr
      (r := (M.alloc g.st.world (8 * (k + 1))).1 + BitVec.ofNat 64 (elemSize (.arr (k + 1)) * 0)) (st := g3.st)
      ⟨⟨_, ((v1.later r2).later r3).now, rfl⟩, rfl, rfl⟩
    obtain ⟨g5, r5, s5, v5⟩ := emit_run (R := R) (bs := fin.blocks) (args := args) (i := .store b3 b4) h5 hb5 r4.arr
      (r := 0) (st := g4.st.store ((M.alloc g.st.world (8 * (k + 1))).1 + BitVec.ofNat 64 (elemSize (.arr (k + 1)) * 0))
        ((M.alloc g.st.world (8 * (k + 1))).1 + BitVec.ofNat 64 (elemSize (.arr (k + 1)) * 1)))
      ⟨⟨_, _, (v3.later r4).now, v4.now, rfl⟩, rfl, rfl⟩
    obtain ⟨_, n1⟩ := emit_reg h1
    obtain ⟨_, n2⟩ := emit_reg h2
    obtain ⟨_, n3⟩ := emit_reg h3
    obtain ⟨rfl, n4⟩ := emit_reg h4
    obtain ⟨_, n5⟩ := emit_reg h5
    have e0 : (M.alloc g.st.world (8 * (k + 1))).1 + BitVec.ofNat 64 (elemSize (.arr (k + 1)) * 0) = (M.alloc g.st.world (8 * (k + 1))).1 := by
      simp [elemSize]
    have e1 : (M.alloc g.st.world (8 * (k + 1))).1 + BitVec.ofNat 64 (elemSize (.arr (k + 1)) * 1) = (M.alloc g.st.world (8 * (k + 1))).1 + 8 := by
      simp [elemSize]
    rw [e0, e1] at s5
    rw [e0] at v4
    have el : c5.locals = c.locals := (emit_locals h5).trans ((emit_locals h4).trans ((emit_locals h3).trans ((emit_locals h2).trans (emit_locals h1))))
    have rr := (((r1.trans r2).trans r3).trans r4).trans r5
    have ed : declare M.toB [(x, some n)] ρ g.st = (ρ.bind x (M.alloc g.st.world (8 * (k + 1))).1,
        (Store.mk g.st.mem (M.alloc g.st.world (8 * (k + 1))).2).store (M.alloc g.st.world (8 * (k + 1))).1 ((M.alloc g.st.world (8 * (k + 1))).1 + 8)) := by
      simp only [declare, hk]
    rw [ed]
    refine ⟨g5, rr.steps, rr.arr, ?_, by rw [s5, s4, s3, s2, s1]⟩
    intro y b hy
    have hy : (ρ.bind x (M.alloc g.st.world (8 * (k + 1))).1) y = some b := hy
    by_cases exy : y = x
    · subst exy
      have hy := Option.some.inj ((if_pos rfl).symm.trans hy)
      subst hy
      refine ⟨c3.nextReg, hfin.locals _ _ (by simp only [lookup_insert, if_true]), ?_⟩
      have := (v4.later r5).now
      exact this
    · have hy : ρ y = some b := (if_neg exy).symm.trans hy
      obtain ⟨r, k1, k2⟩ := hm y b hy
      refine ⟨r, k1, ?_⟩
      rw [rr.regs r ?_]; exact k2
      rcases hfin.new y _ k1 with k3 | ⟨r', e, k3, _⟩
      · simp only [lookup_insert] at k3
        rw [if_neg (fun e => exy e.symm), el] at k3
        obtain ⟨r', e, k4⟩ := hloc y _ k3
        cases e; exact .inl k4
      · cases e; exact .inr k3

theorem declare_cons {B : BMachine} (d : Ident × Option Word) (ds : List (Ident × Option Word)) (ρ : Frame) (s : Store B.World) :
    declare B (d :: ds) ρ s = declare B ds (declare B [d] ρ s).1 (declare B [d] ρ s).2 := by
  obtain ⟨x, n⟩ := d
  cases n <;> rfl

theorem declareAll_run : ∀ (ds : List (Name × Option Word)) {c c' : CState} {u : Unit} {ρ : Frame} {g : Cfg M.World},
    declareAll (ds.map autoSizeOf) c = .ok u c' → (∀ d ∈ ds, d.2 ≠ some (-1)) → Open c → LabOk c → At c g → MR fin ρ g → LocOk c →
    (∀ d ∈ ds, lookup d.1 c.locals = none) → (ds.map (·.1)).Nodup → Gr c' fin →
    ∃ g', IRSteps M R fin.blocks args g g' ∧ At c' g' ∧ MR fin (declare M.toB ds ρ g.st).1 g' ∧ g'.st = (declare M.toB ds ρ g.st).2
  | [], c, c', u, ρ, g, h, _, ho, hl, hat, hm, hloc, _, _, hfin => by
    simp only [List.map_nil, declareAll] at h; simp at h; subst h
    exact ⟨g, .refl, hat, hm, rfl⟩
  | (x, n) :: ds, c, c', u, ρ, g, h, hn, ho, hl, hat, hm, hloc, hx, hnd, hfin => by
    simp only [List.map_cons, List.nodup_cons] at hnd
    simp only [List.map_cons, autoSizeOf, declareAll] at h
    obind h u1 c1 h1
    obtain ⟨s1, o1, r, e1⟩ := declareOne_SI (D := fun _ => False) h1 ho hl (hx (x, n) (by simp))
    have hx' : ∀ d ∈ ds, lookup d.1 c1.locals = none := fun d hd => by
      rw [e1, lookup_insert, if_neg (fun e : x = d.1 => hnd.1 (List.mem_map.2 ⟨d, hd, e.symm⟩))]
      exact hx d (by simp [hd])
    obtain ⟨s2, o2⟩ := declareAll_SI (D := fun _ => False) ds h o1 s1.lab hx' hnd.2
    obtain ⟨g1, q1, q2, q3, q4⟩ := declareOne_run (R := R) (args := args) h1 (hn (x, n) (by simp)) ho hat hm hloc (hx (x, n) (by simp)) (s2.gr.trans hfin)
    obtain ⟨g2, p1, p2, p3, p4⟩ := declareAll_run ds h (fun d hd => hn d (by simp [hd])) o1 s1.lab q2 q3 (hloc.gr s1.gr) hx' hnd.2 hfin
    rw [declare_cons]
    rw [q4] at p3 p4
    exact ⟨g2, steps_trans q1 p1, p2, p3, p4⟩

/-! ### states -/

variable (Ei fin args) in
/-- the state of the code corresponds to that of the program -/
def Match : BState M.World → Cfg M.World → Prop
  | .run P s k ρ σ, g => g.st = σ ∧ MR fin ρ g ∧
      ((s = .skip ∧ ∃ c, Open c ∧ At c g ∧ KM Ei fin k c) ∨ (∃ c, At c g ∧ Ready Ei fin s P k c) ∨
        ∃ cn b c0, s = .while cn b ∧ Ready Ei fin s P k c0 ∧ g.blk = c0.blocks.length ∧ g.pc = 0)
  | .done v σ, g => Returns M fin.blocks args g v ∧ g.st = σ

variable (Ei fin args) in
/-- what has been reached at the end of a statement -/
def Finished (g : Cfg M.World) : Cont → Prop
  | .stop => Returns M fin.blocks args g 0
  | .seq Q t k => ∃ c, At c g ∧ Ready Ei fin t Q k c
  | .loop Q cn b k => ∃ c0, Ready Ei fin (.while cn b) Q k c0 ∧ g.blk = c0.blocks.length ∧ g.pc = 0

/-- the end of a statement -/
theorem KM.finish {k : Cont} {c : CState} {g : Cfg M.World} (h : KM Ei fin k c) (ho : Open c) (hat : At c g) :
    ∃ g', IRSteps M R fin.blocks args g g' ∧ g'.st = g.st ∧ g'.regs = g.regs ∧ Finished args Ei fin g' k := by
  induction h generalizing g with
  | @stop c hg =>
    refine ⟨g, .refl, rfl, rfl, ?_⟩
    unfold closeTo at hg
    rw [if_pos ho.curTerm] at hg
    obtain ⟨b, h1, h2, h3⟩ := term_block hat hg.ext
    exact ⟨b, _, h1, h2, h3, rfl⟩
  | @seq Q t k sw o cs cs' c c' hg hs hp hok hgr km _ =>
    have eo : o = true := by
      cases o with
      | true => rfl
      | false => exact absurd ho hs.st.not_open
    subst eo
    exact ⟨g, .refl, rfl, rfl, c, hat, G.ready ⟨hg, hs, hp, hok, hgr, km⟩⟩
  | @jump k b c c2 hg hs hc km ih =>
    rw [brTo_open ho] at hg
    obtain ⟨g', q1, q2, q3, q4⟩ := ih (g := g.jump b) hs.open (.start hs hc.symm rfl)
    exact ⟨g', .head (term_step hat hg.ext rfl) q1, q2, q3, q4⟩
  | @loop Q cn b k sw o cs cs' c c0 c' hg hgen hs hp hok hgr km _ =>
    rw [brTo_open ho] at hg
    have G0 : G Ei fin (.while cn b) Q k sw o cs c0 cs' c' := ⟨hgen, hs, hp, hok, hgr, km⟩
    obtain ⟨rfl, _⟩ := G0.while
    exact ⟨g.jump c0.blocks.length, steps_one (term_step hat hg.ext rfl), rfl, rfl, c0, G0.ready, rfl, rfl⟩

end
end Blang
