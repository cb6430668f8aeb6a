import Verif.Proofs.SimExpr
import Verif.Spec.Events
/-
The code of an expression makes the calls that the evaluation of the expression makes.
-/
namespace Blang
open Spec

section
variable {M : IRMachine} {R : Calls M.World} {bs : List Block} {args : List Word} {E : Env} {ρ : Frame}

variable (R bs args) in
/-- from `g` the code gets to the call -/
def GetsTo (g : Cfg M.World) (a : Word) (ws : List Word) (st : Store M.World) : Prop :=
  ∃ g', IRSteps M R bs args g g' ∧ g'.st = st ∧ g'.Calling M bs args a ws

theorem GetsTo.after {g g1 : Cfg M.World} {a : Word} {ws : List Word} {st : Store M.World} (h : IRSteps M R bs args g g1)
    (h1 : GetsTo R bs args g1 a ws st) : GetsTo R bs args g a ws st := by
  obtain ⟨g', q1, q2, q3⟩ := h1
  exact ⟨g', steps_trans h q1, q2, q3⟩

/-- the next instruction -/
theorem emit_next {i : Inst} {c c' : CState} {v : Val} {g : Cfg M.World} (h : emit i c = .ok v c') (hb : Ext c'.blocks bs) (hat : At c g) :
    ∃ b : Block, bs[g.blk]? = some b ∧ b.insts[g.pc]? = some (c.nextReg, i) := by
  obtain ⟨rfl, hbl, hc, hr⟩ := emit_blocks h
  obtain ⟨h1, b, h2, h3⟩ := hat
  have hcur : c'.blocks[c.cur]? = some { b with insts := b.insts ++ [(c.nextReg, i)] } := by
    rw [hbl, List.getElem?_modify]; simp [h2]
  obtain ⟨b', hb', e⟩ := hb _ _ hcur
  refine ⟨b', by rw [h1]; exact hb', ?_⟩
  obtain ⟨l, hl⟩ := e.insts
  rw [← hl, h3]
  simp

theorem genCall_enters {fv v : Val} {vs : List Val} {c c' : CState} {g : Cfg M.World} {a : Word} {ws : List Word}
    (h : genCall fv vs c = .ok v c') (ho : Open c) (hb : Ext c'.blocks bs) (hat : At c g) (hf : Holds M args c g fv a)
    (hfn : ∀ s b k, fv = .func s b k → ∃ x, s = globalName x)
    (hv : HoldsAll M args c g vs ws) : GetsTo R bs args g a ws g.st := by
  have two : ∀ (i : Inst) (hi : ∀ g : Cfg M.World, valSem M args g.regs fv = some a → Inst.Sem M R args g a g.va g.st i),
      (do let x ← emit i; emit (.call x vs) : B Val) c = .ok v c' → GetsTo R bs args g a ws g.st := by
    intro i hi h
    obind h x c1 h1
    have k1 := KE.emit _ _ _ _ h1 ho
    have k2 := KE.emit _ _ _ _ h k1.opn
    obtain ⟨g1, r1, s1, v1⟩ := emit_run (R := R) (args := args) h1 (k2.ext.trans hb) hat (hi g hf.now)
    obtain ⟨b, q1, q2⟩ := emit_next h hb r1.arr
    exact ⟨g1, r1.steps, s1, b, _, x, vs, q1, q2, fun s b k e => absurd e (emit_noFn h1 s b k), v1.now, (hv.later r1).now⟩
  cases fv with
  | func s b k =>
    simp only [genCall] at h
    replace h := ite_ok h
    rcases h with ⟨_, h⟩ | ⟨_, h⟩
    · exact two (.bitcast (.func s b k)) (fun g hg => ⟨hg, rfl, rfl⟩) h
    · obtain ⟨x, rfl⟩ := hfn _ _ _ rfl
      have hva := globalName_ne_va x
      obtain ⟨b, q1, q2⟩ := emit_next h hb hat
      exact ⟨g, .refl, rfl, b, _, _, vs, q1, q2, fun s b k e => (by cases e; exact hva), hf.now, hv.now⟩
  | const k => exact two (.inttofn (.const k) (if 1 ≤ vs.length then 1 else 0)) (fun g hg => ⟨hg, rfl, rfl⟩) h
  | reg k => exact two (.inttofn (.reg k) (if 1 ≤ vs.length then 1 else 0)) (fun g hg => ⟨hg, rfl, rfl⟩) h
  | glob s t => exact two (.inttofn (.glob s t) (if 1 ≤ vs.length then 1 else 0)) (fun g hg => ⟨hg, rfl, rfl⟩) h
  | param => exact two (.inttofn (.param) (if 1 ≤ vs.length then 1 else 0)) (fun g hg => ⟨hg, rfl, rfl⟩) h

variable (R bs args E ρ) in
/-- the code of the expression makes its calls -/
def EntE (e : Ex) : Prop :=
  ∀ (n : Nat) (c c' : CState) (v : LV) (g : Cfg M.World) (a : Word) (ws : List Word) (st : Store M.World), ECtx E ρ n c g →
    genL e c = .ok v c' → Ext c'.blocks bs → e.Enters M.toB R E ρ n g.st a ws st → GetsTo R bs args g a ws st

variable (R bs args E ρ) in
def EntA (es : List Ex) : Prop :=
  ∀ (n : Nat) (c c' : CState) (vs : List Val) (g : Cfg M.World) (a : Word) (ws : List Word) (st : Store M.World), ECtx E ρ n c g →
    genArgs es c = .ok vs c' → Ext c'.blocks bs → Ex.EntersArgs M.toB R E ρ es n g.st a ws st → GetsTo R bs args g a ws st

theorem cond_enters {cn t e : Ex} (ic : EntE R bs args E ρ cn) (it : EntE R bs args E ρ t) (ie : EntE R bs args E ρ e)
    (hn : (Ex.cond cn t e).All NameOk) (hf : ∀ f ∈ (Ex.cond cn t e).callees, f ∉ E.locals) : EntE R bs args E ρ (.cond cn t e) := by
  intro n c c' v g a ws st hc h hb he
  simp only [Ex.Enters] at he
  simp only [Ex.All] at hn
  simp only [Ex.callees, List.mem_append] at hf
  obtain ⟨r, hv2, h8⟩ := condRun h fun _ _ _ _ h1 h2 =>
      (KE.rval _ _ _ _ h2 (KE.genL cn _ _ _ h1 hc.opn).opn).opn
  have B := condBlocks (KE.genL cn) (KE.genL t) (KE.genL e) hc.opn r
  obtain ⟨c1, cv, c2, cond, c3, c4, tv, c5, thenVal, c6, ev, c7, elseVal, h1, h2, h3, h4, h5, h6, h7, h8'⟩ := r
  simp only at B h8
  obtain ⟨E2, S3, E5, S6, E7, S8, E8, _⟩ := B
  simp only at E2 S3 E5 S6 E7 S8 E8
  have b7' : Ext (withTerm c7 (.br (c2.blocks.length + 2))).blocks bs := E8.ext.trans hb
  have b7 := (withTerm_ext E7.opn _).trans b7'
  have b5' : Ext (withTerm c5 (.br (c2.blocks.length + 2))).blocks bs := E7.ext.trans b7
  have b5 := (withTerm_ext E5.opn _).trans b5'
  have b3 : Ext c3.blocks bs := E5.ext.trans b5
  obtain ⟨fk, _⟩ := condStart_forked E2.opn h3
  have b2 := (fk.ext E2.opn).trans b3
  rcases he with e0 | ⟨d0, st1, e0, e1⟩
  · have k1 := KE.genL cn _ _ _ h1 hc.opn
    exact ic _ _ _ _ _ _ _ _ hc h1 ((KE.rval _ _ _ _ h2 k1.opn).ext.trans b2) e0
  obtain ⟨g2, r2, s2, v2, x2⟩ := (genL_sim cn hn.1 fun f hh => hf f (.inl hh)).rv hn.1 hc h1 h2 b2 e0
  refine .after r2.steps ?_
  -- the comparison and the branch
  obtain ⟨b, hb2, fb⟩ := fk.blocks
  obtain ⟨b', hb', eb⟩ := b3 c2.cur _ ((fb c2.cur).trans (if_pos rfl))
  have hbc := eb.closed (by simp)
  rw [hbc] at hb'
  obtain ⟨q1, b1, q2, q3⟩ := x2.arr
  rw [hb2] at q2; cases q2
  let g3 : Cfg M.World := g2.next c2.nextReg (if d0.value st1.mem ≠ 0 then 1 else 0) g2.va g2.st
  let g4 := g3.jump (if d0.value st1.mem ≠ 0 then c2.blocks.length else c2.blocks.length + 1)
  have step3 : IRStep M R bs args g2 g3 := by
    refine .inst (inst := .icmp .ne cond (.const 0)) (by rw [q1]; exact hb') (by simp [q3]) ?_
    refine ⟨⟨_, 0, v2.now, rfl, ?_⟩, rfl, rfl⟩
    simp [Pred.sem]
  have step4 : IRStep M R bs args g3 g4 := by
    refine .term (b := ⟨b.name, b.insts ++ [(c2.nextReg, .icmp .ne cond (.const 0))],
      some (.condbr (.reg c2.nextReg) c2.blocks.length (c2.blocks.length + 1))⟩) (t := .condbr (.reg c2.nextReg) c2.blocks.length (c2.blocks.length + 1))
      (by show bs[g2.blk]? = _; rw [q1]; exact hb') (by simp [g3, Cfg.next, q3]) rfl ?_
    refine ⟨(if d0.value st1.mem ≠ 0 then 1 else 0), by simp [g3, Cfg.next, valSem], ?_⟩
    split <;> simp
  have steps4 : IRSteps M R bs args g2 g4 := .head step3 (.head step4 .refl)
  refine .after steps4 ?_
  have st4 : g4.st = st1 := s2
  have m3 : c3.nextReg = c2.nextReg + 1 := fk.reg
  have kcs := ER.stable.condStart cond _ _ _ h3
  have scs := (SR.stable (P := NameOk)).condStart cond _ _ _ h3
  have regs4 : ∀ i, i < c2.nextReg ∨ c3.nextReg ≤ i → g4.regs i = g2.regs i := by
    intro i hi
    show (if i = c2.nextReg then _ else g2.regs i) = _
    rw [if_neg (by omega)]
  obtain ⟨ss, ss1, ss2⟩ := x2.str
  by_cases hcnd : d0.value st1.mem ≠ 0
  · rw [if_pos hcnd] at e1
    have hblk : g4.blk = c2.blocks.length := if_pos hcnd
    have r4 : Run R bs args c2 g2 (goto' c3 c2.blocks.length) g4 :=
      ⟨steps4, .start S3 hblk rfl, rfl, by show c2.nextReg ≤ c3.nextReg; omega, regs4⟩
    have x4 : ECtx E ρ (n + cn.strings.length) (goto' c3 c2.blocks.length) g4 :=
      x2.step S3.open (ER.stable.trans kcs (ER.stable.setInsertPoint _ _ _ _ (setInsertPoint_eq _ _))) r4 ⟨ss, scs _ ss1, ss2⟩
    have k4 := KE.genL t _ _ _ h4 S3.open
    exact it _ _ _ _ _ _ _ _ x4 h4 ((KE.rval _ _ _ _ h5 k4.opn).ext.trans b5) (by rw [st4]; exact e1)
  · rw [if_neg hcnd] at e1
    have hblk : g4.blk = c2.blocks.length + 1 := if_neg hcnd
    have kt := ER.stable.trans (ER.stable.setInsertPoint _ _ _ _ (setInsertPoint_eq c2.blocks.length c3))
      (ER.stable.trans (ER.stable.genL t hn.2.1 _ _ _ h4) (ER.stable.rval _ _ _ _ h5))
    have kt2 := ER.stable.trans kt (ER.stable.trans (ER.stable.setTerm _ _ _ _ (setTerm_eq (.br (c2.blocks.length + 2)) c5))
      (ER.stable.setInsertPoint _ _ _ _ (setInsertPoint_eq (c2.blocks.length + 1) _)))
    have m5 : c3.nextReg ≤ c5.nextReg := kt.reg
    have r4 : Run R bs args c2 g2 (goto' (withTerm c5 (.br (c2.blocks.length + 2))) (c2.blocks.length + 1)) g4 :=
      ⟨steps4, .start S6 hblk rfl, rfl, by show c2.nextReg ≤ c5.nextReg; omega, fun i hi => regs4 i (by
        have : (goto' (withTerm c5 (.br (c2.blocks.length + 2))) (c2.blocks.length + 1)).nextReg = c5.nextReg := rfl
        omega)⟩
    have x4 : ECtx E ρ (n + cn.strings.length + t.strings.length)
        (goto' (withTerm c5 (.br (c2.blocks.length + 2))) (c2.blocks.length + 1)) g4 := by
      refine x2.step S6.open (ER.stable.trans kcs kt2) r4 ⟨ss ++ t.strings, ?_, by simp [ss2]⟩
      have a1 : StrInv (goto' c3 c2.blocks.length) ss := scs _ ss1
      have a2 := genL_adds t _ _ _ _ h4 a1
      exact (SR.stable (P := NameOk)).rval _ _ _ _ h5 _ a2
    have k6 := KE.genL e _ _ _ h6 S6.open
    exact ie _ _ _ _ _ _ _ _ x4 h6 ((KE.rval _ _ _ _ h7 k6.opn).ext.trans b7) (by rw [st4]; exact e1)

mutual
theorem genL_enters : ∀ e : Ex, e.All NameOk → (∀ f ∈ e.callees, f ∉ E.locals) → EntE R bs args E ρ e
  | .num w, _, _ => by
    intro n c c' v g a ws st hc h hb he
    simp only [Ex.Enters] at he
  | .str s, _, _ => by
    intro n c c' v g a ws st hc h hb he
    simp only [Ex.Enters] at he
  | .var x, _, _ => by
    intro n c c' v g a ws st hc h hb he
    simp only [Ex.Enters] at he
  | .paren e, hn, hf => by
    intro n c c' v g a ws st hc h hb he
    simp only [Ex.Enters] at he
    simp only [genL] at h
    obind h lv c1 h1
    have k1 := KE.genL e _ _ _ h1 hc.opn
    have k2 := (KE.bind (KE.rval lv) fun _ => KE.pure _) _ _ _ h k1.opn
    exact genL_enters e hn hf _ _ _ _ _ _ _ _ hc h1 (k2.ext.trans hb) he
  | .index x i, hn, hf => by
    intro n c c' v g a ws st hc h hb he
    simp only [Ex.Enters] at he
    simp only [Ex.All] at hn
    simp only [Ex.callees, List.mem_append] at hf
    simp only [genL] at h
    obind h av c1 h1
    obind h base c2 h2
    obind h ptr c3 h3
    obind h iv c4 h4
    obind h iw c5 h5
    obind h el c6 h6
    simp at h; obtain ⟨rfl, rfl⟩ := h
    have k1 := KE.genL x _ _ _ h1 hc.opn
    have k2 := KE.rval _ _ _ _ h2 k1.opn
    have k3 := KE.emit _ _ _ _ h3 k2.opn
    have k4 := KE.genL i _ _ _ h4 k3.opn
    have k5 := KE.rval _ _ _ _ h5 k4.opn
    have k6 := KE.emit _ _ _ _ h6 k5.opn
    have b4 := k5.ext.trans (k6.ext.trans hb)
    have b3 := k4.ext.trans b4
    have b2 := k3.ext.trans b3
    rcases he with e1 | ⟨d1, st1, e1, e2⟩
    · exact genL_enters x hn.1 (fun f hh => hf f (.inl hh)) _ _ _ _ _ _ _ _ hc h1 (k2.ext.trans b2) e1
    · obtain ⟨g2, r2, s2, v2, x2⟩ := (genL_sim x hn.1 fun f hh => hf f (.inl hh)).rv hn.1 hc h1 h2 b2 e1
      obtain ⟨g3, r3, s3, v3, x3⟩ := emit_ctx (R := R) (args := args) x2 h3 b3 (r := d1.value st1.mem) (st := g2.st) ⟨v2.now, rfl, rfl⟩
      exact .after (r2.trans r3).steps
        (genL_enters i hn.2 (fun f hh => hf f (.inr hh)) _ _ _ _ _ _ _ _ x3 h4 b4 (by rw [s3, s2]; exact e2))
  | .callName f as, hn, hf => by
    intro n c c' v g a ws st hc h hb he
    simp only [Ex.Enters] at he
    obtain ⟨d, e1, he⟩ := he
    simp only [Ex.All] at hn
    simp only [Ex.callees, List.mem_cons] at hf
    simp only [genL] at h
    obind h av c1 h1
    obind h fv c2 h2
    obind h vs c3 h3
    obind h rv c4 h4
    simp at h; obtain ⟨rfl, rfl⟩ := h
    have k1 := KE.genCallee f _ _ _ h1 hc.opn
    have k2 := KE.rval _ _ _ _ h2 k1.opn
    have k3 := KE.genArgs as _ _ _ h3 k2.opn
    have k4 := KE.genCall _ _ _ _ _ h4 k3.opn
    have b3 := k4.ext.trans hb
    obtain ⟨g2, r2, s2, v2, x2, hfn⟩ := genCallee_sim (R := R) (args := args) hc (hf f (.inl rfl)) hn.1 h1 h2 (k3.ext.trans b3) e1
    refine .after r2.steps ?_
    rcases he with e2 | ⟨rfl, e2⟩
    · exact genArgs_enters as hn.2 (fun f hh => hf f (.inr hh)) _ _ _ _ _ _ _ _ x2 h3 b3 (by rw [s2]; exact e2)
    · obtain ⟨g3, r3, s3, v3⟩ := genArgs_sim as hn.2 (fun f hh => hf f (.inr hh)) _ _ _ _ _ _ _ x2 h3 b3 (by rw [s2]; exact e2)
      refine .after r3.steps ?_
      rw [← s3]
      exact genCall_enters (R := R) (args := args) h4 k3.opn hb r3.arr (v2.later r3) hfn v3
  | .call f as, hn, hf => by
    intro n c c' v g a ws st hc h hb he
    simp only [Ex.Enters] at he
    simp only [Ex.All] at hn
    simp only [Ex.callees, List.mem_append] at hf
    simp only [genL] at h
    obind h av c1 h1
    obind h fv c2 h2
    obind h vs c3 h3
    obind h rv c4 h4
    simp at h; obtain ⟨rfl, rfl⟩ := h
    have k1 := KE.genL f _ _ _ h1 hc.opn
    have k2 := KE.rval _ _ _ _ h2 k1.opn
    have k3 := KE.genArgs as _ _ _ h3 k2.opn
    have k4 := KE.genCall _ _ _ _ _ h4 k3.opn
    have b3 := k4.ext.trans hb
    have b2 := k3.ext.trans b3
    rcases he with e1 | ⟨d, st1, e1, he⟩
    · exact genL_enters f hn.1 (fun f hh => hf f (.inl hh)) _ _ _ _ _ _ _ _ hc h1 (k2.ext.trans b2) e1
    obtain ⟨g2, r2, s2, v2, x2⟩ := (genL_sim f hn.1 fun f hh => hf f (.inl hh)).rv hn.1 hc h1 h2 b2 e1
    refine .after r2.steps ?_
    rcases he with e2 | ⟨rfl, e2⟩
    · exact genArgs_enters as hn.2 (fun f hh => hf f (.inr hh)) _ _ _ _ _ _ _ _ x2 h3 b3 (by rw [s2]; exact e2)
    · obtain ⟨g3, r3, s3, v3⟩ := genArgs_sim as hn.2 (fun f hh => hf f (.inr hh)) _ _ _ _ _ _ _ x2 h3 b3 (by rw [s2]; exact e2)
      refine .after r3.steps ?_
      rw [← s3]
      exact genCall_enters (R := R) (args := args) h4 k3.opn hb r3.arr (v2.later r3)
        (fun s b k e => absurd e (rval_noFn h2 (genL_noFn f h1) s b k)) v3
  | .post o e, hn, hf => by
    intro n c c' v g a ws st hc h hb he
    simp only [Ex.Enters] at he
    simp only [genL] at h
    obind h lv c1 h1
    have k1 := KE.genL e _ _ _ h1 hc.opn
    have k2 := (KE.bind (KE.needLval lv) fun _ => KE.bind (KE.genPostfix _ _) fun _ => KE.pure _) _ _ _ h k1.opn
    exact genL_enters e hn hf _ _ _ _ _ _ _ _ hc h1 (k2.ext.trans hb) he
  | .pre o e, hn, hf => by
    intro n c c' v g a ws st hc h hb he
    simp only [Ex.Enters] at he
    simp only [genL] at h
    obind h lv c1 h1
    have k1 := KE.genL e _ _ _ h1 hc.opn
    have k2 := (KE.bind (KE.needLval lv) fun _ => KE.bind (KE.genPrefix _ _) fun _ => KE.pure _) _ _ _ h k1.opn
    exact genL_enters e hn hf _ _ _ _ _ _ _ _ hc h1 (k2.ext.trans hb) he
  | .not e, hn, hf => by
    intro n c c' v g a ws st hc h hb he
    simp only [Ex.Enters] at he
    simp only [genL] at h
    obind h lv c1 h1
    have k1 := KE.genL e _ _ _ h1 hc.opn
    have k2 := (KE.bind (KE.bind (KE.rval lv) fun _ => KE.cmpOp _ _ _) fun _ => KE.pure _) _ _ _ h k1.opn
    exact genL_enters e hn hf _ _ _ _ _ _ _ _ hc h1 (k2.ext.trans hb) he
  | .neg e, hn, hf => by
    intro n c c' v g a ws st hc h hb he
    simp only [Ex.Enters] at he
    simp only [genL] at h
    obind h lv c1 h1
    have k1 := KE.genL e _ _ _ h1 hc.opn
    have k2 := (KE.bind (KE.bind (KE.rval lv) fun _ => KE.emit _) fun _ => KE.pure _) _ _ _ h k1.opn
    exact genL_enters e hn hf _ _ _ _ _ _ _ _ hc h1 (k2.ext.trans hb) he
  | .deref e, hn, hf => by
    intro n c c' v g a ws st hc h hb he
    simp only [Ex.Enters] at he
    simp only [genL] at h
    obind h lv c1 h1
    have k1 := KE.genL e _ _ _ h1 hc.opn
    have k2 := (KE.bind (KE.bind (KE.rval lv) fun _ => KE.emit _) fun _ => KE.pure _) _ _ _ h k1.opn
    exact genL_enters e hn hf _ _ _ _ _ _ _ _ hc h1 (k2.ext.trans hb) he
  | .addr e, hn, hf => by
    intro n c c' v g a ws st hc h hb he
    simp only [Ex.Enters] at he
    simp only [genL] at h
    obind h lv c1 h1
    have k1 := KE.genL e _ _ _ h1 hc.opn
    have k2 := (KE.bind (KE.needLval lv) fun _ => KE.bind (KE.emit _) fun _ => KE.pure _) _ _ _ h k1.opn
    exact genL_enters e hn hf _ _ _ _ _ _ _ _ hc h1 (k2.ext.trans hb) he
  | .bin o x y, hn, hf => by
    intro n c c' v g a ws st hc h hb he
    simp only [Ex.Enters] at he
    simp only [Ex.All] at hn
    simp only [Ex.callees, List.mem_append] at hf
    simp only [genL] at h
    obind h av c1 h1
    obind h xv c2 h2
    obind h iv c4 h4
    have k1 := KE.genL x _ _ _ h1 hc.opn
    have k2 := KE.rval _ _ _ _ h2 k1.opn
    have k4 := KE.genL y _ _ _ h4 k2.opn
    have k5 := (KE.bind (KE.rval iv) fun _ => KE.bind (KE.genOp _ _ _) fun _ => KE.pure _) _ _ _ h k4.opn
    have b4 := k5.ext.trans hb
    have b2 := k4.ext.trans b4
    rcases he with e1 | ⟨d1, st1, e1, e2⟩
    · exact genL_enters x hn.1 (fun f hh => hf f (.inl hh)) _ _ _ _ _ _ _ _ hc h1 (k2.ext.trans b2) e1
    · obtain ⟨g2, r2, s2, v2, x2⟩ := (genL_sim x hn.1 fun f hh => hf f (.inl hh)).rv hn.1 hc h1 h2 b2 e1
      exact .after r2.steps
        (genL_enters y hn.2 (fun f hh => hf f (.inr hh)) _ _ _ _ _ _ _ _ x2 h4 b4 (by rw [s2]; exact e2))
  | .cond cn t e, hn, hf => by
    have hn' := hn
    have hf' := hf
    simp only [Ex.All] at hn'
    simp only [Ex.callees, List.mem_append] at hf'
    exact cond_enters (genL_enters cn hn'.1 fun f hh => hf' f (.inl hh)) (genL_enters t hn'.2.1 fun f hh => hf' f (.inr (.inl hh)))
      (genL_enters e hn'.2.2 fun f hh => hf' f (.inr (.inr hh))) hn hf
  | .assign o x y, hn, hf => by
    intro n c c' v g a ws st hc h hb he
    simp only [Ex.Enters] at he
    simp only [Ex.All] at hn
    simp only [Ex.callees, List.mem_append] at hf
    simp only [genL] at h
    obind h av c1 h1
    obind h xv c2 h2
    obind h iv c4 h4
    have k1 := KE.genL x _ _ _ h1 hc.opn
    have k2 := KE.needLval _ _ _ _ h2 k1.opn
    have k4 := KE.genL y _ _ _ h4 k2.opn
    have k5 := (KE.bind (KE.rval iv) fun _ => KE.bind (KE.genAssign _ _ _) fun _ => KE.pure _) _ _ _ h k4.opn
    have b4 := k5.ext.trans hb
    have b2 := k4.ext.trans b4
    rcases he with e1 | ⟨d1, st1, e1, e2⟩
    · exact genL_enters x hn.1 (fun f hh => hf f (.inl hh)) _ _ _ _ _ _ _ _ hc h1 (k2.ext.trans b2) e1
    · obtain ⟨g2, r2, s2, v2, x2⟩ := (genL_sim x hn.1 fun f hh => hf f (.inl hh)).lv hn.1 hc h1 h2 b2 e1
      exact .after r2.steps
        (genL_enters y hn.2 (fun f hh => hf f (.inr hh)) _ _ _ _ _ _ _ _ x2 h4 b4 (by rw [s2]; exact e2))

theorem genArgs_enters : ∀ es : List Ex, Ex.AllArgs NameOk es → (∀ f ∈ Ex.calleesArgs es, f ∉ E.locals) → EntA R bs args E ρ es
  | [], _, _ => by
    intro n c c' vs g a ws st hc h hb he
    simp only [Ex.EntersArgs] at he
  | e :: es, hn, hf => by
    intro n c c' vs g a ws st hc h hb he
    simp only [Ex.EntersArgs] at he
    simp only [Ex.AllArgs] at hn
    simp only [Ex.calleesArgs, List.mem_append] at hf
    simp only [genArgs] at h
    obind h av c1 h1
    obind h xv c2 h2
    obind h vs c3 h3
    simp at h; obtain ⟨rfl, rfl⟩ := h
    have k1 := KE.genL e _ _ _ h1 hc.opn
    have k2 := KE.rval _ _ _ _ h2 k1.opn
    have k3 := KE.genArgs es _ _ _ h3 k2.opn
    have b2 := k3.ext.trans hb
    rcases he with e1 | ⟨d1, st1, e1, e2⟩
    · exact genL_enters e hn.1 (fun f hh => hf f (.inl hh)) _ _ _ _ _ _ _ _ hc h1 (k2.ext.trans b2) e1
    · obtain ⟨g2, r2, s2, v2, x2⟩ := (genL_sim e hn.1 fun f hh => hf f (.inl hh)).rv hn.1 hc h1 h2 b2 e1
      exact .after r2.steps
        (genArgs_enters es hn.2 (fun f hh => hf f (.inr hh)) _ _ _ _ _ _ _ _ x2 h3 hb (by rw [s2]; exact e2))
end

end
end Blang
