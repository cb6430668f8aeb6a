import Verif.Proofs.Blocks
import Verif.Proofs.Ops
import Verif.Proofs.Scope
import Verif.Spec.Target
/-
The code of an expression computes the expression.
-/
namespace Blang
open Spec

theorem symbolOf_eq (x : Name) : symbolOf x = globalName x := rfl

/-! ### tables -/

/-- the tables contain what they should -/
structure NamesInv (c : CState) : Prop where
  ctxv : ∀ x v, lookup x c.ctx = some v → ∃ ty, v = .glob (globalName x) ty
  fns : ∀ x v, lookup x c.functions = some v → ∃ b n, v = .func (globalName x) b n
  disj : ∀ x, (lookup x c.ctx).isSome → globalName x ∉ c.funcs.map Func.sym

/-- what generating an expression does to the tables -/
structure ER (c c' : CState) : Prop where
  ctx : c'.ctx = c.ctx
  locals : c'.locals = c.locals
  labels : c'.labels = c.labels
  reg : c.nextReg ≤ c'.nextReg
  labelID : c.labelID ≤ c'.labelID
  inv : NamesInv c → NamesInv c'

theorem ER.of_eq {c c' : CState} (h1 : c'.ctx = c.ctx) (h2 : c'.locals = c.locals) (h3 : c'.labels = c.labels)
    (h4 : c.nextReg ≤ c'.nextReg) (h5 : c.labelID ≤ c'.labelID) (h6 : c'.functions = c.functions) (h7 : c'.funcs = c.funcs) : ER c c' :=
  ⟨h1, h2, h3, h4, h5, fun h => ⟨by rw [h1]; exact h.ctxv, by rw [h6]; exact h.fns, by rw [h1, h7]; exact h.disj⟩⟩

theorem ER.stable : EStable NameOk ER where
  refl c := .of_eq rfl rfl rfl (Nat.le_refl _) (Nat.le_refl _) rfl rfl
  trans {a b c} h1 h2 := ⟨h2.ctx.trans h1.ctx, h2.locals.trans h1.locals, h2.labels.trans h1.labels,
    Nat.le_trans h1.reg h2.reg, Nat.le_trans h1.labelID h2.labelID, fun h => h2.inv (h1.inv h)⟩
  emit i c a c' h := by cases h; exact .of_eq rfl rfl rfl (Nat.le_succ _) (Nat.le_refl _) rfl rfl
  setTerm t c a c' h := by cases h; exact .of_eq rfl rfl rfl (Nat.le_refl _) (Nat.le_refl _) rfl rfl
  newBlock n c a c' h := by cases h; exact .of_eq rfl rfl rfl (Nat.le_refl _) (Nat.le_refl _) rfl rfl
  setInsertPoint n c a c' h := by cases h; exact .of_eq rfl rfl rfl (Nat.le_refl _) (Nat.le_refl _) rfl rfl
  freshLabelID c a c' h := by cases h; exact .of_eq rfl rfl rfl (Nat.le_refl _) (Nat.le_succ _) rfl rfl
  createString s c a c' h := by cases h; exact .of_eq rfl rfl rfl (Nat.le_refl _) (Nat.le_refl _) rfl rfl
  declFn c x v c' _ hf hx h := by
    unfold getOrDeclareFunction at h
    cases hl : lookup x c.functions with
    | some f => rw [hl] at h; cases h; exact .of_eq rfl rfl rfl (Nat.le_refl _) (Nat.le_refl _) rfl rfl
    | none =>
      rw [hl, hx] at h
      cases h
      refine ⟨rfl, rfl, rfl, Nat.le_refl _, Nat.le_refl _, fun hi => ⟨hi.ctxv, ?_, ?_⟩⟩
      · intro y w hw
        simp only [lookup_insert] at hw
        split at hw
        · rename_i e; subst e; cases hw; exact ⟨_, _, rfl⟩
        · exact hi.fns y w hw
      · intro y hy
        simp only [newFunc, List.map_append, List.map_cons, List.map_nil, List.mem_append, List.mem_singleton, not_or]
        have hfs : (removeFuncByName c x).funcs = c.funcs := by rw [removeFunc_absent (findFunc_none hf)]
        rw [hfs]
        refine ⟨hi.disj y hy, fun e => ?_⟩
        rw [globalName_inj e] at hy
        have : lookup x c.ctx = none := hx
        have hy' : (lookup x c.ctx).isSome := hy
        rw [this] at hy'; cases hy'

/-! ### runs of the emitted code -/

section
variable {M : IRMachine} {R : Calls M.World} {bs : List Block} {args : List Word}

theorem steps_trans {a b c : Cfg M.World} (h1 : IRSteps M R bs args a b) (h2 : IRSteps M R bs args b c) : IRSteps M R bs args a c := by
  induction h1 with
  | refl => exact h2
  | head h _ ih => exact .head h (ih h2)

theorem steps_one {a b : Cfg M.World} (h : IRStep M R bs args a b) : IRSteps M R bs args a b := .head h .refl

/-- execution has arrived where the generator is -/
def At (c : CState) (g : Cfg M.World) : Prop := g.blk = c.cur ∧ ∃ b : Block, c.blocks[c.cur]? = some b ∧ g.pc = b.insts.length

theorem At.start {c : CState} {g : Cfg M.World} (h : Start c) (h1 : g.blk = c.cur) (h2 : g.pc = 0) : At c g := by
  obtain ⟨b, a1, _, a3⟩ := h
  exact ⟨h1, b, a1, by rw [h2, a3]; rfl⟩

variable (R bs args) in
/-- executing the code generated between `c` and `c'` -/
structure Run (c : CState) (g : Cfg M.World) (c' : CState) (g' : Cfg M.World) : Prop where
  steps : IRSteps M R bs args g g'
  arr : At c' g'
  va : g'.va = g.va
  mono : c.nextReg ≤ c'.nextReg
  regs : ∀ r, r < c.nextReg ∨ c'.nextReg ≤ r → g'.regs r = g.regs r

theorem Run.refl {c : CState} {g : Cfg M.World} (h : At c g) : Run R bs args c g c g :=
  ⟨.refl, h, rfl, Nat.le_refl _, fun _ _ => rfl⟩

theorem Run.trans {c c1 c2 : CState} {g g1 g2 : Cfg M.World} (h1 : Run R bs args c g c1 g1) (h2 : Run R bs args c1 g1 c2 g2) :
    Run R bs args c g c2 g2 := by
  refine ⟨steps_trans h1.steps h2.steps, h2.arr, h2.va.trans h1.va, Nat.le_trans h1.mono h2.mono, fun r hr => ?_⟩
  have m1 := h1.mono
  have m2 := h2.mono
  rw [h2.regs r (by omega), h1.regs r (by omega)]

variable (M args) in
/-- the operand has that value, now and as long as the registers assigned so far keep their values -/
def Holds (c : CState) (g : Cfg M.World) (v : Val) (a : Word) : Prop :=
  ∀ regs : Nat → Option Word, (∀ r, r < c.nextReg → regs r = g.regs r) → valSem M args regs v = some a

theorem Holds.now {c : CState} {g : Cfg M.World} {v : Val} {a : Word} (h : Holds M args c g v a) : valSem M args g.regs v = some a :=
  h _ fun _ _ => rfl

theorem Holds.later {c c' : CState} {g g' : Cfg M.World} {v : Val} {a : Word} (h : Holds M args c g v a) (hr : Run R bs args c g c' g') :
    Holds M args c' g' v a := by
  intro regs h1
  apply h
  intro r hr'
  have := hr.mono
  rw [h1 r (by omega), hr.regs r (.inl hr')]

theorem Holds.const {c : CState} {g : Cfg M.World} (n : Word) : Holds M args c g (.const n) n := fun _ _ => rfl

variable (M args) in
/-- the same for the operands of a call -/
def HoldsAll (c : CState) (g : Cfg M.World) (vs : List Val) (ws : List Word) : Prop :=
  ∀ regs : Nat → Option Word, (∀ r, r < c.nextReg → regs r = g.regs r) → vs.mapM (valSem M args regs) = some ws

theorem HoldsAll.now {c : CState} {g : Cfg M.World} {vs : List Val} {ws : List Word} (h : HoldsAll M args c g vs ws) :
    vs.mapM (valSem M args g.regs) = some ws := h _ fun _ _ => rfl

theorem HoldsAll.later {c c' : CState} {g g' : Cfg M.World} {vs : List Val} {ws : List Word} (h : HoldsAll M args c g vs ws)
    (hr : Run R bs args c g c' g') : HoldsAll M args c' g' vs ws := by
  intro regs h1
  apply h
  intro r hr'
  have := hr.mono
  rw [h1 r (by omega), hr.regs r (.inl hr')]

theorem HoldsAll.cons {c : CState} {g : Cfg M.World} {v : Val} {w : Word} {vs : List Val} {ws : List Word} (h1 : Holds M args c g v w)
    (h : HoldsAll M args c g vs ws) : HoldsAll M args c g (v :: vs) (w :: ws) := by
  intro regs hr
  rw [List.mapM_cons, h1 regs hr, h regs hr]; rfl

theorem emit_run {i : Inst} {c c' : CState} {v : Val} {g : Cfg M.World} (h : emit i c = .ok v c')
    (hb : Ext c'.blocks bs) (hat : At c g) {r : Word} {st : Store M.World} (hs : Inst.Sem M R args g r g.va st i) :
    ∃ g', Run R bs args c g c' g' ∧ g'.st = st ∧ Holds M args c' g' v r := by
  obtain ⟨rfl, hbl, hc, hr⟩ := emit_blocks h
  obtain ⟨h1, b, h2, h3⟩ := hat
  have hcur : c'.blocks[c.cur]? = some { b with insts := b.insts ++ [(c.nextReg, i)] } := by
    rw [hbl, List.getElem?_modify]; simp [h2]
  obtain ⟨b', hb', e⟩ := hb _ _ hcur
  refine ⟨g.next c.nextReg r g.va st, ⟨steps_one (.inst (b := b') (by rw [h1]; exact hb') ?_ hs), ⟨by rw [hc]; exact h1, _, by rw [hc]; exact hcur, ?_⟩,
    rfl, by omega, ?_⟩, rfl, ?_⟩
  · obtain ⟨l, hl⟩ := e.insts
    rw [← hl, h3]
    simp
  · simp [Cfg.next, h3]
  · intro r' hr'
    simp only [Cfg.next]
    rw [if_neg (by omega)]
  · intro regs hregs
    show regs c.nextReg = some r
    rw [hregs _ (by omega)]
    simp [Cfg.next]

/-- the current block ends here with the terminator `t` -/
theorem term_block {c : CState} {t : Term} {g : Cfg M.World} (hat : At c g) (hb : Ext (withTerm c t).blocks bs) :
    ∃ b : Block, bs[g.blk]? = some b ∧ g.pc = b.insts.length ∧ b.term = some t := by
  obtain ⟨h1, b, h2, h3⟩ := hat
  obtain ⟨b', hb', e⟩ := hb _ _ (withTerm_at h2 t)
  rw [e.closed (by simp)] at hb'
  exact ⟨{ b with term := some t }, by rw [h1]; exact hb', h3, rfl⟩

theorem term_step {c : CState} {t : Term} {g : Cfg M.World} {l : Nat} (hat : At c g) (hb : Ext (withTerm c t).blocks bs)
    (ht : Term.Goes M args g l t) : IRStep M R bs args g (g.jump l) := by
  obtain ⟨b, h1, h2, h3⟩ := term_block hat hb
  exact .term h1 h2 h3 ht

/-! ### expressions -/

/-- what is known when an expression starts -/
structure ECtx (E : Env) (ρ : Frame) (n : Nat) (c : CState) (g : Cfg M.World) : Prop where
  opn : Open c
  arr : At c g
  inv : NamesInv c
  locals : ∀ x, x ∈ E.locals ↔ (lookup x c.locals).isSome
  exts : ∀ x, x ∈ E.exts ↔ (lookup x c.ctx).isSome
  str : ∃ ss, StrInv c ss ∧ ss.length = n
  cells : ∀ x a, x ∈ E.locals → ρ x = some a → ∃ r, lookup x c.locals = some (.reg r) ∧ r < c.nextReg ∧ g.regs r = some a

/-- moving on -/
theorem ECtx.step {E : Env} {ρ : Frame} {n m : Nat} {c c' : CState} {g g' : Cfg M.World} (h : ECtx E ρ n c g) (ho : Open c') (he : ER c c')
    (hr : Run R bs args c g c' g') (hs : ∃ ss, StrInv c' ss ∧ ss.length = m) : ECtx E ρ m c' g' := by
  refine ⟨ho, hr.arr, he.inv h.inv, by rw [he.locals]; exact h.locals, by rw [he.ctx]; exact h.exts, hs, ?_⟩
  intro x a hx ha
  obtain ⟨r, h1, h2, h3⟩ := h.cells x a hx ha
  exact ⟨r, by rw [he.locals]; exact h1, Nat.lt_of_lt_of_le h2 hr.mono, by rw [hr.regs r (.inl h2)]; exact h3⟩

/-- a step without literals -/
theorem ECtx.step0 {α : Type} {E : Env} {ρ : Frame} {n : Nat} {f : B α} {a : α} {c c' : CState} {g g' : Cfg M.World} (h : ECtx E ρ n c g)
    (ke : KE f) (kr : Keeps ER f) (ks : Keeps SR f) (hf : f c = .ok a c') (hr : Run R bs args c g c' g') : ECtx E ρ n c' g' := by
  obtain ⟨ss, s1, s2⟩ := h.str
  exact h.step (ke _ _ _ hf h.opn).opn (kr _ _ _ hf) hr ⟨ss, ks _ _ _ hf _ s1, s2⟩

/-- a step with literals -/
theorem ECtx.stepS {α : Type} {E : Env} {ρ : Frame} {n : Nat} {f : B α} {x : List (List Nat)} {a : α} {c c' : CState} {g g' : Cfg M.World}
    (h : ECtx E ρ n c g) (ke : KE f) (kr : Keeps ER f) (ks : Adds f x) (hf : f c = .ok a c') (hr : Run R bs args c g c' g') :
    ECtx E ρ (n + x.length) c' g' := by
  obtain ⟨ss, s1, s2⟩ := h.str
  exact h.step (ke _ _ _ hf h.opn).opn (kr _ _ _ hf) hr ⟨ss ++ x, ks _ _ _ _ hf s1, by simp [s2]⟩

variable (M args) in
/-- the generated operand is what the expression yields -/
def HoldsR (c : CState) (g : Cfg M.World) (v : LV) : Res → Prop
  | .cell a => v.2 = true ∧ Holds M args c g v.1 a
  | .val w => v.2 = false ∧ Holds M args c g v.1 w

theorem HoldsR.later {c c' : CState} {g g' : Cfg M.World} {v : LV} {d : Res} (h : HoldsR M args c g v d) (hr : Run R bs args c g c' g') :
    HoldsR M args c' g' v d := by
  cases d with
  | cell a => exact ⟨h.1, h.2.later hr⟩
  | val a => exact ⟨h.1, h.2.later hr⟩

/-- reading the value of an operand -/
theorem rval_run {v : LV} {w : Val} {c c' : CState} {g : Cfg M.World} {d : Res} (h : rval v c = .ok w c')
    (hb : Ext c'.blocks bs) (hat : At c g) (hv : HoldsR M args c g v d) :
    ∃ g', Run R bs args c g c' g' ∧ g'.st = g.st ∧ Holds M args c' g' w (d.value g.st.mem) := by
  unfold rval at h
  cases d with
  | cell a =>
    rw [if_pos hv.1] at h
    obtain ⟨g', h1, h2, h3⟩ := emit_run (R := R) (args := args) h hb hat (r := loadW g.st.mem a) (st := g.st)
      ⟨⟨a, hv.2.now, rfl⟩, rfl, rfl⟩
    exact ⟨g', h1, h2, h3⟩
  | val a =>
    rw [if_neg (by simp [hv.1])] at h
    simp at h; obtain ⟨rfl, rfl⟩ := h
    exact ⟨g, .refl hat, rfl, hv.2⟩

theorem needLval_ok {v : LV} {a : Val} {c c' : CState} (h : needLval v c = .ok a c') : v.2 = true ∧ a = v.1 ∧ c' = c := by
  unfold needLval at h
  replace h := ite_ok h
  rcases h with ⟨hc, h⟩ | ⟨_, h⟩
  · simp at h; exact ⟨hc, h.1.symm, h.2.symm⟩
  · cases h

/-- operators -/
theorem genOp_run {o : Bop} {x y v : Val} {c c' : CState} {g : Cfg M.World} {a b w : Word} (h : genOp (opOf o) x y c = .ok v c')
    (ho : Open c) (hb : Ext c'.blocks bs) (hat : At c g) (hx : Holds M args c g x a) (hy : Holds M args c g y b)
    (hw : o.sem a b = some w) : ∃ g', Run R bs args c g c' g' ∧ g'.st = g.st ∧ Holds M args c' g' v w := by
  cases ho' : opOf o with
  | bin op =>
    rw [ho'] at h
    exact emit_run h hb hat ⟨⟨a, b, hx.now, hy.now, by rw [binop_sem o op ho', hw]⟩, rfl, rfl⟩
  | cmp p =>
    rw [ho'] at h
    have hs := cmpop_sem o p ho' a b
    rw [hw] at hs; cases hs
    simp only [genOp, cmpOp] at h
    obind h cmp c1 h1
    have k1 := KE.emit _ _ _ _ h1 ho
    have k2 := KE.emit _ _ _ _ h k1.opn
    obtain ⟨g1, r1, s1, v1⟩ := emit_run (R := R) (args := args) h1 (k2.ext.trans hb) hat
      (r := if Pred.sem a b p then 1 else 0) (st := g.st) ⟨⟨a, b, hx.now, hy.now, rfl⟩, rfl, rfl⟩
    obtain ⟨g2, r2, s2, v2⟩ := emit_run (R := R) (args := args) h hb r1.arr
      (r := if Pred.sem a b p then 1 else 0) (st := g1.st) ⟨v1.now, rfl, rfl⟩
    exact ⟨g2, r1.trans r2, s2.trans s1, v2⟩


theorem jump_run {c c2 : CState} {t : Term} {g : Cfg M.World} {l : Nat} (hat : At c g) (hb : Ext (withTerm c t).blocks bs)
    (ht : Term.Goes M args g l t) (hs : Start c2) (hl : c2.cur = l) (hm : c.nextReg ≤ c2.nextReg) :
    Run R bs args c g c2 (g.jump l) :=
  ⟨steps_one (term_step hat hb ht), .start hs hl.symm rfl, rfl, hm, fun _ _ => rfl⟩

variable {E : Env} {ρ : Frame}

theorem emit_ctx {n : Nat} {i : Inst} {c c' : CState} {v : Val} {g : Cfg M.World} (hc : ECtx E ρ n c g) (h : emit i c = .ok v c')
    (hb : Ext c'.blocks bs) {r : Word} {st : Store M.World} (hs : Inst.Sem M R args g r g.va st i) :
    ∃ g', Run R bs args c g c' g' ∧ g'.st = st ∧ Holds M args c' g' v r ∧ ECtx E ρ n c' g' := by
  obtain ⟨g', h1, h2, h3⟩ := emit_run h hb hc.arr hs
  exact ⟨g', h1, h2, h3, hc.step0 (KE.emit i) (ER.stable.emit i) ((SR.stable (P := NameOk)).emit i) h h1⟩

theorem rval_ctx {n : Nat} {v : LV} {c c' : CState} {w : Val} {g : Cfg M.World} {d : Res} (hc : ECtx E ρ n c g) (h : rval v c = .ok w c')
    (hb : Ext c'.blocks bs) (hv : HoldsR M args c g v d) :
    ∃ g', Run R bs args c g c' g' ∧ g'.st = g.st ∧ Holds M args c' g' w (d.value g.st.mem) ∧ ECtx E ρ n c' g' := by
  obtain ⟨g', h1, h2, h3⟩ := rval_run h hb hc.arr hv
  exact ⟨g', h1, h2, h3, hc.step0 (KE.rval v) (ER.stable.rval v) ((SR.stable (P := NameOk)).rval v) h h1⟩

theorem genOp_ctx {n : Nat} {o : Bop} {x y v : Val} {c c' : CState} {g : Cfg M.World} {a b w : Word} (hc : ECtx E ρ n c g)
    (h : genOp (opOf o) x y c = .ok v c') (hb : Ext c'.blocks bs) (hx : Holds M args c g x a) (hy : Holds M args c g y b)
    (hw : o.sem a b = some w) : ∃ g', Run R bs args c g c' g' ∧ g'.st = g.st ∧ Holds M args c' g' v w ∧ ECtx E ρ n c' g' := by
  obtain ⟨g', h1, h2, h3⟩ := genOp_run h hc.opn hb hc.arr hx hy hw
  exact ⟨g', h1, h2, h3, hc.step0 (KE.genOp _ _ _) (ER.stable.genOp _ _ _) ((SR.stable (P := NameOk)).genOp _ _ _) h h1⟩

variable (R bs args E ρ) in
/-- the code of the expression computes it -/
def SimE (e : Ex) : Prop :=
  ∀ (n : Nat) (c c' : CState) (v : LV) (g : Cfg M.World) (d : Res) (st : Store M.World), ECtx E ρ n c g → genL e c = .ok v c' →
    Ext c'.blocks bs → e.Eval M.toB R E ρ n g.st d st →
    ∃ g', Run R bs args c g c' g' ∧ g'.st = st ∧ HoldsR M args c' g' v d

variable (R bs args E ρ) in
def SimA (es : List Ex) : Prop :=
  ∀ (n : Nat) (c c' : CState) (vs : List Val) (g : Cfg M.World) (ws : List Word) (st : Store M.World), ECtx E ρ n c g →
    genArgs es c = .ok vs c' → Ext c'.blocks bs → Ex.EvalArgs M.toB R E ρ es n g.st ws st →
    ∃ g', Run R bs args c g c' g' ∧ g'.st = st ∧ HoldsAll M args c' g' vs ws

theorem SimE.ctx {e : Ex} (h : SimE R bs args E ρ e) (hn : e.All NameOk) {n : Nat} {c c' : CState} {v : LV} {g : Cfg M.World} {d : Res}
    {st : Store M.World} (hc : ECtx E ρ n c g) (hg : genL e c = .ok v c') (hb : Ext c'.blocks bs) (he : e.Eval M.toB R E ρ n g.st d st) :
    ∃ g', Run R bs args c g c' g' ∧ g'.st = st ∧ HoldsR M args c' g' v d ∧ ECtx E ρ (n + e.strings.length) c' g' := by
  obtain ⟨g', h1, h2, h3⟩ := h n c c' v g d st hc hg hb he
  exact ⟨g', h1, h2, h3, hc.stepS (KE.genL e) (ER.stable.genL e hn) (genL_adds e) hg h1⟩

/-- an expression and the reading of its value -/
theorem SimE.rv {e : Ex} (h : SimE R bs args E ρ e) (hn : e.All NameOk) {n : Nat} {c c1 c' : CState} {v : LV} {w : Val} {g : Cfg M.World}
    {d : Res} {st : Store M.World} (hc : ECtx E ρ n c g) (hg : genL e c = .ok v c1) (hr : rval v c1 = .ok w c') (hb : Ext c'.blocks bs)
    (he : e.Eval M.toB R E ρ n g.st d st) :
    ∃ g', Run R bs args c g c' g' ∧ g'.st = st ∧ Holds M args c' g' w (d.value st.mem) ∧ ECtx E ρ (n + e.strings.length) c' g' := by
  have k1 := KE.genL e _ _ _ hg hc.opn
  have k2 := KE.rval _ _ _ _ hr k1.opn
  obtain ⟨g1, r1, s1, v1, x1⟩ := h.ctx hn hc hg (k2.ext.trans hb) he
  obtain ⟨g2, r2, s2, v2, x2⟩ := rval_ctx (R := R) x1 hr hb v1
  subst s1
  exact ⟨g2, r1.trans r2, s2, v2, x2⟩

/-- an expression that must be an lvalue -/
theorem SimE.lv {e : Ex} (h : SimE R bs args E ρ e) (hn : e.All NameOk) {n : Nat} {c c1 c' : CState} {v : LV} {w : Val} {g : Cfg M.World}
    {a : Word} {st : Store M.World} (hc : ECtx E ρ n c g) (hg : genL e c = .ok v c1) (hr : needLval v c1 = .ok w c') (hb : Ext c'.blocks bs)
    (he : e.Eval M.toB R E ρ n g.st (.cell a) st) :
    ∃ g', Run R bs args c g c' g' ∧ g'.st = st ∧ Holds M args c' g' w a ∧ ECtx E ρ (n + e.strings.length) c' g' := by
  obtain ⟨_, rfl, rfl⟩ := needLval_ok hr
  obtain ⟨g1, r1, s1, v1, x1⟩ := h.ctx hn hc hg hb he
  exact ⟨g1, r1, s1, v1.2, x1⟩

theorem genVar_sim {x : Name} : SimE R bs args E ρ (.var x) := by
  intro n c c' v g d st hc h hb he
  simp only [Ex.Eval] at he
  obtain ⟨he, rfl⟩ := he
  simp only [genL, genVar] at h
  obind h o c1 h1
  unfold getAddress at h1
  rw [Blang.M.bind_ok (Blang.M.get_apply _)] at h1
  unfold nameRes at he
  have hl := hc.locals x
  have hx := hc.exts x
  cases hlo : lookup x c.locals with
  | some r =>
    rw [hlo] at h1 hl
    rw [if_pos (hl.mpr rfl)] at he
    simp at h1; obtain ⟨rfl, rfl⟩ := h1
    simp at h; obtain ⟨rfl, rfl⟩ := h
    cases hρ : ρ x with
    | none => rw [hρ] at he; cases he
    | some a =>
      rw [hρ] at he; cases he
      obtain ⟨r', e1, e2, e3⟩ := hc.cells x a (hl.mpr rfl) hρ
      rw [hlo] at e1; cases e1
      refine ⟨g, .refl hc.arr, rfl, rfl, ?_⟩
      intro regs hregs
      show regs r' = some a
      rw [hregs r' e2, e3]
  | none =>
    rw [hlo] at h1 hl
    rw [if_neg (by rw [hl]; simp)] at he
    cases hcx : lookup x c.ctx with
    | some w =>
      rw [hcx] at hx
      rw [if_pos (hx.mpr rfl)] at he
      cases he
      obtain ⟨ty, rfl⟩ := hc.inv.ctxv x w hcx
      rw [hcx] at h1
      have key : ∀ (ty : Ty), (do let e ← emit (.gepField ty (.glob (globalName x) ty) 0); pure (some e) : B (Option Val)) c = .ok o c1 →
          ∃ g', Run R bs args c g c' g' ∧ g'.st = g.st ∧ HoldsR M args c' g' v (.cell (M.toB.global x)) := by
        intro ty h1
        obind h1 e c2 h2
        simp at h1; obtain ⟨rfl, rfl⟩ := h1
        simp at h; obtain ⟨rfl, rfl⟩ := h
        obtain ⟨g', a1, a2, a3⟩ := emit_run (R := R) (args := args) h2 hb hc.arr (r := M.addr (globalName x)) (st := g.st)
          ⟨⟨M.addr (globalName x), rfl, by simp⟩, rfl, rfl⟩
        exact ⟨g', a1, a2, rfl, a3⟩
      cases ty with
      | i64 =>
        simp at h1; obtain ⟨rfl, rfl⟩ := h1
        simp at h; obtain ⟨rfl, rfl⟩ := h
        exact ⟨g, .refl hc.arr, rfl, rfl, fun _ _ => rfl⟩
      | arr k => exact key _ h1
      | bytes k => exact key _ h1
    | none =>
      rw [hcx] at h1 hx
      rw [if_neg (by rw [hx]; simp)] at he
      cases he
      simp at h1; obtain ⟨rfl, rfl⟩ := h1
      simp only at h
      rw [Blang.M.bind_ok (Blang.M.get_apply _)] at h
      have key : ∀ (c2 : CState) (w : Val), c2.blocks = c.blocks → c2.cur = c.cur → c2.nextReg = c.nextReg →
          (∃ b k, w = .func (globalName x) b k) → (do let v ← emit (.ptrtoint w); pure (v, false) : B LV) c2 = .ok v c' →
          ∃ g', Run R bs args c g c' g' ∧ g'.st = g.st ∧ HoldsR M args c' g' v (.val (M.toB.global x)) := by
        intro c2 w q1 q2 q3 ⟨b, k, hw⟩ h
        subst hw
        obind h e c3 h2
        simp at h; obtain ⟨rfl, rfl⟩ := h
        have hat : At c2 g := by
          obtain ⟨a1, b1, a2, a3⟩ := hc.arr
          exact ⟨a1.trans q2.symm, b1, by rw [q1, q2]; exact a2, a3⟩
        obtain ⟨g', a1, a2, a3⟩ := emit_run (R := R) (args := args) h2 hb hat (r := M.addr (globalName x)) (st := g.st)
          ⟨rfl, rfl, rfl⟩
        exact ⟨g', ⟨a1.steps, a1.arr, a1.va, q3 ▸ a1.mono, q3 ▸ a1.regs⟩, a2, rfl, a3⟩
      cases hf : findFuncByName c x with
      | some fn =>
        rw [hf] at h
        have : fn.sym = globalName x := by
          have := List.find?_some hf; simpa using this
        exact key c fn.val rfl rfl rfl ⟨fn.variadic, fn.params.length, by rw [← this]; rfl⟩ h
      | none =>
        rw [hf] at h
        simp only at h
        obind h o c2 h2
        unfold getOrDeclareFunction at h2
        cases hfn : lookup x c.functions with
        | some w =>
          rw [hfn] at h2; cases h2
          obtain ⟨b, k, rfl⟩ := hc.inv.fns x w hfn
          exact key c _ rfl rfl rfl ⟨b, k, rfl⟩ h
        | none =>
          rw [hfn, hcx] at h2; cases h2
          have h' := key _ (fdecl x).val (by exact rfl) (by exact rfl) (by exact rfl) ⟨_, _, rfl⟩ (h :)
          exact h'

/-- calls: the callee is a function symbol or a value -/
theorem genCall_run {fv v : Val} {vs : List Val} {c c' : CState} {g : Cfg M.World} {a w : Word} {ws : List Word} {st : Store M.World}
    (h : genCall fv vs c = .ok v c') (ho : Open c) (hb : Ext c'.blocks bs) (hat : At c g) (hf : Holds M args c g fv a)
    (hfn : ∀ s b k, fv = .func s b k → ∃ x, s = globalName x)
    (hv : HoldsAll M args c g vs ws) (hR : R a ws g.st w st) :
    ∃ g', Run R bs args c g c' g' ∧ g'.st = st ∧ Holds M args c' g' v w := by
  have two : ∀ (i : Inst) (hi : ∀ g : Cfg M.World, valSem M args g.regs fv = some a → Inst.Sem M R args g a g.va g.st i),
      (do let x ← emit i; emit (.call x vs) : B Val) c = .ok v c' →
      ∃ g', Run R bs args c g c' g' ∧ g'.st = st ∧ Holds M args c' g' v w := by
    intro i hi h
    obind h x c1 h1
    have k1 := KE.emit _ _ _ _ h1 ho
    have k2 := KE.emit _ _ _ _ h k1.opn
    obtain ⟨g1, r1, s1, v1⟩ := emit_run (R := R) (args := args) h1 (k2.ext.trans hb) hat (hi g hf.now)
    obtain ⟨rfl, _⟩ := emit_blocks h1
    have hv1 := hv.later r1
    obtain ⟨g2, r2, s2, v2⟩ := emit_run (R := R) (args := args) h hb r1.arr (r := w) (st := st)
      ⟨⟨a, ws, v1.now, hv1.now, by rw [s1]; exact hR⟩, rfl⟩
    exact ⟨g2, r1.trans r2, s2, v2⟩
  cases fv with
  | func s b k =>
    simp only [genCall] at h
    replace h := ite_ok h
    rcases h with ⟨_, h⟩ | ⟨_, h⟩
    · exact two (.bitcast (.func s b k)) (fun g hg => ⟨hg, rfl, rfl⟩) h
    · obtain ⟨x, rfl⟩ := hfn _ _ _ rfl
      have hva := globalName_ne_va x
      have ha : M.addr (globalName x) = a := by have := hf.now; simpa [valSem] using this
      refine emit_run h hb hat ?_
      simp only [Inst.Sem]
      rw [if_neg hva.1, if_neg hva.2, ha]
      exact ⟨⟨ws, hv.now, hR⟩, trivial⟩
  | const k => exact two (.inttofn (.const k) (if 1 ≤ vs.length then 1 else 0)) (fun g hg => ⟨hg, rfl, rfl⟩) h
  | reg k => exact two (.inttofn (.reg k) (if 1 ≤ vs.length then 1 else 0)) (fun g hg => ⟨hg, rfl, rfl⟩) h
  | glob s t => exact two (.inttofn (.glob s t) (if 1 ≤ vs.length then 1 else 0)) (fun g hg => ⟨hg, rfl, rfl⟩) h
  | param => exact two (.inttofn (.param) (if 1 ≤ vs.length then 1 else 0)) (fun g hg => ⟨hg, rfl, rfl⟩) h

/-- not a function symbol -/
def NoFn (v : Val) : Prop := ∀ s b k, v ≠ .func s b k

theorem emit_noFn {i : Inst} {c c' : CState} {v : Val} (h : emit i c = .ok v c') : NoFn v := by
  cases h; intro s b k e; cases e

theorem rval_noFn {v : LV} {w : Val} {c c' : CState} (h : rval v c = .ok w c') (hv : v.2 = false → NoFn v.1) : NoFn w := by
  unfold rval at h
  replace h := ite_ok h
  rcases h with ⟨_, h⟩ | ⟨hn, h⟩
  · exact emit_noFn h
  · simp at h; obtain ⟨rfl, _⟩ := h
    exact hv (by simpa using hn)

theorem genOp_noFn {o : Op} {x y v : Val} {c c' : CState} (h : genOp o x y c = .ok v c') : NoFn v := by
  cases o with
  | bin o => exact emit_noFn h
  | cmp p =>
    simp only [genOp, cmpOp] at h
    obind h a c1 h1
    exact emit_noFn h

theorem genCall_noFn {f v : Val} {vs : List Val} {c c' : CState} (h : genCall f vs c = .ok v c') : NoFn v := by
  cases f with
  | func s b k =>
    simp only [genCall] at h
    replace h := ite_ok h
    rcases h with ⟨_, h⟩ | ⟨_, h⟩
    · obind h a c1 h1; exact emit_noFn h
    · exact emit_noFn h
  | const k => simp only [genCall] at h; obind h a c1 h1; exact emit_noFn h
  | reg k => simp only [genCall] at h; obind h a c1 h1; exact emit_noFn h
  | glob s t => simp only [genCall] at h; obind h a c1 h1; exact emit_noFn h
  | param => simp only [genCall] at h; obind h a c1 h1; exact emit_noFn h

theorem genVar_noFn {x : Name} {c c' : CState} {v : LV} (h : genVar x c = .ok v c') : v.2 = false → NoFn v.1 := by
  unfold genVar at h
  obind h o c1 h1
  cases o with
  | some a => simp at h; obtain ⟨rfl, _⟩ := h; simp
  | none =>
    simp only at h
    rw [Blang.M.bind_ok (Blang.M.get_apply _)] at h
    cases hf : findFuncByName c1 x with
    | some fn =>
      rw [hf] at h; simp only at h
      obind h a c2 h2
      simp at h; obtain ⟨rfl, _⟩ := h
      exact fun _ => emit_noFn h2
    | none =>
      rw [hf] at h; simp only at h
      obind h o c2 h2
      cases o with
      | none => cases h
      | some fn =>
        simp only at h
        obind h a c3 h3
        simp at h; obtain ⟨rfl, _⟩ := h
        exact fun _ => emit_noFn h3

theorem genL_noFn : ∀ (e : Ex) {c c' : CState} {v : LV}, genL e c = .ok v c' → v.2 = false → NoFn v.1
  | .num w, c, c', v, h => by
    simp only [genL] at h; simp at h; obtain ⟨rfl, _⟩ := h
    intro _ s b k e; cases e
  | .str s, c, c', v, h => by
    simp only [genL, genStr] at h
    obind h a c1 h1
    obind h1 g c2 h2
    obind h1 e c3 h3
    simp at h; obtain ⟨rfl, _⟩ := h
    exact fun _ => emit_noFn h1
  | .var x, c, c', v, h => genVar_noFn h
  | .paren e, c, c', v, h => by
    simp only [genL] at h
    obind h a c1 h1
    obind h w c2 h2
    simp at h; obtain ⟨rfl, _⟩ := h
    exact fun _ => rval_noFn h2 (genL_noFn e h1)
  | .index a i, c, c', v, h => by
    simp only [genL] at h
    obind h a c1 h1
    obind h a c2 h2
    obind h a c3 h3
    obind h a c4 h4
    obind h a c5 h5
    obind h a c6 h6
    simp at h; obtain ⟨rfl, _⟩ := h
    simp
  | .callName f as, c, c', v, h => by
    simp only [genL] at h
    obind h a c1 h1
    obind h a c2 h2
    obind h a c3 h3
    obind h a c4 h4
    simp at h; obtain ⟨rfl, _⟩ := h
    exact fun _ => genCall_noFn h4
  | .call f as, c, c', v, h => by
    simp only [genL] at h
    obind h a c1 h1
    obind h a c2 h2
    obind h a c3 h3
    obind h a c4 h4
    simp at h; obtain ⟨rfl, _⟩ := h
    exact fun _ => genCall_noFn h4
  | .post d e, c, c', v, h => by
    simp only [genL, genPostfix] at h
    obind h a c1 h1
    obind h a c2 h2
    obind h r c3 h3
    obind h3 x c4 h4
    obind h3 y c5 h5
    obind h3 z c6 h6
    simp at h3; obtain ⟨rfl, _⟩ := h3
    simp at h; obtain ⟨rfl, _⟩ := h
    exact fun _ => emit_noFn h4
  | .pre d e, c, c', v, h => by
    simp only [genL] at h
    obind h a c1 h1
    obind h a c2 h2
    obind h r c3 h3
    simp at h; obtain ⟨rfl, _⟩ := h
    simp
  | .not e, c, c', v, h => by
    simp only [genL, genNot, cmpOp] at h
    obind h a c1 h1
    obind h r c2 h2
    obind h2 x c3 h3
    obind h2 y c4 h4
    simp at h; obtain ⟨rfl, _⟩ := h
    exact fun _ => emit_noFn h2
  | .neg e, c, c', v, h => by
    simp only [genL, genNeg] at h
    obind h a c1 h1
    obind h r c2 h2
    obind h2 x c3 h3
    simp at h; obtain ⟨rfl, _⟩ := h
    exact fun _ => emit_noFn h2
  | .deref e, c, c', v, h => by
    simp only [genL] at h
    obind h a c1 h1
    obind h r c2 h2
    simp at h; obtain ⟨rfl, _⟩ := h
    simp
  | .addr e, c, c', v, h => by
    simp only [genL] at h
    obind h a c1 h1
    obind h a c2 h2
    obind h r c3 h3
    simp at h; obtain ⟨rfl, _⟩ := h
    exact fun _ => emit_noFn h3
  | .bin o l r, c, c', v, h => by
    simp only [genL] at h
    obind h a c1 h1
    obind h a c2 h2
    obind h a c3 h3
    obind h a c4 h4
    obind h a c5 h5
    simp at h; obtain ⟨rfl, _⟩ := h
    exact fun _ => genOp_noFn h5
  | .cond cnd t e, c, c', v, h => by
    simp only [genL] at h
    obind h a c1 h1
    obind h a c2 h2
    obind h a c3 h3
    obind h a c4 h4
    obind h a c5 h5
    obind h a c6 h6
    obind h a c7 h7
    obind h a c8 h8
    obind h a c9 h9
    obind h a c10 h10
    obind h a c11 h11
    obind h a c12 h12
    obind h a c13 h13
    obind h a c14 h14
    obind h a c15 h15
    simp at h; obtain ⟨rfl, _⟩ := h
    exact fun _ => emit_noFn h15
  | .assign o l r, c, c', v, h => by
    simp only [genL] at h
    obind h a c1 h1
    obind h a c2 h2
    obind h b c3 h3
    obind h w c4 h4
    obind h u c5 h5
    simp at h; obtain ⟨rfl, _⟩ := h
    intro _
    cases o with
    | none =>
      simp only [Option.map, genAssign] at h5
      obind h5 z c6 h6
      simp at h5; obtain ⟨rfl, _⟩ := h5
      exact rval_noFn h4 (genL_noFn r h3)
    | some o =>
      simp only [Option.map, genAssign] at h5
      obind h5 z c6 h6
      obind h5 y c7 h7
      obind h5 x c8 h8
      simp at h5; obtain ⟨rfl, _⟩ := h5
      exact genOp_noFn h7

/-- callees -/
theorem genCallee_sim {f : Name} {n : Nat} {c c1 c' : CState} {v : LV} {fv : Val} {g : Cfg M.World} {d : Res} (hc : ECtx E ρ n c g)
    (hf : f ∉ E.locals) (hn : NameOk f) (h : genCallee f c = .ok v c1) (hr : rval v c1 = .ok fv c') (hb : Ext c'.blocks bs)
    (he : nameRes M.toB E ρ f = some d) :
    ∃ g', Run R bs args c g c' g' ∧ g'.st = g.st ∧ Holds M args c' g' fv (d.value g.st.mem) ∧ ECtx E ρ n c' g' ∧
      ∀ s b k, fv = .func s b k → ∃ x, s = globalName x := by
  have k1 := KE.genCallee f _ _ _ h hc.opn
  have k2 := KE.rval _ _ _ _ hr k1.opn
  have hin := h
  unfold genCallee at h
  rw [Blang.M.bind_ok (Blang.M.get_apply _)] at h
  unfold nameRes at he
  rw [if_neg hf] at he
  have hx := hc.exts f
  have done : ∀ (fn : Val), (∃ b k, fn = .func (globalName f) b k) → v = (fn, false) → c1.blocks = c.blocks → c1.cur = c.cur →
      c1.nextReg = c.nextReg → f ∉ E.exts →
      ∃ g', Run R bs args c g c' g' ∧ g'.st = g.st ∧ Holds M args c' g' fv (d.value g.st.mem) ∧ ECtx E ρ n c' g' ∧
      ∀ s b k, fv = .func s b k → ∃ x, s = globalName x := by
    intro fn ⟨b, k, hfn⟩ hv q1 q2 q3 he'
    subst hfn hv
    rw [if_neg he'] at he; cases he
    have e : c' = c1 ∧ fv = .func (globalName f) b k := by
      simp [rval] at hr; exact ⟨hr.2.symm, hr.1.symm⟩
    obtain ⟨rfl, rfl⟩ := e
    have r : Run R bs args c g c' g := by
      obtain ⟨a1, b1, a2, a3⟩ := hc.arr
      exact ⟨.refl, ⟨a1.trans q2.symm, b1, by rw [q1, q2]; exact a2, a3⟩, rfl, by rw [q3]; exact Nat.le_refl _, fun _ _ => rfl⟩
    refine ⟨g, r, rfl, fun _ _ => rfl, ?_, ?_⟩
    · exact hc.step0 (KE.genCallee f) (ER.stable.genCallee hn) ((SR.stable (P := NameOk)).genCallee hn) hin r
    · intro s b' k' e; cases e; exact ⟨f, rfl⟩
  cases hff : findFuncByName c f with
  | some fn =>
    rw [hff] at h
    simp at h; obtain ⟨rfl, rfl⟩ := h
    have hs : fn.sym = globalName f := by
      have := List.find?_some hff; simpa using this
    refine done fn.val ⟨fn.variadic, fn.params.length, by rw [← hs]; rfl⟩ rfl rfl rfl rfl ?_
    intro hex
    refine hc.inv.disj f (hx.mp hex) ?_
    rw [← hs]
    exact List.mem_map_of_mem (List.mem_of_find?_eq_some hff)
  | none =>
    rw [hff] at h
    simp only at h
    cases hcx : lookup f c.ctx with
    | some w =>
      rw [hcx] at h hx
      simp at h; obtain ⟨rfl, rfl⟩ := h
      rw [if_pos (hx.mpr rfl)] at he; cases he
      obtain ⟨ty, rfl⟩ := hc.inv.ctxv f w hcx
      obtain ⟨g', r, s, hv, x⟩ := rval_ctx (R := R) (args := args) hc hr hb (d := .cell (M.addr (globalName f))) ⟨rfl, fun _ _ => rfl⟩
      refine ⟨g', r, s, hv, x, ?_⟩
      intro s b k e; exact absurd e (rval_noFn hr (fun h => by cases h) s b k)
    | none =>
      rw [hcx] at h hx
      have hne : f ∉ E.exts := by rw [hx]; simp
      obind h o c2 h2
      unfold getOrDeclareFunction at h2
      cases hfn : lookup f c.functions with
      | some w =>
        rw [hfn] at h2; cases h2
        obtain ⟨b, k, rfl⟩ := hc.inv.fns f w hfn
        simp at h; obtain ⟨rfl, rfl⟩ := h
        exact done _ ⟨b, k, rfl⟩ rfl rfl rfl rfl hne
      | none =>
        rw [hfn, hcx] at h2; cases h2
        simp at h; obtain ⟨rfl, rfl⟩ := h
        exact done (fdecl f).val ⟨_, _, rfl⟩ rfl rfl rfl rfl hne

theorem str_sim {s : List Nat} : SimE R bs args E ρ (.str s) := by
  intro n c c' v g d st hc h hb he
  simp only [Ex.Eval] at he
  obtain ⟨rfl, rfl⟩ := he
  simp only [genL, genStr] at h
  obind h w c1 h1
  obind h1 G c2 h2
  obind h1 e c3 h3
  simp at h; obtain ⟨rfl, rfl⟩ := h
  obtain ⟨ss, hs, hl⟩ := hc.str
  have hid : c.stringID = n := by rw [hs.2, hl]
  cases h2
  have ho := hc.opn
  have k3 := KE.emit _ _ _ _ h3 (show Open _ from ho)
  have k4 := KE.emit _ _ _ _ h1 k3.opn
  obtain ⟨g1, r1, s1, v1⟩ := emit_run (R := R) (args := args) h3 (k4.ext.trans hb) (g := g) hc.arr
    (r := M.addr (strSym c.stringID)) (st := g.st) ⟨⟨M.addr (strSym c.stringID), rfl, by simp⟩, rfl, rfl⟩
  obtain ⟨g2, r2, s2, v2⟩ := emit_run (R := R) (args := args) h1 hb r1.arr (r := M.addr (strSym c.stringID)) (st := g1.st)
    ⟨v1.now, rfl, rfl⟩
  have r := r1.trans r2
  rw [hid] at v2
  exact ⟨g2, ⟨r.steps, r.arr, r.va, r.mono, r.regs⟩, s2.trans s1, rfl, v2⟩

theorem dirOp_sem (d : Dir) (x : Word) : BinOp.sem x 1 (dirOp d) = some (d.sem x) := by
  cases d
  · exact dir_sem .inc x
  · exact dir_sem .dec x

mutual
theorem genL_sim : ∀ e : Ex, e.All NameOk → (∀ f ∈ e.callees, f ∉ E.locals) → SimE R bs args E ρ e
  | .num w, _, _ => by
    intro n c c' v g d st hc h hb he
    simp only [Ex.Eval] at he
    obtain ⟨rfl, rfl⟩ := he
    simp only [genL] at h; simp at h; obtain ⟨rfl, rfl⟩ := h
    exact ⟨g, .refl hc.arr, rfl, rfl, .const w⟩
  | .str s, _, _ => str_sim
  | .var x, _, _ => genVar_sim
  | .paren e, hn, hf => by
    intro n c c' v g d st hc h hb he
    simp only [Ex.Eval] at he
    obtain ⟨d, he, rfl⟩ := he
    simp only [genL] at h
    obind h a c1 h1
    obind h w c2 h2
    simp at h; obtain ⟨rfl, rfl⟩ := h
    obtain ⟨g', r, s, hv, _⟩ := (genL_sim e hn hf).rv hn hc h1 h2 hb he
    exact ⟨g', r, s, rfl, hv⟩
  | .index a i, hn, hf => by
    intro n c c' v g d st hc h hb he
    simp only [Ex.Eval] at he
    obtain ⟨d1, st1, d2, e1, e2, rfl⟩ := he
    simp only [Ex.All] at hn
    simp only [Ex.callees, List.mem_append] at hf
    simp only [genL] at h
    obind h av c1 h1
    obind h base c2 h2
    obind h ptr c3 h3
    obind h iv c4 h4
    obind h iw c5 h5
    obind h el c6 h6
    simp at h; obtain ⟨rfl, rfl⟩ := h
    have k1 := KE.genL a _ _ _ h1 hc.opn
    have k2 := KE.rval _ _ _ _ h2 k1.opn
    have k3 := KE.emit _ _ _ _ h3 k2.opn
    have k4 := KE.genL i _ _ _ h4 k3.opn
    have k5 := KE.rval _ _ _ _ h5 k4.opn
    have k6 := KE.emit _ _ _ _ h6 k5.opn
    have b5 := k6.ext.trans hb
    have b3 := (k4.ext.trans k5.ext).trans b5
    obtain ⟨g2, r2, s2, v2, x2⟩ := (genL_sim a hn.1 fun f hh => hf f (.inl hh)).rv hn.1 hc h1 h2 (k3.ext.trans b3) e1
    obtain ⟨g3, r3, s3, v3, x3⟩ := emit_ctx (R := R) (args := args) x2 h3 b3 (r := d1.value st1.mem) (st := g2.st) ⟨v2.now, rfl, rfl⟩
    obtain ⟨g5, r5, s5, v5, x5⟩ := (genL_sim i hn.2 fun f hh => hf f (.inr hh)).rv hn.2 x3 h4 h5 b5
      (by rw [s3, s2]; exact e2)
    obtain ⟨g6, r6, s6, v6⟩ := emit_run (R := R) (args := args) h6 hb x5.arr
      (r := d1.value st1.mem + 8 * d2.value st.mem) (st := g5.st) ⟨⟨_, _, (v3.later r5).now, v5.now, rfl⟩, rfl, rfl⟩
    exact ⟨g6, ((r2.trans r3).trans r5).trans r6, s6.trans s5, rfl, v6⟩
  | .callName f as, hn, hf => by
    intro n c c' v g d st hc h hb he
    simp only [Ex.Eval] at he
    obtain ⟨d, ws, st1, w, e1, e2, e3, rfl⟩ := he
    simp only [Ex.All] at hn
    simp only [Ex.callees, List.mem_cons] at hf
    simp only [genL] at h
    obind h av c1 h1
    obind h fv c2 h2
    obind h vs c3 h3
    obind h rv c4 h4
    simp at h; obtain ⟨rfl, rfl⟩ := h
    have k1 := KE.genCallee f _ _ _ h1 hc.opn
    have k2 := KE.rval _ _ _ _ h2 k1.opn
    have k3 := KE.genArgs as _ _ _ h3 k2.opn
    have k4 := KE.genCall _ _ _ _ _ h4 k3.opn
    have b3 := k4.ext.trans hb
    obtain ⟨g2, r2, s2, v2, x2, hfn⟩ := genCallee_sim (R := R) (args := args) hc (hf f (.inl rfl)) hn.1 h1 h2 (k3.ext.trans b3) e1
    obtain ⟨g3, r3, s3, v3⟩ := genArgs_sim as hn.2 (fun f hh => hf f (.inr hh)) _ _ _ _ _ _ _ x2 h3 b3 (by rw [s2]; exact e2)
    obtain ⟨g4, r4, s4, v4⟩ := genCall_run (R := R) (args := args) h4 k3.opn hb r3.arr (v2.later r3) hfn v3 (by rw [s3]; exact e3)
    exact ⟨g4, (r2.trans r3).trans r4, s4, rfl, v4⟩
  | .call f as, hn, hf => by
    intro n c c' v g d st hc h hb he
    simp only [Ex.Eval] at he
    obtain ⟨d, st1, ws, st2, w, e1, e2, e3, rfl⟩ := he
    simp only [Ex.All] at hn
    simp only [Ex.callees, List.mem_append] at hf
    simp only [genL] at h
    obind h av c1 h1
    obind h fv c2 h2
    obind h vs c3 h3
    obind h rv c4 h4
    simp at h; obtain ⟨rfl, rfl⟩ := h
    have k1 := KE.genL f _ _ _ h1 hc.opn
    have k2 := KE.rval _ _ _ _ h2 k1.opn
    have k3 := KE.genArgs as _ _ _ h3 k2.opn
    have k4 := KE.genCall _ _ _ _ _ h4 k3.opn
    have b3 := k4.ext.trans hb
    obtain ⟨g2, r2, s2, v2, x2⟩ := (genL_sim f hn.1 fun f hh => hf f (.inl hh)).rv hn.1 hc h1 h2 (k3.ext.trans b3) e1
    obtain ⟨g3, r3, s3, v3⟩ := genArgs_sim as hn.2 (fun f hh => hf f (.inr hh)) _ _ _ _ _ _ _ x2 h3 b3 (by rw [s2]; exact e2)
    obtain ⟨g4, r4, s4, v4⟩ := genCall_run (R := R) (args := args) h4 k3.opn hb r3.arr (v2.later r3)
      (fun s b k e => absurd e (rval_noFn h2 (genL_noFn f h1) s b k)) v3 (by rw [s3]; exact e3)
    exact ⟨g4, (r2.trans r3).trans r4, s4, rfl, v4⟩
  | .post o e, hn, hf => by
    intro n c c' v g d st hc h hb he
    simp only [Ex.Eval] at he
    obtain ⟨a, st1, e1, rfl, rfl⟩ := he
    simp only [genL, genPostfix] at h
    obind h av c1 h1
    obind h ad c2 h2
    obind h rv c3 h3
    obind h3 cu c4 h4
    obind h3 re c5 h5
    obind h3 un c6 h6
    simp at h3; obtain ⟨rfl, rfl⟩ := h3
    simp at h; obtain ⟨rfl, rfl⟩ := h
    have k1 := KE.genL e _ _ _ h1 hc.opn
    have k2 := KE.needLval _ _ _ _ h2 k1.opn
    have k4 := KE.emit _ _ _ _ h4 k2.opn
    have k5 := KE.emit _ _ _ _ h5 k4.opn
    have k6 := KE.emit _ _ _ _ h6 k5.opn
    have b5 := k6.ext.trans hb
    have b4 := k5.ext.trans b5
    obtain ⟨g2, r2, s2, v2, x2⟩ := (genL_sim e hn hf).lv hn hc h1 h2 (k4.ext.trans b4) e1
    obtain ⟨g4, r4, s4, v4⟩ := emit_run (R := R) (args := args) h4 b4 x2.arr (r := loadW st1.mem a) (st := g2.st)
      ⟨⟨a, v2.now, by rw [s2]⟩, rfl, rfl⟩
    obtain ⟨g5, r5, s5, v5⟩ := emit_run (R := R) (args := args) h5 b5 r4.arr (r := o.sem (loadW st1.mem a)) (st := g4.st)
      ⟨⟨_, 1, v4.now, rfl, dirOp_sem _ _⟩, rfl, rfl⟩
    obtain ⟨g6, r6, s6, v6⟩ := emit_run (R := R) (args := args) h6 hb r5.arr (r := 0)
      (st := g5.st.store a (o.sem (loadW st1.mem a)))
      ⟨⟨_, a, v5.now, ((v2.later r4).later r5).now, rfl⟩, rfl, rfl⟩
    exact ⟨g6, ((r2.trans r4).trans r5).trans r6, by rw [s6, s5, s4, s2], rfl, (v4.later r5).later r6⟩
  | .pre o e, hn, hf => by
    intro n c c' v g d st hc h hb he
    simp only [Ex.Eval] at he
    obtain ⟨a, st1, e1, rfl, rfl⟩ := he
    simp only [genL, genPrefix] at h
    obind h av c1 h1
    obind h ad c2 h2
    obind h rv c3 h3
    obind h3 cu c4 h4
    obind h3 re c5 h5
    obind h3 un c6 h6
    simp at h3; obtain ⟨rfl, rfl⟩ := h3
    simp at h; obtain ⟨rfl, rfl⟩ := h
    have k1 := KE.genL e _ _ _ h1 hc.opn
    have k2 := KE.needLval _ _ _ _ h2 k1.opn
    have k4 := KE.emit _ _ _ _ h4 k2.opn
    have k5 := KE.emit _ _ _ _ h5 k4.opn
    have k6 := KE.emit _ _ _ _ h6 k5.opn
    have b5 := k6.ext.trans hb
    have b4 := k5.ext.trans b5
    obtain ⟨g2, r2, s2, v2, x2⟩ := (genL_sim e hn hf).lv hn hc h1 h2 (k4.ext.trans b4) e1
    obtain ⟨g4, r4, s4, v4⟩ := emit_run (R := R) (args := args) h4 b4 x2.arr (r := loadW st1.mem a) (st := g2.st)
      ⟨⟨a, v2.now, by rw [s2]⟩, rfl, rfl⟩
    obtain ⟨g5, r5, s5, v5⟩ := emit_run (R := R) (args := args) h5 b5 r4.arr (r := o.sem (loadW st1.mem a)) (st := g4.st)
      ⟨⟨_, 1, v4.now, rfl, dirOp_sem _ _⟩, rfl, rfl⟩
    obtain ⟨g6, r6, s6, v6⟩ := emit_run (R := R) (args := args) h6 hb r5.arr (r := 0)
      (st := g5.st.store a (o.sem (loadW st1.mem a)))
      ⟨⟨_, a, v5.now, ((v2.later r4).later r5).now, rfl⟩, rfl, rfl⟩
    exact ⟨g6, ((r2.trans r4).trans r5).trans r6, by rw [s6, s5, s4, s2], rfl, ((v2.later r4).later r5).later r6⟩
  | .not e, hn, hf => by
    intro n c c' v g d st hc h hb he
    simp only [Ex.Eval] at he
    obtain ⟨d, e1, rfl⟩ := he
    simp only [genL, genNot] at h
    obind h av c1 h1
    obind h rv c3 h3
    obind h3 x c2 h2
    simp at h; obtain ⟨rfl, rfl⟩ := h
    have k1 := KE.genL e _ _ _ h1 hc.opn
    have k2 := KE.rval _ _ _ _ h2 k1.opn
    have k3 := KE.cmpOp _ _ _ _ _ _ h3 k2.opn
    obtain ⟨g2, r2, s2, v2, x2⟩ := (genL_sim e hn hf).rv hn hc h1 h2 (k3.ext.trans hb) e1
    obtain ⟨g3, r3, s3, v3⟩ := genOp_run (o := .eq) (R := R) (args := args) h3 k2.opn hb x2.arr v2 (.const 0) rfl
    exact ⟨g3, r2.trans r3, s3.trans s2, rfl, v3⟩
  | .neg e, hn, hf => by
    intro n c c' v g d st hc h hb he
    simp only [Ex.Eval] at he
    obtain ⟨d, e1, rfl⟩ := he
    simp only [genL, genNeg] at h
    obind h av c1 h1
    obind h rv c3 h3
    obind h3 x c2 h2
    simp at h; obtain ⟨rfl, rfl⟩ := h
    have k1 := KE.genL e _ _ _ h1 hc.opn
    have k2 := KE.rval _ _ _ _ h2 k1.opn
    have k3 := KE.emit _ _ _ _ h3 k2.opn
    obtain ⟨g2, r2, s2, v2, x2⟩ := (genL_sim e hn hf).rv hn hc h1 h2 (k3.ext.trans hb) e1
    obtain ⟨g3, r3, s3, v3⟩ := emit_run (R := R) (args := args) h3 hb x2.arr
      (r := BitVec.ofInt 64 (-(d.value st.mem).toInt)) (st := g2.st)
      ⟨⟨0, _, rfl, v2.now, by simp only [BinOp.sem]; rw [neg_int]⟩, rfl, rfl⟩
    exact ⟨g3, r2.trans r3, s3.trans s2, rfl, v3⟩
  | .deref e, hn, hf => by
    intro n c c' v g d st hc h hb he
    simp only [Ex.Eval] at he
    obtain ⟨d, e1, rfl⟩ := he
    simp only [genL, genDeref] at h
    obind h av c1 h1
    obind h rv c3 h3
    obind h3 x c2 h2
    simp at h; obtain ⟨rfl, rfl⟩ := h
    have k1 := KE.genL e _ _ _ h1 hc.opn
    have k2 := KE.rval _ _ _ _ h2 k1.opn
    have k3 := KE.emit _ _ _ _ h3 k2.opn
    obtain ⟨g2, r2, s2, v2, x2⟩ := (genL_sim e hn hf).rv hn hc h1 h2 (k3.ext.trans hb) e1
    obtain ⟨g3, r3, s3, v3⟩ := emit_run (R := R) (args := args) h3 hb x2.arr
      (r := d.value st.mem) (st := g2.st) ⟨v2.now, rfl, rfl⟩
    exact ⟨g3, r2.trans r3, s3.trans s2, rfl, v3⟩
  | .addr e, hn, hf => by
    intro n c c' v g d st hc h hb he
    simp only [Ex.Eval] at he
    obtain ⟨a, e1, rfl⟩ := he
    simp only [genL] at h
    obind h av c1 h1
    obind h x c2 h2
    obind h rv c3 h3
    simp at h; obtain ⟨rfl, rfl⟩ := h
    have k1 := KE.genL e _ _ _ h1 hc.opn
    have k2 := KE.needLval _ _ _ _ h2 k1.opn
    have k3 := KE.emit _ _ _ _ h3 k2.opn
    obtain ⟨g2, r2, s2, v2, x2⟩ := (genL_sim e hn hf).lv hn hc h1 h2 (k3.ext.trans hb) e1
    obtain ⟨g3, r3, s3, v3⟩ := emit_run (R := R) (args := args) h3 hb x2.arr
      (r := a) (st := g2.st) ⟨v2.now, rfl, rfl⟩
    exact ⟨g3, r2.trans r3, s3.trans s2, rfl, v3⟩
  | .bin o x y, hn, hf => by
    intro n c c' v g d st hc h hb he
    simp only [Ex.Eval] at he
    obtain ⟨d1, st1, d2, w, e1, e2, e3, rfl⟩ := he
    simp only [Ex.All] at hn
    simp only [Ex.callees, List.mem_append] at hf
    simp only [genL] at h
    obind h av c1 h1
    obind h xv c2 h2
    obind h iv c4 h4
    obind h yv c5 h5
    obind h el c6 h6
    simp at h; obtain ⟨rfl, rfl⟩ := h
    have k1 := KE.genL x _ _ _ h1 hc.opn
    have k2 := KE.rval _ _ _ _ h2 k1.opn
    have k4 := KE.genL y _ _ _ h4 k2.opn
    have k5 := KE.rval _ _ _ _ h5 k4.opn
    have k6 := KE.genOp _ _ _ _ _ _ h6 k5.opn
    have b5 := k6.ext.trans hb
    have b2 := (k4.ext.trans k5.ext).trans b5
    obtain ⟨g2, r2, s2, v2, x2⟩ := (genL_sim x hn.1 fun f hh => hf f (.inl hh)).rv hn.1 hc h1 h2 b2 e1
    obtain ⟨g5, r5, s5, v5, x5⟩ := (genL_sim y hn.2 fun f hh => hf f (.inr hh)).rv hn.2 x2 h4 h5 b5 (by rw [s2]; exact e2)
    obtain ⟨g6, r6, s6, v6⟩ := genOp_run (R := R) (args := args) h6 k5.opn hb x5.arr (v2.later r5) v5 e3
    exact ⟨g6, (r2.trans r5).trans r6, s6.trans s5, rfl, v6⟩
  | .cond cn t e, hn, hf => by
    intro n c c' v g d st hc h hb he
    simp only [Ex.Eval] at he
    obtain ⟨d0, st1, d', e0, rfl, e1⟩ := he
    simp only [Ex.All] at hn
    simp only [Ex.callees, List.mem_append] at hf
    obtain ⟨r, hv2, h8⟩ := condRun h fun _ _ _ _ h1 h2 =>
        (KE.rval _ _ _ _ h2 (KE.genL cn _ _ _ h1 hc.opn).opn).opn
    have B := condBlocks (KE.genL cn) (KE.genL t) (KE.genL e) hc.opn r
    obtain ⟨c1, cv, c2, cond, c3, c4, tv, c5, thenVal, c6, ev, c7, elseVal, h1, h2, h3, h4, h5, h6, h7, h8'⟩ := r
    simp only at B h8
    obtain ⟨E2, S3, E5, S6, E7, S8, E8, _⟩ := B
    simp only at E2 S3 E5 S6 E7 S8 E8
    have b7' : Ext (withTerm c7 (.br (c2.blocks.length + 2))).blocks bs := E8.ext.trans hb
    have b7 := (withTerm_ext E7.opn _).trans b7'
    have b5' : Ext (withTerm c5 (.br (c2.blocks.length + 2))).blocks bs := E7.ext.trans b7
    have b5 := (withTerm_ext E5.opn _).trans b5'
    have b3 : Ext c3.blocks bs := E5.ext.trans b5
    obtain ⟨fk, _⟩ := condStart_forked E2.opn h3
    have b2 := (fk.ext E2.opn).trans b3
    obtain ⟨g2, r2, s2, v2, x2⟩ := (genL_sim cn hn.1 fun f hh => hf f (.inl hh)).rv hn.1 hc h1 h2 b2 e0
    -- the comparison and the branch
    obtain ⟨b, hb2, fb⟩ := fk.blocks
    obtain ⟨b', hb', eb⟩ := b3 c2.cur _ ((fb c2.cur).trans (if_pos rfl))
    have hbc := eb.closed (by simp)
    rw [hbc] at hb'
    obtain ⟨q1, b1, q2, q3⟩ := x2.arr
    rw [hb2] at q2; cases q2
    let g3 : Cfg M.World := g2.next c2.nextReg (if d0.value st1.mem ≠ 0 then 1 else 0) g2.va g2.st
    let g4 := g3.jump (if d0.value st1.mem ≠ 0 then c2.blocks.length else c2.blocks.length + 1)
    have step3 : IRStep M R bs args g2 g3 := by
      refine .inst (inst := .icmp .ne cond (.const 0)) (by rw [q1]; exact hb') (by simp [q3]) ?_
      refine ⟨⟨_, 0, v2.now, rfl, ?_⟩, rfl, rfl⟩
      simp [Pred.sem]
    have step4 : IRStep M R bs args g3 g4 := by
      refine .term (b := ⟨b.name, b.insts ++ [(c2.nextReg, .icmp .ne cond (.const 0))],
        some (.condbr (.reg c2.nextReg) c2.blocks.length (c2.blocks.length + 1))⟩) (t := .condbr (.reg c2.nextReg) c2.blocks.length (c2.blocks.length + 1))
        (by show bs[g2.blk]? = _; rw [q1]; exact hb') (by simp [g3, Cfg.next, q3]) rfl ?_
      refine ⟨(if d0.value st1.mem ≠ 0 then 1 else 0), by simp [g3, Cfg.next, valSem], ?_⟩
      split <;> simp
    have steps4 : IRSteps M R bs args g2 g4 := .head step3 (.head step4 .refl)
    have st4 : g4.st = st1 := s2
    have m3 : c3.nextReg = c2.nextReg + 1 := fk.reg
    have kcs := ER.stable.condStart cond _ _ _ h3
    have scs := (SR.stable (P := NameOk)).condStart cond _ _ _ h3
    have regs4 : ∀ i, i < c2.nextReg ∨ c3.nextReg ≤ i → g4.regs i = g2.regs i := by
      intro i hi
      show (if i = c2.nextReg then _ else g2.regs i) = _
      rw [if_neg (by omega)]
    obtain ⟨ss, ss1, ss2⟩ := x2.str
    by_cases hcnd : d0.value st1.mem ≠ 0
    · rw [if_pos hcnd] at e1
      have hblk : g4.blk = c2.blocks.length := if_pos hcnd
      have r4 : Run R bs args c2 g2 (goto' c3 c2.blocks.length) g4 :=
        ⟨steps4, .start S3 hblk rfl, rfl, by show c2.nextReg ≤ c3.nextReg; omega, regs4⟩
      have x4 : ECtx E ρ (n + cn.strings.length) (goto' c3 c2.blocks.length) g4 :=
        x2.step S3.open (ER.stable.trans kcs (ER.stable.setInsertPoint _ _ _ _ (setInsertPoint_eq _ _))) r4 ⟨ss, scs _ ss1, ss2⟩
      obtain ⟨g5, r5, s5, v5, x5⟩ := (genL_sim t hn.2.1 fun f hh => hf f (.inr (.inl hh))).rv hn.2.1 x4 h4 h5 b5
        (by rw [st4]; exact e1)
      have m7 : c5.nextReg ≤ c7.nextReg :=
        Nat.le_trans (ER.stable.genL e hn.2.2 _ _ _ h6).reg (ER.stable.rval _ _ _ _ h7).reg
      have r8 : Run R bs args c5 g5 (goto' (withTerm c7 (.br (c2.blocks.length + 2))) (c2.blocks.length + 2)) (g5.jump (c2.blocks.length + 2)) :=
        jump_run x5.arr b5' rfl S8 rfl m7
      obtain ⟨g9, r9, s9, v9⟩ := emit_run (R := R) (args := args) h8 hb r8.arr (r := d'.value st.mem) (st := g5.st)
        ⟨by
          show if g5.blk = c5.cur then _ else _
          rw [if_pos x5.arr.1]; exact v5.now, rfl, rfl⟩
      exact ⟨g9, (((r2.trans r4).trans r5).trans r8).trans r9, s9.trans s5, hv2, v9⟩
    · rw [if_neg hcnd] at e1
      have hblk : g4.blk = c2.blocks.length + 1 := if_neg hcnd
      have kt := ER.stable.trans (ER.stable.setInsertPoint _ _ _ _ (setInsertPoint_eq c2.blocks.length c3))
        (ER.stable.trans (ER.stable.genL t hn.2.1 _ _ _ h4) (ER.stable.rval _ _ _ _ h5))
      have kt2 := ER.stable.trans kt (ER.stable.trans (ER.stable.setTerm _ _ _ _ (setTerm_eq (.br (c2.blocks.length + 2)) c5))
        (ER.stable.setInsertPoint _ _ _ _ (setInsertPoint_eq (c2.blocks.length + 1) _)))
      have m5 : c3.nextReg ≤ c5.nextReg := kt.reg
      have r4 : Run R bs args c2 g2 (goto' (withTerm c5 (.br (c2.blocks.length + 2))) (c2.blocks.length + 1)) g4 :=
        ⟨steps4, .start S6 hblk rfl, rfl, by show c2.nextReg ≤ c5.nextReg; omega, fun i hi => regs4 i (by
          have : (goto' (withTerm c5 (.br (c2.blocks.length + 2))) (c2.blocks.length + 1)).nextReg = c5.nextReg := rfl
          omega)⟩
      have x4 : ECtx E ρ (n + cn.strings.length + t.strings.length)
          (goto' (withTerm c5 (.br (c2.blocks.length + 2))) (c2.blocks.length + 1)) g4 := by
        refine x2.step S6.open (ER.stable.trans kcs kt2) r4 ⟨ss ++ t.strings, ?_, by simp [ss2]⟩
        have a1 : StrInv (goto' c3 c2.blocks.length) ss := scs _ ss1
        have a2 := genL_adds t _ _ _ _ h4 a1
        exact (SR.stable (P := NameOk)).rval _ _ _ _ h5 _ a2
      obtain ⟨g5, r5, s5, v5, x5⟩ := (genL_sim e hn.2.2 fun f hh => hf f (.inr (.inr hh))).rv hn.2.2 x4 h6 h7 b7
        (by rw [st4]; exact e1)
      have r8 : Run R bs args c7 g5 (goto' (withTerm c7 (.br (c2.blocks.length + 2))) (c2.blocks.length + 2)) (g5.jump (c2.blocks.length + 2)) :=
        jump_run x5.arr b7' rfl S8 rfl (Nat.le_refl _)
      have hne : c7.cur ≠ c5.cur := by
        have l3 := fk.length E2.opn
        have hc5 : c5.cur = c2.blocks.length ∨ c2.blocks.length + 3 ≤ c5.cur := by
          rcases E5.cur with h | h
          · exact .inl h
          · right; have : c3.blocks.length ≤ c5.cur := h; omega
        have hl5 : c5.cur < c5.blocks.length := E5.opn.lt
        rcases E7.cur with h | h
        · have h : c7.cur = c2.blocks.length + 1 := h
          omega
        · have h : (withTerm c5 (.br (c2.blocks.length + 2))).blocks.length ≤ c7.cur := h
          rw [withTerm_length] at h; omega
      obtain ⟨g9, r9, s9, v9⟩ := emit_run (R := R) (args := args) h8 hb r8.arr (r := d'.value st.mem) (st := g5.st)
        ⟨by
          show if g5.blk = c5.cur then _ else _
          rw [if_neg (by rw [x5.arr.1]; exact hne)]; exact ⟨x5.arr.1, v5.now⟩, rfl, rfl⟩
      exact ⟨g9, (((r2.trans r4).trans r5).trans r8).trans r9, s9.trans s5, hv2, v9⟩
  | .assign none x y, hn, hf => by
    intro n c c' v g d st hc h hb he
    simp only [Ex.Eval] at he
    obtain ⟨a, st1, d, st2, e1, e2, rfl, rfl⟩ := he
    simp only [Ex.All] at hn
    simp only [Ex.callees, List.mem_append] at hf
    simp only [genL, Option.map, genAssign] at h
    obind h av c1 h1
    obind h xv c2 h2
    obind h iv c4 h4
    obind h yv c5 h5
    obind h el c6 h6
    obind h6 un c7 h7
    simp at h6; obtain ⟨rfl, rfl⟩ := h6
    simp at h; obtain ⟨rfl, rfl⟩ := h
    have k1 := KE.genL x _ _ _ h1 hc.opn
    have k2 := KE.needLval _ _ _ _ h2 k1.opn
    have k4 := KE.genL y _ _ _ h4 k2.opn
    have k5 := KE.rval _ _ _ _ h5 k4.opn
    have k6 := KE.emit _ _ _ _ h7 k5.opn
    have b5 := k6.ext.trans hb
    have b2 := (k4.ext.trans k5.ext).trans b5
    obtain ⟨g2, r2, s2, v2, x2⟩ := (genL_sim x hn.1 fun f hh => hf f (.inl hh)).lv hn.1 hc h1 h2 b2 e1
    obtain ⟨g5, r5, s5, v5, x5⟩ := (genL_sim y hn.2 fun f hh => hf f (.inr hh)).rv hn.2 x2 h4 h5 b5 (by rw [s2]; exact e2)
    obtain ⟨g6, r6, s6, v6⟩ := emit_run (R := R) (args := args) h7 hb x5.arr (r := 0) (st := g5.st.store a (d.value st2.mem))
      ⟨⟨_, _, v5.now, (v2.later r5).now, rfl⟩, rfl, rfl⟩
    exact ⟨g6, (r2.trans r5).trans r6, by rw [s6, s5], rfl, v5.later r6⟩
  | .assign (some o) x y, hn, hf => by
    intro n c c' v g d st hc h hb he
    simp only [Ex.Eval] at he
    obtain ⟨a, st1, d, st2, w, e1, e2, e3, rfl, rfl⟩ := he
    simp only [Ex.All] at hn
    simp only [Ex.callees, List.mem_append] at hf
    simp only [genL, Option.map, genAssign] at h
    obind h av c1 h1
    obind h xv c2 h2
    obind h iv c4 h4
    obind h yv c5 h5
    obind h el c6 h6
    obind h6 cv c7 h7
    obind h6 nv c8 h8
    obind h6 un c9 h9
    simp at h6; obtain ⟨rfl, rfl⟩ := h6
    simp at h; obtain ⟨rfl, rfl⟩ := h
    have k1 := KE.genL x _ _ _ h1 hc.opn
    have k2 := KE.needLval _ _ _ _ h2 k1.opn
    have k4 := KE.genL y _ _ _ h4 k2.opn
    have k5 := KE.rval _ _ _ _ h5 k4.opn
    have k7 := KE.emit _ _ _ _ h7 k5.opn
    have k8 := KE.genOp _ _ _ _ _ _ h8 k7.opn
    have k9 := KE.emit _ _ _ _ h9 k8.opn
    have b8 := k9.ext.trans hb
    have b7 := k8.ext.trans b8
    have b5 := k7.ext.trans b7
    have b2 := (k4.ext.trans k5.ext).trans b5
    obtain ⟨g2, r2, s2, v2, x2⟩ := (genL_sim x hn.1 fun f hh => hf f (.inl hh)).lv hn.1 hc h1 h2 b2 e1
    obtain ⟨g5, r5, s5, v5, x5⟩ := (genL_sim y hn.2 fun f hh => hf f (.inr hh)).rv hn.2 x2 h4 h5 b5 (by rw [s2]; exact e2)
    obtain ⟨g7, r7, s7, v7⟩ := emit_run (R := R) (args := args) h7 b7 x5.arr (r := loadW st2.mem a) (st := g5.st)
      ⟨⟨a, (v2.later r5).now, by rw [s5]⟩, rfl, rfl⟩
    obtain ⟨g8, r8, s8, v8⟩ := genOp_run (R := R) (args := args) h8 k7.opn b8 r7.arr v7 (v5.later r7) e3
    obtain ⟨g9, r9, s9, v9⟩ := emit_run (R := R) (args := args) h9 hb r8.arr (r := 0) (st := g8.st.store a w)
      ⟨⟨_, _, v8.now, (((v2.later r5).later r7).later r8).now, rfl⟩, rfl, rfl⟩
    exact ⟨g9, (((r2.trans r5).trans r7).trans r8).trans r9, by rw [s9, s8, s7, s5], rfl, v8.later r9⟩

theorem genArgs_sim : ∀ es : List Ex, Ex.AllArgs NameOk es → (∀ f ∈ Ex.calleesArgs es, f ∉ E.locals) → SimA R bs args E ρ es
  | [], _, _ => by
    intro n c c' vs g ws st hc h hb he
    simp only [Ex.EvalArgs] at he
    obtain ⟨rfl, rfl⟩ := he
    simp only [genArgs] at h; simp at h; obtain ⟨rfl, rfl⟩ := h
    exact ⟨g, .refl hc.arr, rfl, fun _ _ => rfl⟩
  | e :: es, hn, hf => by
    intro n c c' vs g ws st hc h hb he
    simp only [Ex.EvalArgs] at he
    obtain ⟨d, st1, ws, e1, e2, rfl⟩ := he
    simp only [Ex.AllArgs] at hn
    simp only [Ex.calleesArgs, List.mem_append] at hf
    simp only [genArgs] at h
    obind h av c1 h1
    obind h xv c2 h2
    obind h vs c3 h3
    simp at h; obtain ⟨rfl, rfl⟩ := h
    have k1 := KE.genL e _ _ _ h1 hc.opn
    have k2 := KE.rval _ _ _ _ h2 k1.opn
    have k3 := KE.genArgs es _ _ _ h3 k2.opn
    obtain ⟨g2, r2, s2, v2, x2⟩ := (genL_sim e hn.1 fun f hh => hf f (.inl hh)).rv hn.1 hc h1 h2 (k3.ext.trans hb) e1
    obtain ⟨g3, r3, s3, v3⟩ := genArgs_sim es hn.2 (fun f hh => hf f (.inr hh)) _ _ _ _ _ _ _ x2 h3 hb (by rw [s2]; exact e2)
    exact ⟨g3, r2.trans r3, s3, .cons (v2.later r3) v3⟩
end

end
end Blang
