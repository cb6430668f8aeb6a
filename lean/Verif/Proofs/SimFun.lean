import Verif.Proofs.SimStep
import Verif.Spec.Runs
/-
The code of a function does what the function means.
-/
namespace Blang
open Spec

/-! ### parameters -/

theorem KE.modLocal (f : CState → CState) (h1 : ∀ c, (f c).blocks = c.blocks) (h2 : ∀ c, (f c).cur = c.cur) :
    KE (M.modify f : B Unit) := by
  intro c a c' h ho
  cases h
  exact .of_eq ho (h1 c) (h2 c)

theorem KE.getOrCreateFunc (n : Name) : KE (getOrCreateFunc n) := by
  intro c a c' h ho
  unfold Blang.getOrCreateFunc at h
  split at h <;> cases h
  · exact .refl ho
  · exact .of_eq ho rfl rfl

theorem KE.firstParam (p : Name) : KE (firstParam p) :=
  KE.bind (KE.emit _) fun _ => KE.bind (KE.emit _) fun _ => KE.modLocal _ (fun _ => rfl) (fun _ => rfl)

theorem KE.vaParams (v : Val) : ∀ ps : List Name, KE (vaParams v ps)
  | [] => KE.pure _
  | _ :: ps => KE.bind (KE.emit _) fun _ => KE.bind (KE.emit _) fun _ => KE.bind (KE.emit _) fun _ =>
      KE.bind (KE.modLocal _ (fun _ => rfl) (fun _ => rfl)) fun _ => KE.vaParams v ps

section
variable {M : IRMachine} {R : Calls M.World} {args : List Word} {bs : List Block}

/-- while the parameters are being stored -/
structure Par (c : CState) (g : Cfg M.World) (ρ : Frame) : Prop where
  opn : Open c
  arr : At c g
  mr : ∀ x a, ρ x = some a → ∃ r, lookup x c.locals = some (.reg r) ∧ r < c.nextReg ∧ g.regs r = some a
  loc : LocOk c
  lab : c.labels = []

/-- one instruction -/
theorem Par.emit {c c' : CState} {g : Cfg M.World} {ρ : Frame} (hp : Par c g ρ) {i : Inst} {v : Val} (h : emit i c = .ok v c')
    (hb : Ext c'.blocks bs) {r : Word} {va : List Word} {st : Store M.World} (hs : Inst.Sem M R args g r va st i) :
    ∃ g', IRSteps M R bs args g g' ∧ Par c' g' ρ ∧ g'.st = st ∧ g'.va = va ∧ v = .reg c.nextReg ∧ g'.regs c.nextReg = some r ∧
      (∀ j, j < c.nextReg → g'.regs j = g.regs j) := by
  have k := KE.emit _ _ _ _ h hp.opn
  obtain ⟨rfl, hbl, hc, hr⟩ := emit_blocks h
  have hloc := emit_locals h
  obtain ⟨h1, b, h2, h3⟩ := hp.arr
  have hcur : c'.blocks[c.cur]? = some { b with insts := b.insts ++ [(c.nextReg, i)] } := by
    rw [hbl, List.getElem?_modify]; simp [h2]
  obtain ⟨b', hb', e⟩ := hb _ _ hcur
  refine ⟨g.next c.nextReg r va st, steps_one (.inst (b := b') (by rw [h1]; exact hb') ?_ hs), ⟨k.opn, ⟨by rw [hc]; exact h1, _, by rw [hc]; exact hcur, ?_⟩,
    ?_, ?_, ?_⟩, rfl, rfl, rfl, ?_, ?_⟩
  · obtain ⟨l, hl⟩ := e.insts
    rw [← hl, h3]
    simp
  · simp [Cfg.next, h3]
  · intro x a hx
    obtain ⟨j, j1, j2, j3⟩ := hp.mr x a hx
    refine ⟨j, by rw [hloc]; exact j1, by omega, ?_⟩
    simp only [Cfg.next]
    rw [if_neg (by omega)]; exact j3
  · intro x w hx
    rw [hloc] at hx
    obtain ⟨j, j1, j2⟩ := hp.loc x w hx
    exact ⟨j, j1, by omega⟩
  · cases h; exact hp.lab
  · simp [Cfg.next]
  · intro j hj
    simp only [Cfg.next]
    rw [if_neg (by omega)]

/-- a local is bound to its cell -/
theorem Par.bind {c : CState} {g : Cfg M.World} {ρ : Frame} (hp : Par c g ρ) {p : Name} {r : Nat} {a : Word} (hr : r < c.nextReg)
    (ha : g.regs r = some a) : Par { c with locals := insert p (.reg r) c.locals } g (ρ.bind p a) := by
  refine ⟨hp.opn, hp.arr, ?_, ?_, hp.lab⟩
  · intro x b hx
    have hx : (ρ.bind p a) x = some b := hx
    by_cases e : x = p
    · subst e
      have hx := Option.some.inj ((if_pos rfl).symm.trans hx)
      subst hx
      exact ⟨r, by simp only [lookup_insert, if_true], hr, ha⟩
    · have hx : ρ x = some b := (if_neg e).symm.trans hx
      obtain ⟨j, j1, j2, j3⟩ := hp.mr x b hx
      exact ⟨j, by simp only [lookup_insert]; rw [if_neg (fun h => e h.symm)]; exact j1, j2, j3⟩
  · intro x v hx
    simp only [lookup_insert] at hx
    split at hx
    · cases hx; exact ⟨r, rfl, hr⟩
    · exact hp.loc x v hx

/-- the intrinsics for variable arguments -/
theorem Par.getFunc {c c' : CState} {g : Cfg M.World} {ρ : Frame} (hp : Par c g ρ) {n : Name} {v : Val} (h : getOrCreateFunc n c = .ok v c') :
    Par c' g ρ ∧ c'.nextReg = c.nextReg ∧ ∃ b k, v = .func n b k := by
  unfold getOrCreateFunc at h
  cases hf : c.funcs.find? (fun f => decide (f.sym = n)) with
  | some f =>
    rw [hf] at h; cases h
    have : f.sym = n := by have := List.find?_some hf; simpa using this
    subst this
    exact ⟨hp, rfl, _, _, rfl⟩
  | none =>
    rw [hf] at h; cases h
    exact ⟨⟨hp.opn, hp.arr, hp.mr, hp.loc, hp.lab⟩, rfl, _, _, rfl⟩

theorem firstParam_run {c c' : CState} {g : Cfg M.World} {ρ : Frame} {p : Name} {v : Word} {rest : List Word} {u : Unit} (hp : Par c g ρ)
    (h : firstParam p c = .ok u c') (hb : Ext c'.blocks bs) (ha : args = v :: rest) :
    ∃ g', IRSteps M R bs args g g' ∧ Par c' g' (ρ.bind p (M.alloc g.st.world 8).1) ∧
      g'.st = ⟨storeW g.st.mem (M.alloc g.st.world 8).1 v, (M.alloc g.st.world 8).2⟩ := by
  unfold firstParam at h
  obind h a c1 h1
  obind h b c2 h2
  simp at h; subst h
  have k1 := KE.emit _ _ _ _ h1 hp.opn
  have k2 := KE.emit _ _ _ _ h2 k1.opn
  have hb2 : Ext c2.blocks bs := hb
  obtain ⟨g1, s1, p1, t1, _, rfl, r1, q1⟩ := hp.emit (R := R) (args := args) (i := .alloca .i64) h1 (k2.ext.trans hb2)
    (r := (M.alloc g.st.world 8).1) (st := ⟨g.st.mem, (M.alloc g.st.world 8).2⟩) (va := g.va) ⟨rfl, rfl, rfl⟩
  obtain ⟨g2, s2, p2, t2, _, _, r2, q2⟩ := p1.emit (R := R) (args := args) (i := .store .param (.reg c.nextReg)) h2 hb2
    (r := 0) (st := g1.st.store (M.alloc g.st.world 8).1 v) (va := g1.va)
    ⟨⟨v, _, by rw [ha]; rfl, r1, rfl⟩, rfl, rfl⟩
  have n1 := (emit_reg h1).2
  have n2 := (emit_reg h2).2
  refine ⟨g2, steps_trans s1 s2, p2.bind (by omega) (by rw [q2 _ (by omega)]; exact r1), ?_⟩
  rw [t2, t1]; rfl

theorem vaParams_run {V : Val} : ∀ (ps : List Name) {vs : List Word} {c c' : CState} {g : Cfg M.World} {ρ : Frame} {u : Unit}, Par c g ρ →
    vaParams V ps c = .ok u c' → Ext c'.blocks bs → g.va = vs → ps.length ≤ vs.length →
    ∃ g', IRSteps M R bs args g g' ∧ Par c' g' (bindParams ps (M.cells g.st.world ps.length).1 ρ) ∧
      g'.st = ⟨storeArgs (M.cells g.st.world ps.length).1 vs g.st.mem, (M.cells g.st.world ps.length).2⟩
  | [], vs, c, c', g, ρ, u, hp, h, hb, hv, hl => by
    simp only [vaParams] at h; simp at h; subst h
    refine ⟨g, .refl, hp, ?_⟩
    cases vs <;> rfl
  | p :: ps, [], c, c', g, ρ, u, hp, h, hb, hv, hl => by simp at hl
  | p :: ps, v :: vs, c, c', g, ρ, u, hp, h, hb, hv, hl => by
    simp only [vaParams] at h
    obind h a c1 h1
    obind h b c2 h2
    obind h d c3 h3
    rw [Blang.M.bind_ok (Blang.M.modify_apply _ _)] at h
    have k1 := KE.emit _ _ _ _ h1 hp.opn
    have k2 := KE.emit _ _ _ _ h2 k1.opn
    have k3 := KE.emit _ _ _ _ h3 k2.opn
    have o4 : Open { c3 with locals := insert p a c3.locals } := k3.opn
    have k4 := KE.vaParams _ _ _ _ _ h o4
    have hb3 : Ext c3.blocks bs := k4.ext.trans hb
    have hb2 := k3.ext.trans hb3
    have hb1 := k2.ext.trans hb2
    obtain ⟨g1, s1, p1, t1, a1, rfl, r1, q1⟩ := hp.emit (R := R) (args := args) (i := .alloca .i64) h1 hb1
      (r := (M.alloc g.st.world 8).1) (st := ⟨g.st.mem, (M.alloc g.st.world 8).2⟩) (va := g.va) ⟨rfl, rfl, rfl⟩
    obtain ⟨g2, s2, p2, t2, a2, rfl, r2, q2⟩ := p1.emit (R := R) (args := args) (i := .vaarg V) h2 hb2
      (r := v) (st := g1.st) (va := vs) ⟨a1.trans hv, rfl⟩
    have n1 := (emit_reg h1).2
    have n2 := (emit_reg h2).2
    have n3 := (emit_reg h3).2
    obtain ⟨g3, s3, p3, t3, a3, _, r3, q3⟩ := p2.emit (R := R) (args := args) (i := .store (.reg c1.nextReg) (.reg c.nextReg)) h3 hb3
      (r := 0) (st := g2.st.store (M.alloc g.st.world 8).1 v) (va := g2.va)
      ⟨⟨v, _, r2, (q2 _ (by omega)).trans r1, rfl⟩, rfl, rfl⟩
    have p4 := p3.bind (p := p) (r := c.nextReg) (a := (M.alloc g.st.world 8).1) (by omega)
      (by rw [q3 _ (by omega), q2 _ (by omega)]; exact r1)
    have hl' : ps.length ≤ vs.length := by simpa using hl
    obtain ⟨g5, s5, p5, t5⟩ := vaParams_run ps (vs := vs) p4 h hb (a3.trans a2) hl'
    refine ⟨g5, steps_trans s1 (steps_trans s2 (steps_trans s3 s5)), ?_, ?_⟩
    · have : g3.st.world = (M.alloc g.st.world 8).2 := by rw [t3, t2, t1]; rfl
      rw [this] at p5
      exact p5
    · rw [t5, t3, t2, t1]; rfl

/-- all parameters -/
theorem paramCode_run : ∀ (ps : List Name) {c c' : CState} {g : Cfg M.World} {u : Unit}, Par c g (fun _ => none) →
    paramCode ps c = .ok u c' → Ext c'.blocks bs → ps.length ≤ args.length →
    ∃ g', IRSteps M R bs args g g' ∧ Par c' g' (bindParams ps (M.paramCells g.st.world ps.length).1 fun _ => none) ∧
      g'.st = ⟨storeArgs (M.paramCells g.st.world ps.length).1 args g.st.mem, (M.paramCells g.st.world ps.length).2⟩
  | [], c, c', g, u, hp, h, hb, hl => by
    simp only [paramCode] at h; simp at h; subst h
    refine ⟨g, .refl, hp, ?_⟩
    cases args <;> rfl
  | [p], c, c', g, u, hp, h, hb, hl => by
    simp only [paramCode] at h
    cases ha : args with
    | nil => rw [ha] at hl; simp at hl
    | cons v rest =>
      obtain ⟨g', s, q, t⟩ := firstParam_run (R := R) hp h hb ha
      rw [← ha]
      refine ⟨g', s, q, ?_⟩
      rw [t, ha]
      cases rest <;> rfl
  | p :: p' :: ps, c, c', g, u, hp, h, hb, hl => by
    simp only [paramCode] at h
    cases ha : args with
    | nil => rw [ha] at hl; simp at hl
    | cons v rest =>
      obind h u1 c1 h1
      obind h vaA c2 h2
      obind h vaP c3 h3
      obind h vs c4 h4
      obind h x5 c5 h5
      obind h u6 c6 h6
      obind h ve c7 h7
      obind h x8 c8 h8
      simp at h; subst h
      have k1 := KE.firstParam _ _ _ _ h1 hp.opn
      have k2 := KE.emit _ _ _ _ h2 k1.opn
      have k3 := KE.emit _ _ _ _ h3 k2.opn
      have k4 := KE.getOrCreateFunc _ _ _ _ h4 k3.opn
      have k5 := KE.emit _ _ _ _ h5 k4.opn
      have k6 := KE.vaParams _ _ _ _ _ h6 k5.opn
      have k7 := KE.getOrCreateFunc _ _ _ _ h7 k6.opn
      have k8 := KE.emit _ _ _ _ h8 k7.opn
      have b7 := k8.ext.trans hb
      have b6 := k7.ext.trans b7
      have b5 := k6.ext.trans b6
      have b4 := k5.ext.trans b5
      have b3 := k4.ext.trans b4
      have b2 := k3.ext.trans b3
      have b1 := k2.ext.trans b2
      obtain ⟨g1, s1, p1, t1⟩ := firstParam_run (R := R) hp h1 b1 ha
      obtain ⟨g2, s2, p2, t2, a2, rfl, r2, q2⟩ := p1.emit (R := R) (args := args) (i := .alloca (.bytes 48)) h2 b2
        (r := (M.alloc g1.st.world 48).1) (st := ⟨g1.st.mem, (M.alloc g1.st.world 48).2⟩) (va := g1.va) ⟨rfl, rfl, rfl⟩
      obtain ⟨g3, s3, p3, t3, a3, rfl, r3, q3⟩ := p2.emit (R := R) (args := args) (i := .gepField (.bytes 48) (.reg c1.nextReg) 0) h3 b3
        (r := (M.alloc g1.st.world 48).1 + BitVec.ofNat 64 (elemSize (.bytes 48) * 0)) (st := g2.st) (va := g2.va) ⟨⟨_, r2, rfl⟩, rfl, rfl⟩
      obtain ⟨p4, n4, b, k, rfl⟩ := p3.getFunc h4
      obtain ⟨g5, s5, p5, t5, a5, _, r5, q5⟩ := p4.emit (R := R) (args := args)
        (i := .call (.func "llvm.va_start".toList b k) [.reg c2.nextReg]) h5 b5
        (r := 0) (st := g3.st) (va := args.drop 1) ⟨rfl, rfl, rfl⟩
      have hv : g5.va = rest := by rw [a5, ha]; rfl
      have hl' : (p' :: ps).length ≤ rest.length := by rw [ha] at hl; simpa using hl
      obtain ⟨g6, s6, p6, t6⟩ := vaParams_run (R := R) (args := args) (p' :: ps) p5 h6 b6 hv hl'
      obtain ⟨p7, n7, b', k', rfl⟩ := p6.getFunc h7
      obtain ⟨g8, s8, p8, t8, _⟩ := p7.emit (R := R) (args := args)
        (i := .call (.func "llvm.va_end".toList b' k') [.reg c2.nextReg]) h8 hb
        (r := 0) (st := g6.st) (va := g6.va) ⟨rfl, rfl, rfl⟩
      have ew : g5.st = ⟨storeW g.st.mem (M.alloc g.st.world 8).1 v, (M.alloc (M.alloc g.st.world 8).2 48).2⟩ := by
        rw [t5, t3, t2, t1]
      rw [← ha]
      refine ⟨g8, steps_trans s1 (steps_trans s2 (steps_trans s3 (steps_trans s5 (steps_trans s6 s8)))), ?_, ?_⟩
      · have : g5.st.world = (M.alloc (M.alloc g.st.world 8).2 48).2 := by rw [ew]
        rw [this] at p8
        exact p8
      · rw [t8, t6, ew, ha]; rfl
end

/-! ### functions -/

theorem getOrCreateFunc_TR (n : Name) : Keeps TR (getOrCreateFunc n) := by
  intro c a c' h
  unfold getOrCreateFunc at h
  split at h <;> cases h <;> exact .of_eq rfl rfl rfl

theorem Env.after_locals (x : Ident) : ∀ (s : St) (E : Env), x ∈ (E.after s).locals ↔ x ∈ s.autos ∨ x ∈ E.locals := by
  intro s
  induction s with
  | seq s t ih1 ih2 => intro E; simp only [Env.after, ih2, ih1, St.autos, List.mem_append]; grind
  | ret e => intro E; cases e <;> simp [Env.after, St.autos, Env.afterEx]
  | auto ds => intro E; simp [Env.after, St.autos]
  | extrn xs =>
    intro E
    simp only [Env.after, St.autos, List.not_mem_nil, false_or]
    induction xs generalizing E with
    | nil => simp
    | cons y ys ih => rw [List.foldl_cons, ih]; simp [Env.afterExtrn]
  | ifElse c t e ih1 ih2 => intro E; simp only [Env.after, ih2, ih1, St.autos, List.mem_append, Env.afterEx]; grind
  | ifThen c t ih => intro E; simp [Env.after, ih, St.autos, Env.afterEx]
  | «while» c t ih => intro E; simp [Env.after, ih, St.autos, Env.afterEx]
  | switch c t ih => intro E; simp [Env.after, ih, St.autos, Env.afterEx]
  | case v t ih => intro E; simp [Env.after, ih, St.autos]
  | label v t ih => intro E; simp [Env.after, ih, St.autos]
  | _ => intro E; simp [Env.after, St.autos, Env.afterEx]

theorem Status.gr_closeTo {o : Bool} {c : CState} (h : Status o c) : Gr c (closeTo c) := by
  unfold closeTo
  split
  · rename_i hc
    cases o with
    | true => exact ⟨withTerm_ext h.open _, fun _ _ h => h, fun _ _ h => .inl h, fun _ _ h => h, Nat.le_refl _, Nat.le_refl _⟩
    | false => exact absurd hc h.curTerm
  · exact .refl c

/-- The code of a function up to its body. -/
theorem func_entry {M : IRMachine} {R : Calls M.World} {E : Env} {c : CState} {ss : List (List Nat)} {f : Name} {ps : List Name} {b : St}
    {bs : List Block} (r : FuncRun f ps b c bs) (hk : KnowsTop E c) (hI : ProgInv c ss) (hn : (Decl.func f ps b).All NameOk)
    (hreg : Regular ps b)
    {args : List Word} {σ : Store M.World} (hl : ps.length ≤ args.length) :
    ∃ (fin : CState) (cs cs' : Cases) (c0 c0' : CState) (g : Cfg M.World), fin.blocks = bs ∧
      G ((E.enter f ps).after b) fin b ⟨E.enter f ps, ss.length⟩ .stop none true cs c0 cs' c0' ∧
      IRSteps M R bs args (.start σ) g ∧
      Match args ((E.enter f ps).after b) fin (.entry M.toB ⟨E.enter f ps, ss.length⟩ ps b args σ) g := by
  obtain ⟨hf, hp, hb⟩ := hn
  have hent := knows_entered hk hf ps
  rw [← r.c1_eq] at hent
  have tr := ((tr_paramCode ps ⟨E.vars, f :: E.funs, [], []⟩) _ hent).2 _ _ r.entry
  rw [show (ps ++ ([] : List Name)) = ps by simp] at tr
  have ho0 : Open (entered (defFunc f ps) r.c1) := ⟨⟨"entry".toList, [], none⟩, rfl, rfl⟩
  have hs0 : Start (entered (defFunc f ps) r.c1) := ⟨⟨"entry".toList, [], none⟩, rfl, rfl, rfl⟩
  have p0 : Par (entered (defFunc f ps) r.c1) (Cfg.start σ : Cfg M.World) (fun _ => none) :=
    ⟨ho0, .start hs0 rfl rfl, fun x a h => (by cases h), fun x v h => (by simp [entered, lookup] at h), rfl⟩
  -- the state after the parameters, without looking at the code that follows
  obtain ⟨_, _, q0, _⟩ := paramCode_run (R := R) (args := args) ps p0 r.entry (.refl _) hl
  have tab0 : Tables (entered (defFunc f ps) r.c1) := by
    have e1 : (entered (defFunc f ps) r.c1).ctx = [] := by rw [r.c1_eq]; exact hI.ctx
    have e2 : (entered (defFunc f ps) r.c1).functions = insert f (defFunc f ps).val [] := by rw [r.c1_eq, ← hI.functions]; rfl
    refine ⟨by rw [e1]; intro x v h; simp [lookup] at h, ?_, by rw [e1]; intro x h; simp [lookup] at h⟩
    rw [e2]
    intro x v h
    simp only [lookup_insert] at h
    split at h
    · rename_i e; subst e; cases h; exact ⟨_, _, rfl⟩
    · simp [lookup] at h
  have tab2 : Tables r.c2 := paramCode_keeps TR.stable.toQStable (getOrCreateFunc_TR _) (getOrCreateFunc_TR _) ps hp _ _ _ r.entry tab0
  have str0 : StrInv (entered (defFunc f ps) r.c1) ss := by rw [r.c1_eq]; exact hI.str
  have str2 : StrInv r.c2 ss :=
    paramCode_keeps (P := fun _ => True) SR.stable (getOrCreateFunc_SR _) (getOrCreateFunc_SR _) ps (by simp) _ _ _ r.entry _ str0
  have pm : PM ⟨E.enter f ps, ss.length⟩ r.c2 := ⟨tr.2.1, tab2, ⟨ss, str2, rfl⟩, q0.loc⟩
  have lab : LabOk r.c2 := ⟨by rw [q0.lab]; intro l l' b h; simp [lookup] at h, by rw [q0.lab]; intro l b h; simp [lookup] at h⟩
  have pend : ∀ l, Pend l r.c2 := by intro l b h; rw [q0.lab] at h; simp [lookup] at h
  have st : Stat b none true r.c2 := ⟨hb, lab, hreg.labels, hreg.cases, fun h => (by cases h), fun l _ => pend l,
    fun _ _ h => (by cases h), fun _ _ _ => pend _, fun _ h => (by cases h), q0.opn.status, Option.isSome_iff_exists.1 hreg.exit⟩
  have post := genSt_static _ _ _ _ _ _ _ st r.body
  obtain ⟨o', ho'⟩ := Option.isSome_iff_exists.1 hreg.exit
  have gc := (post.st o' ho').gr_closeTo
  have ok : Ok ((E.enter f ps).after b) ⟨E.enter f ps, ss.length⟩ b := by
    refine ⟨.refl _, fun g hg => ?_, hreg.sizes⟩
    rw [Env.after_locals]
    obtain ⟨h1, h2⟩ := hreg.callees g hg
    exact fun h => h.elim h2 h1
  have GG : G ((E.enter f ps).after b) (closeTo r.c3) b ⟨E.enter f ps, ss.length⟩ .stop none true [] r.c2 r.cs r.c3 :=
    ⟨r.body, st, pm, ok, gc, .stop (.refl _)⟩
  have ebs : (closeTo r.c3).blocks = bs := (closeTo_blocks _).trans r.blocks.symm
  obtain ⟨g1, s1, q1, t1⟩ := paramCode_run (R := R) (args := args) ps p0 r.entry GG.grc.ext hl
  have hm : Match args ((E.enter f ps).after b) (closeTo r.c3)
      (.run ⟨E.enter f ps, ss.length⟩ b .stop (bindParams ps (M.paramCells σ.world ps.length).1 fun _ => none)
        ⟨storeArgs (M.paramCells σ.world ps.length).1 args σ.mem, (M.paramCells σ.world ps.length).2⟩) g1 := by
    refine ⟨t1, ?_, .inr (.inl ⟨r.c2, q1.arr, GG.ready⟩)⟩
    intro x a hx
    obtain ⟨j, j1, _, j3⟩ := q1.mr x a hx
    exact ⟨j, GG.grc.locals _ _ j1, j3⟩
  rw [ebs] at s1
  exact ⟨closeTo r.c3, [], r.cs, r.c2, r.c3, g1, ebs, GG, s1, hm⟩

/-- **Functions.** -/
theorem func_sim {M : IRMachine} {R : Calls M.World} {E : Env} {c : CState} {ss : List (List Nat)} {f : Name} {ps : List Name} {b : St}
    {bs : List Block} (r : FuncRun f ps b c bs) (hk : KnowsTop E c) (hI : ProgInv c ss) (hn : (Decl.func f ps b).All NameOk)
    (hreg : Regular ps b) (hd : ∀ x ∈ ((E.enter f ps).after b).vars, x ∉ ((E.enter f ps).after b).funs)
    {args : List Word} {σ σ' : Store M.World} {v : Word}
    (h : FunRun M.toB R ⟨E.enter f ps, ss.length⟩ ps b args σ v σ') : CodeRun M R bs args σ v σ' := by
  obtain ⟨hl, σ1, hs, rfl⟩ := h
  obtain ⟨fin, cs, cs', c0, c0', g1, ebs, GG, s1, hm⟩ := func_entry (R := R) r hk hI hn hreg (σ := σ) hl
  obtain ⟨g2, s2, m2⟩ := steps_sim hd GG hs hm
  rw [ebs] at s2
  obtain ⟨ret, e⟩ := m2
  rw [ebs] at ret
  exact ⟨g2, steps_trans s1 s2, ret, by rw [e]⟩

end Blang
