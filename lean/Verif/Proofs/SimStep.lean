import Verif.Proofs.SimMain
/-
One step of the meaning of a function body is some steps of its code.
-/
namespace Blang
open Spec

section
variable {M : IRMachine} {R : Calls M.World} {args : List Word} {Ei : Env} {fin : CState} {P : Place} {k : Cont} {ρ : Frame}
  {σ σ' : Store M.World} {g : Cfg M.World}

theorem Match.skip (h : Match args Ei fin (.run P .skip k ρ σ) g) :
    g.st = σ ∧ MR fin ρ g ∧ ∃ c, Open c ∧ At c g ∧ KM Ei fin k c := by
  obtain ⟨h1, h2, ⟨_, h3⟩ | ⟨c, h3, sw, cs, cs', c', hg⟩ | ⟨cn, b, c0, e, _⟩⟩ := h
  · exact ⟨h1, h2, h3⟩
  · refine ⟨h1, h2, c, hg.stat.st.open, h3, ?_⟩
    have e := hg.gen
    simp only [genSt] at e
    simp at e
    obtain ⟨_, rfl⟩ := e
    exact hg.km
  · cases e

theorem Match.mk_skip {c : CState} (h1 : g.st = σ) (h2 : MR fin ρ g) (h3 : Open c) (h4 : At c g) (h5 : KM Ei fin k c) :
    Match args Ei fin (.run P .skip k ρ σ) g := ⟨h1, h2, .inl ⟨rfl, c, h3, h4, h5⟩⟩

theorem Match.mk {s : St} {c : CState} (h1 : g.st = σ) (h2 : MR fin ρ g) (h3 : At c g) (h4 : Ready Ei fin s P k c) :
    Match args Ei fin (.run P s k ρ σ) g := ⟨h1, h2, .inr (.inl ⟨c, h3, h4⟩)⟩

theorem Match.ready {s : St} (h : Match args Ei fin (.run P s k ρ σ) g) (hs : s ≠ .skip) (hw : ∀ cn b, s ≠ .while cn b) :
    g.st = σ ∧ MR fin ρ g ∧ ∃ c sw cs cs' c', At c g ∧ Open c ∧ G Ei fin s P k sw true cs c cs' c' := by
  obtain ⟨h1, h2, ⟨e, _⟩ | ⟨c, h3, sw, cs, cs', c', hg⟩ | ⟨cn, b, c0, e, _⟩⟩ := h
  · exact absurd e hs
  · exact ⟨h1, h2, c, sw, cs, cs', c', h3, hg.stat.st.open, hg⟩
  · exact absurd e (hw cn b)

/-- at the test of a loop -/
theorem Match.while {cn : Ex} {b : St} (h : Match args Ei fin (.run P (.while cn b) k ρ σ) g) :
    ∃ g', IRSteps M R fin.blocks args g g' ∧ g'.st = σ ∧ MR fin ρ g' ∧ ∃ c0 sw cs cs' c', g'.blk = c0.blocks.length ∧ g'.pc = 0 ∧
      G Ei fin (.while cn b) P k sw true cs c0 cs' c' := by
  obtain ⟨h1, h2, ⟨e, _⟩ | ⟨c, h3, sw, cs, cs', c', hg⟩ | ⟨cn', b', c0, e, ⟨sw, cs, cs', c', hg⟩, h3, h4⟩⟩ := h
  · cases e
  · obtain ⟨_, v, c1, x3, c3, _, S, _, _, _, _, _, gH⟩ := hg.while
    refine ⟨g.jump c.blocks.length, steps_one ?_, h1, h2.regs rfl, c, sw, cs, cs', c', rfl, rfl, hg⟩
    refine term_step (At.add3 h3 ("while.".toList ++ natDec c.labelID ++ ".cond".toList)
      ("while.".toList ++ natDec c.labelID ++ ".body".toList) ("while.".toList ++ natDec c.labelID ++ ".end".toList)) (t := .br c.blocks.length) ?_ rfl
    exact gH.ext
  · exact ⟨g, .refl, h1, h2, c0, sw, cs, cs', c', h3, h4, hg⟩

theorem LocOk.add3 {c : CState} (h : LocOk c) (x y z : Name) : LocOk (add3 (bump c) x y z) := h

/-- jumping to a label -/
theorem enter_run {c c2 : CState} {l : Name} {b : Nat} (ho : Open c) (hat : At c g) (hg : Gr (brTo (withLabel l c) b) fin) (hs : Start c2)
    (hb : c2.cur = b) : ∃ g', IRSteps M R fin.blocks args g g' ∧ g'.st = g.st ∧ g'.regs = g.regs ∧ At c2 g' := by
  rw [brTo_open (withLabel_status l ho.status).open] at hg
  exact ⟨g.jump b, steps_one (term_step (hat.withLabel l) hg.ext rfl), rfl, rfl, .start hs hb.symm rfl⟩

theorem find_case {id : Nat} {v : Word} {d : Nat} : ∀ (vs : List Word) (f : Word → Nat), v ∈ vs →
    (((vs.map fun w => (w, f w)).find? fun p => p.1 = v).map (·.2)).getD d = f v
  | w :: vs, f, h => by
    by_cases e : w = v
    · subst e; simp
    · rw [List.map_cons, List.find?_cons_of_neg (by simpa using e)]
      exact find_case (id := id) vs f ((List.mem_cons.1 h).resolve_left fun e' => e e'.symm)

theorem find_nocase {v : Word} {d : Nat} (vs : List Word) (f : Word → Nat) (h : v ∉ vs) :
    (((vs.map fun w => (w, f w)).find? fun p => p.1 = v).map (·.2)).getD d = d := by
  have : ((vs.map fun w => (w, f w)).find? fun p => p.1 = v) = none := by
    rw [List.find?_eq_none]
    intro p hp
    obtain ⟨w, hw, rfl⟩ := List.mem_map.1 hp
    simp only [decide_eq_true_eq]
    rintro rfl; exact h hw
  rw [this]; rfl

theorem switchT_goes {id : Nat} {x : Val} {d : Nat} {vs : Cases} {c : CState} {v : Word} (hx : valSem M args g.regs x = some v) :
    Term.Goes M args g (if v ∈ vs then labelBlock (caseName id v) c else d) (switchT id x d vs c) := by
  unfold switchT
  by_cases e : vs = []
  · subst e; simp [Term.Goes]
  · rw [if_neg e]
    refine ⟨v, hx, ?_⟩
    by_cases hv : v ∈ vs
    · rw [if_pos hv, find_case (id := id) vs (fun w => labelBlock (caseName id w) c) hv]
    · rw [if_neg hv, find_nocase vs (fun w => labelBlock (caseName id w) c) hv]

/-- the condition of an `if` -/
theorem if_test {cn : Ex} {t e : St} {sw : Option Nat} {cs cs' : Cases} {c c' : CState} {w : Word}
    (hd : ∀ x ∈ Ei.vars, x ∉ Ei.funs) (hg : G Ei fin (.ifElse cn t e) P k sw true cs c cs' c') (hat : At c g) (hm : MR fin ρ g)
    (hv : cn.Value M.toB R P ρ g.st w σ') :
    ∃ g', IRSteps M R fin.blocks args g g' ∧ g'.st = σ' ∧ MR fin ρ g' ∧
      if w ≠ 0 then ∃ c2, At c2 g' ∧ Ready Ei fin t (P.afterEx cn) k c2
      else ∃ c2, At c2 g' ∧ Ready Ei fin e ((P.afterEx cn).after t) k c2 := by
  obtain ⟨_, v, c1, x3, c3, x5, c5, h1, S, gT, gE, hcur, pm1, g1, gF⟩ := hg.if
  obtain ⟨ga, r1, s1, v1, m1⟩ := value_run (R := R) (args := args) hd hg.pm hg.ok.start S.opn hat hm hg.stat.names.1
    (fun f hf => hg.ok.callees f (by simp [St.callees, hf])) h1 g1 hv
  have hata := r1.arr.add3 ("if.".toList ++ natDec c1.labelID ++ ".then".toList)
    ("if.".toList ++ natDec c1.labelID ++ ".else".toList) ("if.".toList ++ natDec c1.labelID ++ ".end".toList)
  have oa : Open (add3 (bump c1) ("if.".toList ++ natDec c1.labelID ++ ".then".toList)
    ("if.".toList ++ natDec c1.labelID ++ ".else".toList) ("if.".toList ++ natDec c1.labelID ++ ".end".toList)) :=
    Open.add3 (c := bump c1) S.opn1 _ _ _
  obtain ⟨gb, q1, q2, q3, q4, q5⟩ := test_run (R := R) (args := args) (fin := fin) (w := w) oa hata v1 gF m1 (pm1.loc.add3 _ _ _)
  refine ⟨gb, steps_trans r1.steps q1, q2.trans s1, q3, ?_⟩
  by_cases hw : w = 0
  · rw [if_neg (fun h => h hw)] at q4 ⊢
    exact ⟨_, .start S.startE q4 q5, gE.ready⟩
  · rw [if_pos hw] at q4 ⊢
    exact ⟨_, .start S.startT q4 q5, gT.ready⟩

/-- the test of a loop -/
theorem while_test {cn : Ex} {b : St} {sw : Option Nat} {cs cs' : Cases} {c c' : CState} {w : Word}
    (hd : ∀ x ∈ Ei.vars, x ∉ Ei.funs) (hg : G Ei fin (.while cn b) P k sw true cs c cs' c') (h1 : g.blk = c.blocks.length) (h2 : g.pc = 0)
    (hm : MR fin ρ g) (hv : cn.Value M.toB R P ρ g.st w σ') :
    ∃ g', IRSteps M R fin.blocks args g g' ∧ g'.st = σ' ∧ MR fin ρ g' ∧
      if w ≠ 0 then ∃ c2, At c2 g' ∧ Ready Ei fin b (P.afterEx cn) (.loop P cn b k) c2
      else ∃ c2, At c2 g' ∧ Open c2 ∧ KM Ei fin k c2 := by
  obtain ⟨_, v, c1, x3, c3, h3, S, gB, hcur, pmH, g1, gT, gH⟩ := hg.while
  obtain ⟨ga, r1, s1, v1, m1⟩ := value_run (R := R) (args := args) hd pmH hg.ok.start S.startH.open (.start S.startH h1 h2) hm hg.stat.names.1
    (fun f hf => hg.ok.callees f (by simp [St.callees, hf])) h3 g1 hv
  have pm1 := pmH.expr hg.stat.names.1 h3
  obtain ⟨gb, q1, q2, q3, q4, q5⟩ := test_run (R := R) (args := args) (fin := fin) (w := w) S.opn1 r1.arr v1 gT m1 pm1.loc
  refine ⟨gb, steps_trans r1.steps q1, q2.trans s1, q3, ?_⟩
  by_cases hw : w = 0
  · rw [if_neg (fun h => h hw)] at q4 ⊢
    exact ⟨_, .start S.start' (q4.trans hcur.symm) q5, S.start'.open, hg.km⟩
  · rw [if_pos hw] at q4 ⊢
    exact ⟨_, .start S.startB q4 q5, gB.ready⟩

/-- the jump of a `switch` -/
theorem switch_test {e : Ex} {b : St} {sw : Option Nat} {cs cs' : Cases} {c c' : CState} {w : Word}
    (hd : ∀ x ∈ Ei.vars, x ∉ Ei.funs) (hg : G Ei fin (.switch e b) P k sw true cs c cs' c') (hat : At c g)
    (hm : MR fin ρ g) (hv : e.Value M.toB R P ρ g.st w σ') :
    ∃ g', IRSteps M R fin.blocks args g g' ∧ g'.st = σ' ∧ MR fin ρ g' ∧
      match findCase w b (P.afterEx e) k with
      | some (Q, s, k') => ∃ c2, At c2 g' ∧ Ready Ei fin s Q k' c2
      | none => ∃ c2, At c2 g' ∧ Open c2 ∧ KM Ei fin k c2 := by
  obtain ⟨_, v, c1, vs, c3, c4, h1, S, gB, rfl, g1, gH, g4⟩ := hg.switch
  have hatb : At (bump c) g := hat
  have ob : Open (bump c) := S.opn
  obtain ⟨ga, r1, s1, v1, m1⟩ := value_run (R := R) (args := args) hd (hg.pm.same (.bump c)) hg.ok.start ob hatb hm hg.stat.names.1
    (fun f hf => hg.ok.callees f (by simp [St.callees, hf])) h1 g1 hv
  have j1 : IRStep M R fin.blocks args ga (ga.jump (c1.blocks.length + 1)) := by
    refine term_step (c := add3 c1 ("switch.".toList ++ natDec c.labelID ++ ".stmts".toList)
      ("switch.".toList ++ natDec c.labelID ++ ".cmp".toList) ("switch.".toList ++ natDec c.labelID ++ ".end".toList))
      (t := .br (c1.blocks.length + 1)) ?_ ?_ rfl
    · obtain ⟨a1, bl, a2, a3⟩ := r1.arr
      refine ⟨a1, bl, ?_, a3⟩
      show (c1.blocks ++ _)[c1.cur]? = _
      rw [List.getElem?_append_left S.opn1.lt, a2]
    · exact gH.ext
  have atC : At (goto' (brTo c3 (c1.blocks.length + 2)) (c1.blocks.length + 1)) (ga.jump (c1.blocks.length + 1)) :=
    .start S.startC rfl rfl
  have ext4 : Ext (withTerm (goto' (brTo c3 (c1.blocks.length + 2)) (c1.blocks.length + 1))
    (switchT c.labelID v (c1.blocks.length + 2) b.cases (goto' (brTo c3 (c1.blocks.length + 2)) (c1.blocks.length + 1)))).blocks fin.blocks := by
    rw [← S.eq4]; exact g4.ext
  have j2 := term_step (R := R) (args := args) atC ext4 (switchT_goes (args := args) (g := ga.jump (c1.blocks.length + 1)) (v := w) v1.now)
  have steps := steps_trans r1.steps (.head j1 (steps_one j2))
  cases hf : findCase w b (P.afterEx e) k with
  | none =>
    rw [if_neg (findCase_none _ _ _ hf)] at steps
    exact ⟨_, steps, s1, m1.regs rfl, _, .start S.start' rfl rfl, S.start'.open, hg.km⟩
  | some x =>
    obtain ⟨Q, s, k'⟩ := x
    obtain ⟨hv, c2, hr, hs, hl⟩ := findCase_ready _ _ _ _ _ _ _ _ gB hf
    rw [if_pos hv] at steps
    refine ⟨_, steps, s1, m1.regs rfl, c2, .start hs ?_ rfl, hr⟩
    show labelBlock (caseName c.labelID w) (goto' (brTo c3 (c1.blocks.length + 2)) (c1.blocks.length + 1)) = c2.cur
    unfold labelBlock
    show (lookup _ (brTo c3 _).labels).getD _ = _
    rw [brTo_labels]
    have hlk := S.look w hv
    cases hlo : lookup (caseName c.labelID w) c3.labels with
    | none => rw [hlo] at hlk; cases hlk
    | some b' =>
      rw [gB.gr.labels _ _ hlo] at hl
      cases hl; rfl

/-- **One step** -/
theorem step_sim (hd : ∀ x ∈ Ei.vars, x ∉ Ei.funs) {P0 : Place} {body : St} {cs0 cs0' : Cases} {c0 c0' : CState}
    (hbody : G Ei fin body P0 .stop none true cs0 c0 cs0' c0') {x y : BState M.toB.World}
    (h : BStep M.toB R P0 body x y) (hm : Match args Ei fin x g) : ∃ g', IRSteps M R fin.blocks args g g' ∧ Match args Ei fin y g' := by
  cases h with
  | endFun =>
    obtain ⟨rfl, m, c, ho, hat, km⟩ := hm.skip
    obtain ⟨g', q1, q2, _, q4⟩ := km.finish (R := R) (args := args) ho hat
    exact ⟨g', q1, q4, q2⟩
  | endSeq =>
    obtain ⟨rfl, m, c, ho, hat, km⟩ := hm.skip
    obtain ⟨g', q1, q2, q3, c1, q4, q5⟩ := km.finish (R := R) (args := args) ho hat
    exact ⟨g', q1, .mk q2 (m.regs q3) q4 q5⟩
  | endLoop =>
    obtain ⟨rfl, m, c, ho, hat, km⟩ := hm.skip
    obtain ⟨g', q1, q2, q3, c1, q4, q5, q6⟩ := km.finish (R := R) (args := args) ho hat
    exact ⟨g', q1, q2, m.regs q3, .inr (.inr ⟨_, _, c1, rfl, q4, q5, q6⟩)⟩
  | seq =>
    obtain ⟨rfl, m, c, sw, cs, cs', c', hat, ho, hg⟩ := hm.ready (by simp) (by simp)
    obtain ⟨o1, cs1, c1, g1, _⟩ := hg.seq
    exact ⟨g, .refl, .mk rfl m hat g1.ready⟩
  | expr hv =>
    obtain ⟨rfl, m, c, sw, cs, cs', c', hat, ho, hg⟩ := hm.ready (by simp) (by simp)
    have hgen := hg.gen
    simp only [genSt] at hgen
    obind hgen v c1 h1
    simp at hgen; obtain ⟨rfl, rfl⟩ := hgen
    obtain ⟨ga, r1, s1, v1, m1⟩ := value_run (R := R) (args := args) hd hg.pm hg.ok.start ho hat m hg.stat.names hg.ok.callees h1 hg.gr hv
    exact ⟨ga, r1.steps, .mk_skip s1 m1 (KE.genR _ _ _ _ h1 ho).opn r1.arr hg.km⟩
  | ret0 =>
    obtain ⟨rfl, m, c, sw, cs, cs', c', hat, ho, hg⟩ := hm.ready (by simp) (by simp)
    have hgen := hg.gen
    simp only [genSt] at hgen
    rw [Blang.M.bind_ok (setTerm_eq _ _)] at hgen
    simp at hgen; obtain ⟨rfl, rfl⟩ := hgen
    obtain ⟨b, h1, h2, h3⟩ := term_block hat hg.gr.ext
    exact ⟨g, .refl, ⟨b, _, h1, h2, h3, rfl⟩, rfl⟩
  | ret hv =>
    obtain ⟨rfl, m, c, sw, cs, cs', c', hat, ho, hg⟩ := hm.ready (by simp) (by simp)
    have hgen := hg.gen
    simp only [genSt] at hgen
    obind hgen v c1 h1
    rw [Blang.M.bind_ok (setTerm_eq _ _)] at hgen
    simp at hgen; obtain ⟨rfl, rfl⟩ := hgen
    have o1 := (KE.genR _ _ _ _ h1 ho).opn
    have g1 : Gr c1 fin := ⟨(withTerm_ext o1 _).trans hg.gr.ext, hg.gr.locals, hg.gr.new, hg.gr.labels, hg.gr.reg, hg.gr.id⟩
    obtain ⟨ga, r1, s1, v1, m1⟩ := value_run (R := R) (args := args) hd hg.pm hg.ok.start ho hat m hg.stat.names hg.ok.callees h1 g1 hv
    obtain ⟨b, h1, h2, h3⟩ := term_block r1.arr hg.gr.ext
    exact ⟨ga, r1.steps, ⟨b, _, h1, h2, h3, v1.now⟩, s1⟩
  | @auto _ ds =>
    obtain ⟨rfl, m, c, sw, cs, cs', c', hat, ho, hg⟩ := hm.ready (by simp) (by simp)
    have hgen := hg.gen
    simp only [genSt] at hgen
    obind hgen u c1 h1
    obind hgen u2 c2 h2
    simp at hgen; obtain ⟨rfl, rfl⟩ := hgen
    obtain ⟨rfl, a1, a2⟩ := autoCheck_ok _ _ h1
    obtain ⟨_, o1⟩ := declareAll_SI (D := fun _ => False) ds h2 ho hg.stat.lab (fun d hd => (a1 d hd).2) a2
    obtain ⟨g', q1, q2, q3, q4⟩ := declareAll_run (R := R) (args := args) ds h2
      (fun d hd e => hg.ok.sizes _ (List.mem_filterMap.2 ⟨d, hd, e⟩) rfl) ho hg.stat.lab hat m hg.pm.loc (fun d hd => (a1 d hd).2) a2 hg.gr
    exact ⟨g', q1, .mk_skip q4 q3 o1 q2 hg.km⟩
  | extrn =>
    obtain ⟨rfl, m, c, sw, cs, cs', c', hat, ho, hg⟩ := hm.ready (by simp) (by simp)
    have hgen := hg.gen
    simp only [genSt] at hgen
    obind hgen u c1 h1
    simp at hgen; obtain ⟨rfl, rfl⟩ := hgen
    obtain ⟨a1, a2, a3, a4, a5, a6⟩ := genExtrn_code _ h1
    have ho' : Open c1 := by unfold Open; rw [a1, a2]; exact ho
    have hat' : At c1 g := by unfold At; rw [a1, a2]; exact hat
    exact ⟨g, .refl, .mk_skip rfl m ho' hat' hg.km⟩
  | ifTrue hv hw =>
    obtain ⟨rfl, m, c, sw, cs, cs', c', hat, ho, hg⟩ := hm.ready (by simp) (by simp)
    obtain ⟨g', q1, q2, q3, q4⟩ := if_test (R := R) (args := args) hd hg.ifThen hat m hv
    rw [if_pos hw] at q4
    obtain ⟨c2, q4, q5⟩ := q4
    exact ⟨g', q1, .mk q2 q3 q4 q5⟩
  | ifFalse hv hw =>
    obtain ⟨rfl, m, c, sw, cs, cs', c', hat, ho, hg⟩ := hm.ready (by simp) (by simp)
    obtain ⟨g', q1, q2, q3, q4⟩ := if_test (R := R) (args := args) hd hg.ifThen hat m hv
    rw [if_neg (fun h => h hw)] at q4
    obtain ⟨c2, q4, q5⟩ := q4
    have hmm : Match args Ei fin (.run _ .skip _ _ _) g' := .mk q2 q3 q4 q5
    obtain ⟨e1, e2, c4, e3, e4, e5⟩ := hmm.skip
    exact ⟨g', q1, .mk_skip e1 e2 e3 e4 e5⟩
  | elseTrue hv hw =>
    obtain ⟨rfl, m, c, sw, cs, cs', c', hat, ho, hg⟩ := hm.ready (by simp) (by simp)
    obtain ⟨g', q1, q2, q3, q4⟩ := if_test (R := R) (args := args) hd hg hat m hv
    rw [if_pos hw] at q4
    obtain ⟨c2, q4, q5⟩ := q4
    exact ⟨g', q1, .mk q2 q3 q4 q5⟩
  | elseFalse hv hw =>
    obtain ⟨rfl, m, c, sw, cs, cs', c', hat, ho, hg⟩ := hm.ready (by simp) (by simp)
    obtain ⟨g', q1, q2, q3, q4⟩ := if_test (R := R) (args := args) hd hg hat m hv
    rw [if_neg (fun h => h hw)] at q4
    obtain ⟨c2, q4, q5⟩ := q4
    exact ⟨g', q1, .mk q2 q3 q4 q5⟩
  | whileTrue hv hw =>
    obtain ⟨g0, p1, rfl, p3, c, sw, cs, cs', c', p4, p5, hg⟩ := hm.while (R := R)
    obtain ⟨g', q1, q2, q3, q4⟩ := while_test (R := R) (args := args) hd hg p4 p5 p3 hv
    rw [if_pos hw] at q4
    obtain ⟨c2, q4, q5⟩ := q4
    exact ⟨g', steps_trans p1 q1, .mk q2 q3 q4 q5⟩
  | whileFalse hv hw =>
    obtain ⟨g0, p1, rfl, p3, c, sw, cs, cs', c', p4, p5, hg⟩ := hm.while (R := R)
    obtain ⟨g', q1, q2, q3, q4⟩ := while_test (R := R) (args := args) hd hg p4 p5 p3 hv
    rw [if_neg (fun h => h hw)] at q4
    obtain ⟨c2, q4, q5, q6⟩ := q4
    exact ⟨g', steps_trans p1 q1, .mk_skip q2 q3 q5 q4 q6⟩
  | switchCase hv hf =>
    obtain ⟨rfl, m, c, sw, cs, cs', c', hat, ho, hg⟩ := hm.ready (by simp) (by simp)
    obtain ⟨g', q1, q2, q3, q4⟩ := switch_test (R := R) (args := args) hd hg hat m hv
    rw [hf] at q4
    obtain ⟨c2, q4, q5⟩ := q4
    exact ⟨g', q1, .mk q2 q3 q4 q5⟩
  | switchNone hv hf =>
    obtain ⟨rfl, m, c, sw, cs, cs', c', hat, ho, hg⟩ := hm.ready (by simp) (by simp)
    obtain ⟨g', q1, q2, q3, q4⟩ := switch_test (R := R) (args := args) hd hg hat m hv
    rw [hf] at q4
    obtain ⟨c2, q4, q5, q6⟩ := q4
    exact ⟨g', q1, .mk_skip q2 q3 q5 q4 q6⟩
  | case =>
    obtain ⟨rfl, m, c, sw, cs, cs', c', hat, ho, hg⟩ := hm.ready (by simp) (by simp)
    obtain ⟨c2, b, id, e', e, g1, st, hl, gr, _⟩ := hg.case
    obtain ⟨g', q1, q2, q3, q4⟩ := enter_run (R := R) (args := args) ho hat gr st (by rw [e]; rfl)
    exact ⟨g', q1, .mk q2 (m.regs q3) q4 g1.ready⟩
  | label =>
    obtain ⟨rfl, m, c, sw, cs, cs', c', hat, ho, hg⟩ := hm.ready (by simp) (by simp)
    obtain ⟨c2, b, e, g1, st, hl, gr, _⟩ := hg.label
    obtain ⟨g', q1, q2, q3, q4⟩ := enter_run (R := R) (args := args) ho hat gr st (by rw [e]; rfl)
    exact ⟨g', q1, .mk q2 (m.regs q3) q4 g1.ready⟩
  | @goto _ l _ _ _ _ _ _ hf =>
    obtain ⟨rfl, m, c, sw, cs, cs', c', hat, ho, hg⟩ := hm.ready (by simp) (by simp)
    obtain ⟨c1, hr, hs, hl⟩ := findLabel_ready _ _ _ _ _ _ _ _ _ hbody hf
    obtain ⟨_, _, hext⟩ := goto_SI (D := fun _ => False) ho hg.stat.lab hg.gen
    obtain ⟨rfl, rfl⟩ := goto_run hg.gen
    have hl' := hg.gr.labels l (labelBlock l c) (withLabel_lookup l c)
    rw [hl] at hl'
    have e : c1.cur = labelBlock l c := Option.some.inj hl'
    refine ⟨g.jump (labelBlock l c), steps_one (term_step (hat.withLabel l) (hext.trans hg.gr.ext) rfl),
      .mk rfl (m.regs rfl) (.start hs e.symm rfl) hr⟩

/-- any number of steps -/
theorem steps_sim (hd : ∀ x ∈ Ei.vars, x ∉ Ei.funs) {P0 : Place} {body : St} {cs0 cs0' : Cases} {c0 c0' : CState}
    (hbody : G Ei fin body P0 .stop none true cs0 c0 cs0' c0') {x y : BState M.toB.World}
    (h : BSteps M.toB R P0 body x y) (hm : Match args Ei fin x g) : ∃ g', IRSteps M R fin.blocks args g g' ∧ Match args Ei fin y g' := by
  induction h generalizing g with
  | refl => exact ⟨g, .refl, hm⟩
  | head h1 _ ih =>
    obtain ⟨g1, q1, q2⟩ := step_sim hd hbody h1 hm
    obtain ⟨g2, p1, p2⟩ := ih q2
    exact ⟨g2, steps_trans q1 p1, p2⟩
end
end Blang
