import Verif.Proofs.Det
import Verif.Proofs.Enters
/-
The emitted code makes the calls that the program makes, and does not end when the program does not.
-/
namespace Blang
open Spec

section
variable {M : IRMachine} {R : Calls M.World} {args : List Word} {Ei : Env} {fin : CState} {P : Place} {k : Cont} {ρ : Frame}
  {σ σ' : Store M.World} {g : Cfg M.World}

/-- calls made by the evaluation of an expression -/
theorem value_enters {c c1 : CState} {e : Ex} {v : Val} {a : Word} {ws : List Word} {st : Store M.World}
    (hd : ∀ x ∈ Ei.vars, x ∉ Ei.funs) (h : PM P c) (hle : Env.Le P.env Ei) (ho : Open c) (hat : At c g) (hm : MR fin ρ g)
    (hn : e.All NameOk) (hcal : ∀ f ∈ e.callees, f ∉ Ei.locals) (hg : genR e c = .ok v c1) (hfin : Gr c1 fin)
    (hv : e.Enters M.toB R P.env ρ P.lits g.st a ws st) : GetsTo R fin.blocks args g a ws st := by
  have k := KE.genR e _ _ _ hg ho
  have er := ER.stable.genR e hn _ _ _ hg
  have ctx : ECtx P.env ρ P.lits c g := h.ectx hd hle ho hat hm ((Gr.of_expr k er).trans hfin)
  unfold genR at hg
  obind hg lv c0 h0
  have k0 := KE.genL e _ _ _ h0 ho
  exact genL_enters (R := R) (bs := fin.blocks) (args := args) e hn (fun f hf hl => hcal f hf (hle.locals f hl)) _ _ _ _ _ _ _ _ ctx h0
    ((KE.rval _ _ _ _ hg k0.opn).ext.trans hfin.ext) hv

/-- calls made in a state -/
theorem state_enters (hd : ∀ x ∈ Ei.vars, x ∉ Ei.funs) {x : BState M.toB.World} {a : Word} {ws : List Word} {st : Store M.World}
    (h : x.Enters M.toB R a ws st) (hm : Match args Ei fin x g) : GetsTo R fin.blocks args g a ws st := by
  obtain ⟨P, s, k, ρ, σ, e, rfl, hs, he⟩ := h
  cases s with
  | expr e1 =>
    cases hs
    obtain ⟨rfl, m, c, sw, cs, cs', c', hat, ho, hg⟩ := hm.ready (by simp) (by simp)
    have hgen := hg.gen
    simp only [genSt] at hgen
    obind hgen v c1 h1
    simp at hgen; obtain ⟨rfl, rfl⟩ := hgen
    exact value_enters hd hg.pm hg.ok.start ho hat m hg.stat.names hg.ok.callees h1 hg.gr he
  | ret e1 =>
    simp only [St.first] at hs
    subst hs
    obtain ⟨rfl, m, c, sw, cs, cs', c', hat, ho, hg⟩ := hm.ready (by simp) (by simp)
    have hgen := hg.gen
    simp only [genSt] at hgen
    obind hgen v c1 h1
    rw [Blang.M.bind_ok (setTerm_eq _ _)] at hgen
    simp at hgen; obtain ⟨rfl, rfl⟩ := hgen
    have o1 := (KE.genR _ _ _ _ h1 ho).opn
    have g1 : Gr c1 fin := ⟨(withTerm_ext o1 _).trans hg.gr.ext, hg.gr.locals, hg.gr.new, hg.gr.labels, hg.gr.reg, hg.gr.id⟩
    exact value_enters hd hg.pm hg.ok.start ho hat m hg.stat.names hg.ok.callees h1 g1 he
  | ifThen cn t =>
    cases hs
    obtain ⟨rfl, m, c, sw, cs, cs', c', hat, ho, hg⟩ := hm.ready (by simp) (by simp)
    obtain ⟨_, v, c1, x3, c3, x5, c5, h1, S, gT, gE, hcur, pm1, g1, gF⟩ := hg.ifThen.if
    exact value_enters hd hg.pm hg.ok.start S.opn hat m hg.stat.names.1
      (fun f hf => hg.ok.callees f (by simp [St.callees, hf])) h1 g1 he
  | ifElse cn t e =>
    cases hs
    obtain ⟨rfl, m, c, sw, cs, cs', c', hat, ho, hg⟩ := hm.ready (by simp) (by simp)
    obtain ⟨_, v, c1, x3, c3, x5, c5, h1, S, gT, gE, hcur, pm1, g1, gF⟩ := hg.if
    exact value_enters hd hg.pm hg.ok.start S.opn hat m hg.stat.names.1
      (fun f hf => hg.ok.callees f (by simp [St.callees, hf])) h1 g1 he
  | «while» cn b =>
    cases hs
    obtain ⟨g0, p1, rfl, p3, c, sw, cs, cs', c', p4, p5, hg⟩ := hm.while (R := R)
    obtain ⟨_, v, c1, x3, c3, h3, S, gB, hcur, pmH, g1, gT, gH⟩ := hg.while
    exact .after p1 (value_enters hd pmH hg.ok.start S.startH.open (.start S.startH p4 p5) p3 hg.stat.names.1
      (fun f hf => hg.ok.callees f (by simp [St.callees, hf])) h3 g1 he)
  | switch e1 b =>
    cases hs
    obtain ⟨rfl, m, c, sw, cs, cs', c', hat, ho, hg⟩ := hm.ready (by simp) (by simp)
    obtain ⟨_, v, c1, vs, c3, c4, h1, S, gB, rfl, g1, gH, g4⟩ := hg.switch
    have hatb : At (bump c) g := hat
    have ob : Open (bump c) := S.opn
    exact value_enters hd (hg.pm.same (.bump c)) hg.ok.start ob hatb m hg.stat.names.1
      (fun f hf => hg.ok.callees f (by simp [St.callees, hf])) h1 g1 he
  | _ => cases hs

/-! ### steps of the program that are no steps of the code -/

/-- weight of a statement -/
def _root_.Blang.Spec.St.weight : St → Nat
  | .skip => 1
  | .seq s t => 1 + s.weight + t.weight
  | .ifThen _ t => 2 + t.weight
  | .ifElse _ t e => 2 + t.weight + e.weight
  | .while _ b => 2 + b.weight
  | .switch _ b => 2 + b.weight
  | .case _ s => 1 + s.weight
  | .label _ s => 1 + s.weight
  | _ => 2

/-- weight of what remains -/
def _root_.Blang.Spec.Cont.weight : Cont → Nat
  | .stop => 0
  | .seq _ t k => t.weight + k.weight
  | .loop _ _ _ k => k.weight

/-- weight of a state -/
def _root_.Blang.Spec.BState.weight {World : Type} : BState World → Nat
  | .run _ s k _ _ => s.weight + k.weight
  | .done _ _ => 0

theorem St.weight_pos (s : St) : 1 ≤ s.weight := by cases s <;> simp only [St.weight] <;> omega

theorem findCase_weight {v : Word} {Q : Place} {t : St} {k' : Cont} : ∀ (s : St) (P : Place) (k : Cont),
    findCase v s P k = some (Q, t, k') → t.weight + k'.weight ≤ s.weight + k.weight := by
  intro s
  induction s with
  | seq s t ih1 ih2 =>
    intro P k h
    simp only [findCase] at h
    cases h1 : findCase v s P (.seq (P.after s) t k) with
    | some x =>
      rw [h1] at h; cases h
      have := ih1 _ _ h1
      simp only [St.weight, Cont.weight] at this ⊢
      omega
    | none =>
      rw [h1] at h
      have := ih2 _ _ h
      simp only [St.weight] at this ⊢
      omega
  | case w s ih =>
    intro P k h
    simp only [findCase] at h
    split at h
    · cases h; simp only [St.weight]; omega
    · have := ih _ _ h; simp only [St.weight]; omega
  | label m s ih =>
    intro P k h
    simp only [findCase] at h
    have := ih _ _ h; simp only [St.weight]; omega
  | _ => intro P k h; simp [findCase] at h

variable (R args) in
/-- at least one step -/
def Plus (bs : List Block) (g g' : Cfg M.World) : Prop := ∃ g1, IRStep M R bs args g g1 ∧ IRSteps M R bs args g1 g'

/-- the end of the body of a loop -/
theorem KM.finish_loop {Q : Place} {cn : Ex} {b : St} {k k' : Cont} {c : CState} (h : KM Ei fin k c) (hk : k = .loop Q cn b k')
    (ho : Open c) (hat : At c g) :
    ∃ g', Plus R args fin.blocks g g' ∧ g'.st = g.st ∧ g'.regs = g.regs ∧ Finished args Ei fin g' k := by
  cases h with
  | stop => cases hk
  | seq => cases hk
  | @jump _ b _ c2 hg hs hc km =>
    rw [brTo_open ho] at hg
    obtain ⟨g', q1, q2, q3, q4⟩ := km.finish (R := R) (args := args) (g := g.jump b) hs.open (.start hs hc.symm rfl)
    exact ⟨g', ⟨_, term_step hat hg.ext rfl, q1⟩, q2, q3, q4⟩
  | @loop Q cn b k sw o cs cs' _ c0 c' hg hgen hs hp hok hgr km =>
    rw [brTo_open ho] at hg
    have G0 : G Ei fin (.while cn b) Q k sw o cs c0 cs' c' := ⟨hgen, hs, hp, hok, hgr, km⟩
    obtain ⟨rfl, _⟩ := G0.while
    exact ⟨g.jump c0.blocks.length, ⟨_, term_step hat hg.ext rfl, .refl⟩, rfl, rfl, c0, G0.ready, rfl, rfl⟩

/-- **One step**: the code makes a step, or the weight decreases. -/
theorem step_sim_weight (hd : ∀ x ∈ Ei.vars, x ∉ Ei.funs) {P0 : Place} {body : St} {cs0 cs0' : Cases} {c0 c0' : CState}
    (hbody : G Ei fin body P0 .stop none true cs0 c0 cs0' c0') {x y : BState M.toB.World}
    (h : BStep M.toB R P0 body x y) (hm : Match args Ei fin x g) :
    ∃ g', Match args Ei fin y g' ∧ (Plus R args fin.blocks g g' ∨ IRSteps M R fin.blocks args g g' ∧ y.weight < x.weight) := by
  have usual : y.weight < x.weight →
      ∃ g', Match args Ei fin y g' ∧ (Plus R args fin.blocks g g' ∨ IRSteps M R fin.blocks args g g' ∧ y.weight < x.weight) := by
    intro hw
    obtain ⟨g', q1, q2⟩ := step_sim hd hbody h hm
    exact ⟨g', q2, .inr ⟨q1, hw⟩⟩
  cases h with
  | endLoop =>
    obtain ⟨rfl, m, c, ho, hat, km⟩ := hm.skip
    obtain ⟨g', q1, q2, q3, c1, q4, q5, q6⟩ := km.finish_loop (R := R) (args := args) rfl ho hat
    exact ⟨g', ⟨q2, m.regs q3, .inr (.inr ⟨_, _, c1, rfl, q4, q5, q6⟩)⟩, .inl q1⟩
  | @goto _ l _ _ _ _ _ _ hf =>
    obtain ⟨rfl, m, c, sw, cs, cs', c', hat, ho, hg⟩ := hm.ready (by simp) (by simp)
    obtain ⟨c1, hr, hs, hl⟩ := findLabel_ready _ _ _ _ _ _ _ _ _ hbody hf
    obtain ⟨_, _, hext⟩ := goto_SI (D := fun _ => False) ho hg.stat.lab hg.gen
    obtain ⟨rfl, rfl⟩ := goto_run hg.gen
    have hl' := hg.gr.labels l (labelBlock l c) (withLabel_lookup l c)
    rw [hl] at hl'
    have e : c1.cur = labelBlock l c := Option.some.inj hl'
    exact ⟨g.jump (labelBlock l c), .mk rfl (m.regs rfl) (.start hs e.symm rfl) hr,
      .inl ⟨_, term_step (hat.withLabel l) (hext.trans hg.gr.ext) rfl, .refl⟩⟩
  | switchCase hv hf =>
    apply usual
    have := findCase_weight _ _ _ hf
    simp only [BState.weight, St.weight]
    omega
  | endFun => apply usual; simp only [BState.weight, St.weight, Cont.weight]; omega
  | ret0 => apply usual; simp only [BState.weight, St.weight]; omega
  | ret _ => apply usual; simp only [BState.weight, St.weight]; omega
  | _ => apply usual; simp only [BState.weight, St.weight, Cont.weight]; omega

theorem step_mono {R' : Calls M.World} (hR : ∀ a vs s v s', R' a vs s v s' → R a vs s v s') {bs : List Block} {g g' : Cfg M.World}
    (h : IRStep M R' bs args g g') : IRStep M R bs args g g' := by
  cases h with
  | inst a1 a2 a3 => exact .inst a1 a2 (instSem_mono hR a3)
  | term a1 a2 a3 a4 => exact .term a1 a2 a3 a4

/-! ### long runs -/

variable (R args) in
/-- at least that many steps are possible -/
def Long (bs : List Block) : Nat → Cfg M.World → Prop
  | 0, _ => True
  | n + 1, g => ∃ g', IRStep M R bs args g g' ∧ Long bs n g'

theorem Long.pred {bs : List Block} : ∀ {n : Nat} {g : Cfg M.World}, Long R args bs (n + 1) g → Long R args bs n g
  | 0, _, _ => trivial
  | _ + 1, _, ⟨g', h1, h2⟩ => ⟨g', h1, Long.pred h2⟩

theorem Long.before {bs : List Block} {n : Nat} {g g' : Cfg M.World} (h : IRSteps M R bs args g g') (hl : Long R args bs n g') :
    Long R args bs n g := by
  induction h with
  | refl => exact hl
  | head h1 _ ih => exact Long.pred ⟨_, h1, ih hl⟩

theorem Long.mono {R' : Calls M.World} (hR : ∀ a vs s v s', R' a vs s v s' → R a vs s v s') {bs : List Block} :
    ∀ {n : Nat} {g : Cfg M.World}, Long R' args bs n g → Long R args bs n g
  | 0, _, _ => trivial
  | _ + 1, _, ⟨g', h1, h2⟩ => ⟨g', step_mono hR h1, Long.mono hR h2⟩

/-- the code of an endless run -/
theorem endless_long (hd : ∀ x ∈ Ei.vars, x ∉ Ei.funs) {P0 : Place} {body : St} {cs0 cs0' : Cases} {c0 c0' : CState}
    (hbody : G Ei fin body P0 .stop none true cs0 c0 cs0' c0') {xs : Nat → BState M.toB.World}
    (hx : ∀ i, BStep M.toB R P0 body (xs i) (xs (i + 1))) :
    ∀ (n w i : Nat) (g : Cfg M.World), (xs i).weight ≤ w → Match args Ei fin (xs i) g → Long R args fin.blocks n g
  | 0, _, _, _, _, _ => trivial
  | n + 1, 0, i, g, hw, hm => by
    obtain ⟨g', m', ⟨g1, q1, q2⟩ | ⟨_, q⟩⟩ := step_sim_weight (R := R) hd hbody (hx i) hm
    · exact ⟨g1, q1, .before q2 (endless_long hd hbody hx n _ (i + 1) g' (Nat.le_refl _) m')⟩
    · omega
  | n + 1, w + 1, i, g, hw, hm => by
    obtain ⟨g', m', ⟨g1, q1, q2⟩ | ⟨q1, q⟩⟩ := step_sim_weight (R := R) hd hbody (hx i) hm
    · exact ⟨g1, q1, .before q2 (endless_long hd hbody hx n _ (i + 1) g' (Nat.le_refl _) m')⟩
    · exact .before q1 (endless_long hd hbody hx (n + 1) w (i + 1) g' (by omega) m')
termination_by n w => (n, w)

/-- a run that ends is not arbitrarily long -/
theorem ends_not_long (hR : Functional R) {bs : List Block} {g g' : Cfg M.World} {v : Word} (h : IRSteps M R bs args g g')
    (hr : Returns M bs args g' v) : ∃ n, ¬ Long R args bs n g := by
  induction h with
  | refl => exact ⟨1, fun ⟨_, h, _⟩ => returns_stuck hr h⟩
  | head h1 _ ih =>
    obtain ⟨n, hn⟩ := ih hr
    refine ⟨n + 1, fun ⟨g2, h2, h3⟩ => hn ?_⟩
    rw [step_det hR h1 h2]; exact h3

/-- a run that ends passes through every configuration that is reached -/
theorem ends_through {R' : Calls M.World} (hR : Functional R) (hs : ∀ a vs s v s', R' a vs s v s' → R a vs s v s') {bs : List Block}
    {g g1 g' : Cfg M.World} {v : Word} (h1 : IRSteps M R bs args g g1) (h : IRSteps M R' bs args g g') (hr : Returns M bs args g' v) :
    IRSteps M R' bs args g1 g' := by
  induction h1 with
  | refl => exact h
  | head q1 _ ih =>
    cases h with
    | refl => exact absurd q1 (returns_stuck hr)
    | head p1 p2 =>
      have e := step_det hR q1 (step_mono hs p1)
      subst e
      exact ih p2

end
end Blang
