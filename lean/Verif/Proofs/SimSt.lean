import Verif.Proofs.SimBase
/-
The code of a statement does what the statement means.
-/
namespace Blang
open Spec

/-- the last block of a function is closed with `ret 0` -/
def closeTo (c : CState) : CState := if curTerm c = none then withTerm c (.ret (.const 0)) else c

theorem closeTo_blocks (c : CState) : (closeTo c).blocks = closed c := by
  unfold closeTo closed
  split <;> rfl

section
variable (Ei : Env) (fin : CState)

/-- what remains to be done is in the code that follows `c`; `fin` is the state in which the code of
the function is complete -/
inductive KM : Cont → CState → Prop where
  | stop {c : CState} : Gr (closeTo c) fin → KM .stop c
  | seq {Q : Place} {t : St} {k : Cont} {sw : Option Nat} {o : Bool} {cs cs' : Cases} {c c' : CState} :
      genSt t sw cs c = .ok cs' c' → Stat t sw o c → PM Q c → Ok Ei Q t → Gr c' fin → KM k c' → KM (.seq Q t k) c
  | jump {k : Cont} {b : Nat} {c c2 : CState} : Gr (brTo c b) fin → Start c2 → c2.cur = b → KM k c2 → KM k c
  | loop {Q : Place} {cn : Ex} {b : St} {k : Cont} {sw : Option Nat} {o : Bool} {cs cs' : Cases} {c c0 c' : CState} :
      Gr (brTo c c0.blocks.length) fin → genSt (.while cn b) sw cs c0 = .ok cs' c' → Stat (.while cn b) sw o c0 → PM Q c0 →
      Ok Ei Q (.while cn b) → Gr c' fin → KM k c' → KM (.loop Q cn b k) c

/-- the statement `s`, standing at `P` and followed by `k`, is generated at `c` -/
structure G (s : St) (P : Place) (k : Cont) (sw : Option Nat) (o : Bool) (cs : Cases) (c : CState) (cs' : Cases) (c' : CState) : Prop where
  gen : genSt s sw cs c = .ok cs' c'
  stat : Stat s sw o c
  pm : PM P c
  ok : Ok Ei P s
  gr : Gr c' fin
  km : KM Ei fin k c'

/-- ... and can be executed there -/
def Ready (s : St) (P : Place) (k : Cont) (c : CState) : Prop := ∃ sw cs cs' c', G Ei fin s P k sw true cs c cs' c'
end

section
variable {Ei : Env} {fin : CState} {P : Place} {k : Cont} {sw : Option Nat} {o : Bool} {cs cs' : Cases} {c c' : CState}

theorem G.post {s : St} (h : G Ei fin s P k sw o cs c cs' c') : Post s sw o cs c cs' c' := genSt_static _ _ _ _ _ _ _ h.stat h.gen

theorem G.grc {s : St} (h : G Ei fin s P k sw o cs c cs' c') : Gr c fin := h.post.si.gr.trans h.gr

theorem G.ready {s : St} (h : G Ei fin s P k sw true cs c cs' c') : Ready Ei fin s P k c := ⟨_, _, _, _, h⟩

theorem G.seq {s t : St} (h : G Ei fin (.seq s t) P k sw o cs c cs' c') : ∃ o1 cs1 c1,
    G Ei fin s P (.seq (P.after s) t k) sw o cs c cs1 c1 ∧ G Ei fin t (P.after s) k sw o1 cs1 c1 cs' c' := by
  obtain ⟨cs1, c1, h1, h2⟩ := seq_run h.gen
  have p := genSt_static _ _ _ _ _ _ _ (seq_first h.stat) h1
  obtain ⟨o1, e1, H2⟩ := seq_second h.stat p
  have q := genSt_static _ _ _ _ _ _ _ H2 h2
  have pm := h.pm.st h.stat.names.1 h1 p.si.gr
  exact ⟨o1, cs1, c1, ⟨h1, seq_first h.stat, h.pm, h.ok.seq1, q.si.gr.trans h.gr, .seq h2 H2 pm h.ok.seq2 h.gr h.km⟩,
    ⟨h2, H2, pm, h.ok.seq2, h.gr, h.km⟩⟩

theorem Gr.goto {c c' : CState} {j : Nat} (h : Gr (goto' c j) c') : Gr c c' := ⟨h.ext, h.locals, h.new, h.labels, h.reg, h.id⟩

theorem G.if {cn : Ex} {t e : St} (h : G Ei fin (.ifElse cn t e) P k sw o cs c cs' c') : o = true ∧ ∃ v c1 x3 c3 x5 c5,
    genR cn c = .ok v c1 ∧ IfStages cn t e sw cs c v c1 x3 c3 x5 c5 c' ∧
    G Ei fin t (P.afterEx cn) k none true [] (goto' (forkIf c1 v) c1.blocks.length) x3 c3 ∧
    G Ei fin e ((P.afterEx cn).after t) k none true [] (goto' (brTo c3 (c1.blocks.length + 2)) (c1.blocks.length + 1)) x5 c5 ∧
    c'.cur = c1.blocks.length + 2 ∧ PM (P.afterEx cn) c1 ∧ Gr c1 fin ∧ Gr (forkIf c1 v) fin := by
  obtain ⟨v, c1, x3, c3, x5, c5, h1, h3, h5, rfl, rfl⟩ := if_run h.gen
  obtain ⟨rfl, S⟩ := if_static (cs := cs') h.stat h1 h3 h5 (fun c cs' H c' h => genSt_static _ _ _ _ _ _ _ H h)
    (fun c cs' H c' h => genSt_static _ _ _ _ _ _ _ H h)
  have pm1 := h.pm.expr h.stat.names.1 h1
  have pmT : PM (P.afterEx cn) (goto' (forkIf c1 v) c1.blocks.length) := pm1.same ((SameTabs.forkIf c1 v).trans (.goto _ _))
  have pm3 := pmT.st h.stat.names.2.1 h3 S.postT.si.gr
  have pmE : PM ((P.afterEx cn).after t) (goto' (brTo c3 (c1.blocks.length + 2)) (c1.blocks.length + 1)) :=
    pm3.same ((SameTabs.brTo c3 _).trans (.goto _ _))
  have gE : Gr (brTo c5 (c1.blocks.length + 2)) fin := h.gr.goto
  have g5 : Gr c5 fin := S.siBrE.gr.trans gE
  have gT : Gr (brTo c3 (c1.blocks.length + 2)) fin := (S.postE.si.gr.goto).trans g5
  have g3 := S.siBr.gr.trans gT
  refine ⟨rfl, v, c1, x3, c3, x5, c5, h1, S, ⟨h3, S.statT, pmT, h.ok.then, g3, .jump gT S.start' rfl h.km⟩,
    ⟨h5, S.statE, pmE, h.ok.else, g5, .jump gE S.start' rfl h.km⟩, rfl, pm1, ?_, ?_⟩
  · exact (fork_stage (D := fun _ => False) v S.opn1 S.lab1).1.gr.trans ((S.postT.si.gr.goto).trans g3)
  · exact (S.postT.si.gr.goto).trans g3

theorem G.ifThen {cn : Ex} {t : St} (h : G Ei fin (.ifThen cn t) P k sw o cs c cs' c') : G Ei fin (.ifElse cn t .skip) P k sw o cs c cs' c' := by
  refine ⟨by rw [← genSt_ifThen]; exact h.gen, ?_, h.pm, h.ok.ifThen, h.gr, h.km⟩
  have H := h.stat
  refine ⟨⟨H.names.1, H.names.2, trivial⟩, H.lab, by simpa [St.labels] using H.labels, ⟨H.dist, trivial⟩, H.cases,
    by simpa [St.labels] using H.pendL, H.pendC, H.pendF, H.swlt, H.st, ?_⟩
  obtain ⟨o', ho'⟩ := H.ex
  refine ⟨o', ?_⟩
  simp only [St.exit] at ho' ⊢
  rw [← ho']
  cases o with
  | false => rfl
  | true => cases t.exit true <;> rfl

theorem G.while {cn : Ex} {b : St} (h : G Ei fin (.while cn b) P k sw o cs c cs' c') : o = true ∧ ∃ v c1 x3 c3,
    genR cn (whileHead c) = .ok v c1 ∧ WhileStages cn b sw cs c v c1 x3 c3 c' ∧
    G Ei fin b (P.afterEx cn) (.loop P cn b k) none true [] (goto' (whileTest c c1 v) (c.blocks.length + 1)) x3 c3 ∧
    c'.cur = c.blocks.length + 2 ∧ PM P (whileHead c) ∧ Gr c1 fin ∧ Gr (whileTest c c1 v) fin ∧ Gr (whileHead c) fin := by
  obtain ⟨v, c1, x3, c3, h1, h3, rfl, rfl⟩ := while_run h.gen
  obtain ⟨rfl, S⟩ := while_static (cs := cs') h.stat h1 h3 (fun c cs' H c' h => genSt_static _ _ _ _ _ _ _ H h)
  have pmH : PM P (whileHead c) := h.pm.same (.whileHead c)
  have pm1 := pmH.expr h.stat.names.1 h1
  have pmB : PM (P.afterEx cn) (goto' (whileTest c c1 v) (c.blocks.length + 1)) := pm1.same ((SameTabs.whileTest c c1 v).trans (.goto _ _))
  have gB : Gr (brTo c3 c.blocks.length) fin := h.gr.goto
  have g3 := S.siBr.gr.trans gB
  have gt := (S.postB.si.gr.goto).trans g3
  have g1 := S.si2.gr.trans gt
  exact ⟨rfl, v, c1, x3, c3, h1, S, ⟨h3, S.statB, pmB, h.ok.while, g3, .loop gB h.gen h.stat h.pm h.ok h.gr h.km⟩, rfl, pmH,
    g1, gt, S.si1.gr.trans g1⟩

theorem G.switch {e : Ex} {b : St} (h : G Ei fin (.switch e b) P k sw o cs c cs' c') : o = true ∧ ∃ v c1 vs c3 c4,
    genR e (bump c) = .ok v c1 ∧ SwitchStages e b sw cs c v c1 vs c3 c4 ∧
    G Ei fin b (P.afterEx e) k (some c.labelID) true [] (switchHead c1 c.labelID) vs c3 ∧
    c' = goto' c4 (c1.blocks.length + 2) ∧ Gr c1 fin ∧ Gr (switchHead c1 c.labelID) fin ∧ Gr c4 fin := by
  obtain ⟨v, c1, vs, c3, c4, h1, h3, h4, rfl, rfl⟩ := switch_run h.gen
  obtain ⟨rfl, S⟩ := switch_static (cs := cs') h.stat h1 h3 h4 (fun id c cs' H c' h => genSt_static _ _ _ _ _ _ _ H h)
  have pm1 := (h.pm.same (.bump c)).expr h.stat.names.1 h1
  have pmB : PM (P.afterEx e) (switchHead c1 c.labelID) := pm1.same (.switchHead c1 _)
  have g4 : Gr c4 fin := h.gr.goto
  have gB : Gr (brTo c3 (c1.blocks.length + 2)) fin := by
    have w := (SI.withTerm (D := fun _ => False) (switchT c.labelID v (c1.blocks.length + 2) b.cases
      (goto' (brTo c3 (c1.blocks.length + 2)) (c1.blocks.length + 1))) S.startC.open S.labC).gr
    rw [← S.eq4] at w
    exact Gr.goto (w.trans g4)
  have g3 := S.siBr.gr.trans gB
  have gH := S.postB.si.gr.trans g3
  exact ⟨rfl, v, c1, vs, c3, c4, h1, S, ⟨h3, S.statB, pmB, h.ok.switch, g3, .jump gB S.start' rfl h.km⟩, rfl,
    S.siH.gr.trans gH, gH, g4⟩

theorem G.label {l : Name} {s : St} (h : G Ei fin (.label l s) P k sw o cs c cs' c') : ∃ c2 b,
    c2 = goto' (brTo (withLabel l c) b) b ∧ G Ei fin s P k sw true cs c2 cs' c' ∧
    Start c2 ∧ lookup l fin.labels = some b ∧ Gr (brTo (withLabel l c) b) fin ∧ c.nextReg ≤ c2.nextReg := by
  obtain ⟨a1, a2, a3, a4⟩ := label_static h.stat
  have hg := label_run h.gen
  have pm : PM P (goto' (brTo (withLabel l c) (labelBlock l c)) (labelBlock l c)) :=
    h.pm.same (((SameTabs.withLabel c l).trans (.brTo _ _)).trans (.goto _ _))
  have gg : G Ei fin s P k sw true cs (goto' (brTo (withLabel l c) (labelBlock l c)) (labelBlock l c)) cs' c' :=
    ⟨hg, a4, pm, h.ok.label, h.gr, h.km⟩
  exact ⟨_, _, rfl, gg, a2, gg.grc.labels _ _ a3, gg.grc.goto, a1.gr.reg⟩

theorem G.case {w : Word} {s : St} (h : G Ei fin (.case w s) P k sw o cs c cs' c') : ∃ c2 b id, sw = some id ∧
    c2 = goto' (brTo (withLabel (caseName id w) c) b) b ∧ G Ei fin s P k sw true (cs ++ [w]) c2 cs' c' ∧
    Start c2 ∧ lookup (caseName id w) fin.labels = some b ∧ Gr (brTo (withLabel (caseName id w) c) b) fin ∧ c.nextReg ≤ c2.nextReg := by
  obtain ⟨id, rfl, hg⟩ := case_run h.gen
  obtain ⟨a1, a2, a3, a4⟩ := case_static h.stat
  have pm : PM P (goto' (brTo (withLabel (caseName id w) c) (labelBlock (caseName id w) c)) (labelBlock (caseName id w) c)) :=
    h.pm.same (((SameTabs.withLabel c _).trans (.brTo _ _)).trans (.goto _ _))
  have gg : G Ei fin s P k (some id) true (cs ++ [w]) (goto' (brTo (withLabel (caseName id w) c) (labelBlock (caseName id w) c)) (labelBlock (caseName id w) c)) cs' c' :=
    ⟨hg, a4, pm, h.ok.case, h.gr, h.km⟩
  exact ⟨_, _, id, rfl, rfl, gg, a2, gg.grc.labels _ _ a3, gg.grc.goto, a1.gr.reg⟩

/-- where a label is -/
theorem findLabel_ready {l : Ident} {Q : Place} {t : St} {k' : Cont} : ∀ (s : St) (P : Place) (k : Cont) (sw : Option Nat) (o : Bool)
    (cs : Cases) (c : CState) (cs' : Cases) (c' : CState), G Ei fin s P k sw o cs c cs' c' → findLabel l s P k = some (Q, t, k') →
    ∃ c1, Ready Ei fin t Q k' c1 ∧ Start c1 ∧ lookup l fin.labels = some c1.cur := by
  intro s
  induction s with
  | seq s t ih1 ih2 =>
    intro P k sw o cs c cs' c' h hf
    obtain ⟨o1, cs1, c1, g1, g2⟩ := h.seq
    simp only [findLabel] at hf
    cases h1 : findLabel l s P (.seq (P.after s) t k) with
    | some x => rw [h1] at hf; cases hf; exact ih1 _ _ _ _ _ _ _ _ g1 h1
    | none => rw [h1] at hf; exact ih2 _ _ _ _ _ _ _ _ g2 hf
  | ifThen cn t ih =>
    intro P k sw o cs c cs' c' h hf
    obtain ⟨_, v, c1, x3, c3, x5, c5, _, _, g1, _⟩ := h.ifThen.if
    exact ih _ _ _ _ _ _ _ _ g1 hf
  | ifElse cn t e ih1 ih2 =>
    intro P k sw o cs c cs' c' h hf
    obtain ⟨_, v, c1, x3, c3, x5, c5, _, _, g1, g2, _⟩ := h.if
    simp only [findLabel] at hf
    cases h1 : findLabel l t (P.afterEx cn) k with
    | some x => rw [h1] at hf; cases hf; exact ih1 _ _ _ _ _ _ _ _ g1 h1
    | none => rw [h1] at hf; exact ih2 _ _ _ _ _ _ _ _ g2 hf
  | «while» cn b ih =>
    intro P k sw o cs c cs' c' h hf
    obtain ⟨_, v, c1, x3, c3, _, _, g1, _⟩ := h.while
    exact ih _ _ _ _ _ _ _ _ g1 hf
  | switch e b ih =>
    intro P k sw o cs c cs' c' h hf
    obtain ⟨_, v, c1, vs, c3, c4, _, _, g1, _⟩ := h.switch
    exact ih _ _ _ _ _ _ _ _ g1 hf
  | case w s ih =>
    intro P k sw o cs c cs' c' h hf
    obtain ⟨c2, b, id, _, _, g1, _⟩ := h.case
    exact ih _ _ _ _ _ _ _ _ g1 hf
  | label m s ih =>
    intro P k sw o cs c cs' c' h hf
    obtain ⟨c2, b, e, g1, st, hl, _⟩ := h.label
    simp only [findLabel] at hf
    split at hf
    · rename_i em; subst em
      cases hf
      exact ⟨c2, g1.ready, st, by rw [hl, e]; rfl⟩
    · exact ih _ _ _ _ _ _ _ _ g1 hf
  | _ => intro P k sw o cs c cs' c' h hf; simp [findLabel] at hf

/-- where a case is -/
theorem findCase_ready {v : Word} {Q : Place} {t : St} {k' : Cont} {id : Nat} : ∀ (s : St) (P : Place) (k : Cont) (o : Bool)
    (cs : Cases) (c : CState) (cs' : Cases) (c' : CState), G Ei fin s P k (some id) o cs c cs' c' → findCase v s P k = some (Q, t, k') →
    v ∈ s.cases ∧ ∃ c1, Ready Ei fin t Q k' c1 ∧ Start c1 ∧ lookup (caseName id v) fin.labels = some c1.cur := by
  intro s
  induction s with
  | seq s t ih1 ih2 =>
    intro P k o cs c cs' c' h hf
    obtain ⟨o1, cs1, c1, g1, g2⟩ := h.seq
    simp only [findCase] at hf
    cases h1 : findCase v s P (.seq (P.after s) t k) with
    | some x =>
      rw [h1] at hf; cases hf
      obtain ⟨a, b⟩ := ih1 _ _ _ _ _ _ _ g1 h1
      exact ⟨by simp [St.cases, a], b⟩
    | none =>
      rw [h1] at hf
      obtain ⟨a, b⟩ := ih2 _ _ _ _ _ _ _ g2 hf
      exact ⟨by simp [St.cases, a], b⟩
  | case w s ih =>
    intro P k o cs c cs' c' h hf
    obtain ⟨c2, b, id', e', e, g1, st, hl, _⟩ := h.case
    cases e'
    simp only [findCase] at hf
    split at hf
    · rename_i ew; subst ew
      cases hf
      exact ⟨by simp [St.cases], c2, g1.ready, st, by rw [hl, e]; rfl⟩
    · obtain ⟨a, b⟩ := ih _ _ _ _ _ _ _ g1 hf
      exact ⟨by simp [St.cases, a], b⟩
  | label m s ih =>
    intro P k o cs c cs' c' h hf
    obtain ⟨c2, b, e, g1, _⟩ := h.label
    exact ih _ _ _ _ _ _ _ g1 hf
  | _ => intro P k o cs c cs' c' h hf; simp [findCase] at hf

theorem findCase_none {v : Word} : ∀ (s : St) (P : Place) (k : Cont), findCase v s P k = none → v ∉ s.cases := by
  intro s
  induction s with
  | seq s t ih1 ih2 =>
    intro P k hf
    simp only [findCase, Option.or_eq_none_iff] at hf
    simp only [St.cases, List.mem_append, not_or]
    exact ⟨ih1 _ _ hf.1, ih2 _ _ hf.2⟩
  | case w s ih =>
    intro P k hf
    simp only [findCase] at hf
    split at hf
    · cases hf
    · rename_i hw
      simp only [St.cases, List.mem_cons, not_or]
      exact ⟨fun e => hw e.symm, ih _ _ hf⟩
  | label m s ih => intro P k hf; exact ih _ _ hf
  | _ => intro P k hf; simp [St.cases]

end
end Blang
