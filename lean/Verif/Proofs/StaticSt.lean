import Verif.Proofs.Runs
/-
Statements: what generating them does to blocks and labels.
-/
namespace Blang
open Spec

/-- labels placed by a statement with labels `ls` and cases `vs` of the switch `sw`; its own switches
have numbers from `a` to `b` -/
def Placed (ls : List Name) (sw : Option Nat) (vs : List Word) (a b : Nat) (l : Name) : Prop :=
  l ∈ ls ∨ (∃ id v, sw = some id ∧ v ∈ vs ∧ l = caseName id v) ∨ ∃ id v, a ≤ id ∧ id < b ∧ l = caseName id v

theorem Placed.mono {ls ls' : List Name} {sw sw' : Option Nat} {vs vs' : List Word} {a a' b b' : Nat} (h1 : ∀ l ∈ ls, l ∈ ls')
    (h2 : ∀ id v, sw = some id → v ∈ vs → (sw' = some id ∧ v ∈ vs') ∨ a' ≤ id ∧ id < b') (h3 : a' ≤ a) (h4 : b ≤ b') :
    ∀ l, Placed ls sw vs a b l → Placed ls' sw' vs' a' b' l := by
  rintro l (h | ⟨id, v, e, hv, rfl⟩ | ⟨id, v, ha, hb, rfl⟩)
  · exact .inl (h1 l h)
  · rcases h2 id v e hv with ⟨h, h'⟩ | ⟨h, h'⟩
    · exact .inr (.inl ⟨id, v, h, h', rfl⟩)
    · exact .inr (.inr ⟨id, v, h, h', rfl⟩)
  · exact .inr (.inr ⟨id, v, by omega, by omega, rfl⟩)

theorem caseName_dot (id : Nat) (v : Word) : '.' ∈ caseName id v := by
  unfold caseName; simp

theorem nameOk_ne_case {l : Name} (h : NameOk l) (id : Nat) (v : Word) : l ≠ caseName id v := by
  rintro rfl; exact nameOk_no_dot h (caseName_dot id v)

/-- the conditions for a statement -/
structure Stat (s : St) (sw : Option Nat) (o : Bool) (c : CState) : Prop where
  names : s.All NameOk
  lab : LabOk c
  labels : s.labels.Nodup
  dist : s.Distinct
  cases : sw.isSome → s.cases.Nodup
  pendL : ∀ l ∈ s.labels, Pend l c
  pendC : ∀ id v, sw = some id → v ∈ s.cases → Pend (caseName id v) c
  pendF : ∀ id v, c.labelID ≤ id → Pend (caseName id v) c
  swlt : ∀ id, sw = some id → id < c.labelID
  st : Status o c
  ex : ∃ o', s.exit o = some o'

/-- what generating the statement does -/
structure Post (s : St) (sw : Option Nat) (o : Bool) (cs : Cases) (c : CState) (cs' : Cases) (c' : CState) : Prop where
  si : SI (Placed s.labels sw s.cases c.labelID c'.labelID) c c'
  st : ∀ o', s.exit o = some o' → Status o' c'
  cs : sw.isSome → cs' = cs ++ s.cases
  placed : ∀ id v, sw = some id → v ∈ s.cases → (lookup (caseName id v) c'.labels).isSome

theorem labels_all {P : Name → Prop} : ∀ s : St, s.All P → ∀ l ∈ s.labels, P l := by
  intro s
  induction s with
  | seq s t ih1 ih2 =>
    intro h l hl
    simp only [St.labels, List.mem_append] at hl
    exact hl.elim (ih1 h.1 l) (ih2 h.2 l)
  | ifThen c t ih => intro h l hl; exact ih h.2 l hl
  | ifElse c t e ih1 ih2 =>
    intro h l hl
    simp only [St.labels, List.mem_append] at hl
    exact hl.elim (ih1 h.2.1 l) (ih2 h.2.2 l)
  | «while» c t ih => intro h l hl; exact ih h.2 l hl
  | switch c t ih => intro h l hl; exact ih h.2 l hl
  | case v s ih => intro h l hl; exact ih h l hl
  | label m s ih =>
    intro h l hl
    simp only [St.labels, List.mem_cons] at hl
    rcases hl with rfl | hl
    · exact h.1
    · exact ih h.2 l hl
  | _ => intro h l hl; simp [St.labels] at hl

/-- simple statements -/
theorem Post.simple {s : St} {sw : Option Nat} {o : Bool} {cs : Cases} {c c' : CState} (h1 : s.cases = [])
    (h : SI (fun _ => False) c c') (h3 : ∀ o', s.exit o = some o' → Status o' c') : Post s sw o cs c cs c' := by
  refine ⟨h.mono fun _ h => h.elim, h3, by simp [h1], ?_⟩
  intro id v _ hv
  rw [h1] at hv; cases hv

section
variable {sw : Option Nat} {o : Bool} {cs cs' : Cases} {c c' : CState}

/-- later, a condition holds for what follows -/
theorem Stat.after {s : St} {c1 : CState} {ls : List Name} {sw1 : Option Nat} {vs : List Word} {o1 : Bool} {a : Nat}
    (hls : ∀ l ∈ ls, NameOk l) (h : SI (Placed ls sw1 vs a c1.labelID) c c1) (hid : c.labelID ≤ c1.labelID)
    (hsw1 : ∀ id, sw1 = some id → id < c1.labelID)
    (names : s.All NameOk) (labels : s.labels.Nodup) (dist : s.Distinct) (cases : sw.isSome → s.cases.Nodup)
    (pendL : ∀ l ∈ s.labels, Pend l c) (hdl : ∀ l ∈ s.labels, l ∉ ls)
    (pendC : ∀ id v, sw = some id → v ∈ s.cases → Pend (caseName id v) c)
    (hdc : ∀ id v, sw = some id → v ∈ s.cases → ¬ (sw1 = some id ∧ v ∈ vs) ∧ ¬ (a ≤ id ∧ id < c1.labelID))
    (pendF : ∀ id v, c.labelID ≤ id → Pend (caseName id v) c)
    (swlt : ∀ id, sw = some id → id < c1.labelID) (st : Status o1 c1) (ex : ∃ o', s.exit o1 = some o') : Stat s sw o1 c1 := by
  refine ⟨names, h.lab, labels, dist, cases, ?_, ?_, ?_, swlt, st, ex⟩
  · intro l hl
    refine h.pend l ?_ (pendL l hl)
    rintro (h | ⟨id, v, _, _, e⟩ | ⟨id, v, _, _, e⟩)
    · exact hdl l hl h
    · exact nameOk_ne_case (labels_all s names l hl) _ _ e
    · exact nameOk_ne_case (labels_all s names l hl) _ _ e
  · intro id v e hv
    refine h.pend _ ?_ (pendC id v e hv)
    rintro (h | ⟨id', v', h1, h2, e'⟩ | ⟨id', v', h1, h2, e'⟩)
    · exact nameOk_ne_case (hls _ h) _ _ rfl
    · obtain ⟨rfl, rfl⟩ := caseName_inj e'
      exact (hdc _ _ e hv).1 ⟨h1, h2⟩
    · obtain ⟨rfl, rfl⟩ := caseName_inj e'
      exact (hdc _ _ e hv).2 ⟨h1, h2⟩
  · intro id v hi
    refine h.pend _ ?_ (pendF id v (by omega))
    rintro (h | ⟨id', v', h1, h2, e'⟩ | ⟨id', v', h1, h2, e'⟩)
    · exact nameOk_ne_case (hls _ h) _ _ rfl
    · obtain ⟨rfl, rfl⟩ := caseName_inj e'
      have := hsw1 _ h1; omega
    · obtain ⟨rfl, rfl⟩ := caseName_inj e'
      omega

theorem seq_first {s t : St} (H : Stat (.seq s t) sw o c) : Stat s sw o c := by
  obtain ⟨o', ho'⟩ := H.ex
  simp only [St.exit] at ho'
  have hl := H.labels
  simp only [St.labels, List.nodup_append] at hl
  refine ⟨H.names.1, H.lab, hl.1, H.dist.1, fun h => ?_, fun l h => H.pendL l (by simp [St.labels, h]),
    fun id v e h => H.pendC id v e (by simp [St.cases, h]), H.pendF, H.swlt, H.st, ?_⟩
  · have := H.cases h
    simp only [St.cases, List.nodup_append] at this
    exact this.1
  · cases h : s.exit o with
    | none => rw [h] at ho'; cases ho'
    | some x => exact ⟨x, rfl⟩

theorem seq_second {s t : St} {cs1 : Cases} {c1 : CState} (H : Stat (.seq s t) sw o c) (p : Post s sw o cs c cs1 c1) :
    ∃ o1, s.exit o = some o1 ∧ Stat t sw o1 c1 := by
  obtain ⟨o', ho'⟩ := H.ex
  simp only [St.exit] at ho'
  cases h : s.exit o with
  | none => rw [h] at ho'; cases ho'
  | some o1 =>
  rw [h] at ho'
  have hl := H.labels
  simp only [St.labels, List.nodup_append] at hl
  refine ⟨o1, rfl, Stat.after (labels_all s H.names.1) p.si p.si.gr.id (fun id e => Nat.lt_of_lt_of_le (H.swlt id e) p.si.gr.id)
    H.names.2 hl.2.1 H.dist.2 (fun h => ?_) (fun l h => H.pendL l (by simp [St.labels, h])) (fun l h1 h2 => hl.2.2 l h2 l h1 rfl)
    (fun id v e h => H.pendC id v e (by simp [St.cases, h])) (fun id v e hv => ⟨fun hh => ?_, fun hh => ?_⟩) H.pendF
    (fun id e => Nat.lt_of_lt_of_le (H.swlt id e) p.si.gr.id) (p.st _ h) ⟨o', ho'⟩⟩
  · have := H.cases h
    simp only [St.cases, List.nodup_append] at this
    exact this.2.1
  · have := H.cases (by simp [e])
    simp only [St.cases, List.nodup_append] at this
    exact this.2.2 v hh.2 v hv rfl
  · have := H.swlt id e; omega

theorem seq_static {s t : St} {cs1 : Cases} {c1 : CState} (p : Post s sw o cs c cs1 c1)
    {o1 : Bool} (ho1 : s.exit o = some o1) (q : Post t sw o1 cs1 c1 cs' c') : Post (.seq s t) sw o cs c cs' c' := by
  have i1 := p.si.gr.id
  have i2 := q.si.gr.id
  refine ⟨(p.si.mono (Placed.mono ?_ ?_ (Nat.le_refl _) i2)).trans (q.si.mono (Placed.mono ?_ ?_ i1 (Nat.le_refl _))), ?_, ?_, ?_⟩
  · intro l h; simp [St.labels, h]
  · intro id v e h; left; simp [St.cases, e, h]
  · intro l h; simp [St.labels, h]
  · intro id v e h; left; simp [St.cases, e, h]
  · intro o' h
    simp only [St.exit, ho1, Option.bind_some] at h
    exact q.st _ h
  · intro h; rw [q.cs h, p.cs h]; simp [St.cases]
  · intro id v e h
    simp only [St.cases, List.mem_append] at h
    rcases h with h | h
    · have := p.placed id v e h
      cases hl : lookup (caseName id v) c1.labels with
      | none => rw [hl] at this; cases this
      | some b => rw [q.si.gr.labels _ _ hl]; rfl
    · exact q.placed id v e h

/-- three new blocks -/
theorem fork_stage {D : Name → Prop} {c1 : CState} (v : Val) (ho : Open c1) (hl : LabOk c1) : SI D c1 (forkIf c1 v) ∧
    ∀ i, c1.blocks.length ≤ i → i < c1.blocks.length + 3 → Safe i (forkIf c1 v) ∧ Empty (forkIf c1 v) i := by
  unfold forkIf
  have a1 : SI D c1 (bump c1) := .bump hl
  have o1 : Open (bump c1) := ho
  have a2 := SI.add3 (D := D) ("if.".toList ++ natDec c1.labelID ++ ".then".toList)
    ("if.".toList ++ natDec c1.labelID ++ ".else".toList) ("if.".toList ++ natDec c1.labelID ++ ".end".toList) o1.lt a1.lab
  have n2 := add3_new ("if.".toList ++ natDec c1.labelID ++ ".then".toList)
    ("if.".toList ++ natDec c1.labelID ++ ".else".toList) ("if.".toList ++ natDec c1.labelID ++ ".end".toList) o1.lt a1.lab
  have o2 := o1.add3 ("if.".toList ++ natDec c1.labelID ++ ".then".toList)
    ("if.".toList ++ natDec c1.labelID ++ ".else".toList) ("if.".toList ++ natDec c1.labelID ++ ".end".toList)
  obtain ⟨a3, o3⟩ := SI.emit (D := D) (emit_eq (.icmp .ne v (.const 0)) _) o2 a2.lab
  have a4 := SI.withTerm (D := D) (.condbr (.reg c1.nextReg) c1.blocks.length (c1.blocks.length + 1)) o3 a3.lab
  refine ⟨((a1.trans a2).trans a3).trans a4, fun i h1 h2 => ?_⟩
  obtain ⟨s, e⟩ := n2 i h1 h2
  exact ⟨((a3.trans a4).safe i s).1, (a3.trans a4).empty s e⟩

theorem whileHead_stage {D : Name → Prop} (ho : Open c) (hl : LabOk c) : SI D c (whileHead c) ∧ Start (whileHead c) ∧
    ∀ i, c.blocks.length < i → i < c.blocks.length + 3 → Safe i (whileHead c) ∧ Empty (whileHead c) i := by
  unfold whileHead
  have a1 : SI D c (bump c) := .bump hl
  have o1 : Open (bump c) := ho
  generalize "while.".toList ++ natDec c.labelID ++ ".cond".toList = x1
  generalize "while.".toList ++ natDec c.labelID ++ ".body".toList = x2
  generalize "while.".toList ++ natDec c.labelID ++ ".end".toList = x3
  have a2 := SI.add3 (D := D) x1 x2 x3 o1.lt a1.lab
  have n2 := add3_new x1 x2 x3 o1.lt a1.lab
  have o2 := o1.add3 x1 x2 x3
  have a4 := SI.withTerm (D := D) (.br c.blocks.length) o2 a2.lab
  obtain ⟨s0, e0⟩ := n2 c.blocks.length (Nat.le_refl _) (Nat.lt_add_of_pos_right (by omega))
  refine ⟨((a1.trans a2).trans a4).goto (Nat.le_refl _) (a4.safe _ s0).1, (a4.empty s0 e0).start, fun i h1 h2 => ?_⟩
  obtain ⟨s, e⟩ := n2 i (Nat.le_of_lt h1) h2
  have s' := (a4.safe i s).1
  exact ⟨⟨s'.lt, by show i ≠ c.blocks.length; omega, s'.lab⟩, a4.empty s e⟩

theorem switchHead_stage {D : Name → Prop} (id : Nat) (ho : Open c) (hl : LabOk c) : SI D c (switchHead c id) ∧ Start (switchHead c id) ∧
    ∀ i, c.blocks.length < i → i < c.blocks.length + 3 → Safe i (switchHead c id) ∧ Empty (switchHead c id) i := by
  unfold switchHead
  generalize "switch.".toList ++ natDec id ++ ".stmts".toList = x1
  generalize "switch.".toList ++ natDec id ++ ".cmp".toList = x2
  generalize "switch.".toList ++ natDec id ++ ".end".toList = x3
  have a2 := SI.add3 (D := D) x1 x2 x3 ho.lt hl
  have n2 := add3_new x1 x2 x3 ho.lt hl
  have o2 := ho.add3 x1 x2 x3
  have a4 := SI.withTerm (D := D) (.br (c.blocks.length + 1)) o2 a2.lab
  obtain ⟨s0, e0⟩ := n2 c.blocks.length (Nat.le_refl _) (Nat.lt_add_of_pos_right (by omega))
  refine ⟨(a2.trans a4).goto (Nat.le_refl _) (a4.safe _ s0).1, (a4.empty s0 e0).start, fun i h1 h2 => ?_⟩
  obtain ⟨s, e⟩ := n2 i (Nat.le_of_lt h1) h2
  have s' := (a4.safe i s).1
  exact ⟨⟨s'.lt, by show i ≠ c.blocks.length; omega, s'.lab⟩, a4.empty s e⟩

/-- going on in a prepared block -/
theorem br_goto {D : Name → Prop} {c0 c3 : CState} {o3 : Bool} (b : Nat) {j : Nat} (h : SI D c0 c3) (hs : Status o3 c3)
    (hj : c0.blocks.length ≤ j) (s : Safe j c3) (e : Empty c3 j) : SI D c0 (goto' (brTo c3 b) j) ∧ Start (goto' (brTo c3 b) j) ∧
      ∀ i, i ≠ j → Safe i c3 → Empty c3 i → Safe i (goto' (brTo c3 b) j) ∧ Empty (goto' (brTo c3 b) j) i := by
  have a1 := SI.brTo (D := D) b hs h.lab
  refine ⟨(h.trans a1).goto hj (a1.safe j s).1, (a1.empty s e).start, fun i hi s e => ?_⟩
  have s' := (a1.safe i s).1
  exact ⟨⟨s'.lt, hi, s'.lab⟩, a1.empty s e⟩

/-- the facts about an `if` -/
structure IfStages (cn : Ex) (t e : St) (sw : Option Nat) (cs : Cases) (c : CState) (v : Val) (c1 : CState) (x3 : Cases) (c3 : CState)
    (x5 : Cases) (c5 : CState) (c' : CState) : Prop where
  opn : Open c
  opn1 : Open c1
  lab1 : LabOk c1
  si1 : SI (fun _ => False) c c1
  startT : Start (goto' (forkIf c1 v) c1.blocks.length)
  siT : SI (fun _ => False) c (goto' (forkIf c1 v) c1.blocks.length)
  statT : Stat t none true (goto' (forkIf c1 v) c1.blocks.length)
  postT : Post t none true [] (goto' (forkIf c1 v) c1.blocks.length) x3 c3
  siBr : SI (fun _ => False) c3 (brTo c3 (c1.blocks.length + 2))
  startE : Start (goto' (brTo c3 (c1.blocks.length + 2)) (c1.blocks.length + 1))
  statE : Stat e none true (goto' (brTo c3 (c1.blocks.length + 2)) (c1.blocks.length + 1))
  postE : Post e none true [] (goto' (brTo c3 (c1.blocks.length + 2)) (c1.blocks.length + 1)) x5 c5
  siBrE : SI (fun _ => False) c5 (brTo c5 (c1.blocks.length + 2))
  start' : Start c'
  post : Post (.ifElse cn t e) sw true cs c cs c'

/-- a condition without placed labels -/
theorem Stat.moved {s : St} {c1 : CState} (h : SI (fun _ => False) c c1)
    (names : s.All NameOk) (labels : s.labels.Nodup) (dist : s.Distinct) (cases : sw.isSome → s.cases.Nodup)
    (pendL : ∀ l ∈ s.labels, Pend l c)
    (pendC : ∀ id v, sw = some id → v ∈ s.cases → Pend (caseName id v) c)
    (pendF : ∀ id v, c.labelID ≤ id → Pend (caseName id v) c)
    (swlt : ∀ id, sw = some id → id < c1.labelID) (st : Status o c1) (ex : ∃ o', s.exit o = some o') : Stat s sw o c1 :=
  ⟨names, h.lab, labels, dist, cases, fun l hl => h.pend l id (pendL l hl), fun id v e hv => h.pend _ (fun h => h) (pendC id v e hv),
    fun id v hi => h.pend _ (fun h => h) (pendF id v (Nat.le_trans h.gr.id hi)), swlt, st, ex⟩

theorem if_static {cn : Ex} {t e : St} {v : Val} {c1 c3 c5 : CState} {x3 x5 : Cases} (H : Stat (.ifElse cn t e) sw o c)
    (h1 : genR cn c = .ok v c1) (h3 : genSt t none [] (goto' (forkIf c1 v) c1.blocks.length) = .ok x3 c3)
    (h5 : genSt e none [] (goto' (brTo c3 (c1.blocks.length + 2)) (c1.blocks.length + 1)) = .ok x5 c5)
    (it : ∀ c cs', Stat t none true c → ∀ c', genSt t none [] c = .ok cs' c' → Post t none true [] c cs' c')
    (ie : ∀ c cs', Stat e none true c → ∀ c', genSt e none [] c = .ok cs' c' → Post e none true [] c cs' c') :
    o = true ∧ IfStages cn t e sw cs c v c1 x3 c3 x5 c5 (goto' (brTo c5 (c1.blocks.length + 2)) (c1.blocks.length + 2)) := by
  obtain ⟨o', ho'⟩ := H.ex
  simp only [St.exit] at ho'
  cases o with
  | false => cases ho'
  | true =>
  rw [if_pos rfl] at ho'
  cases xt : t.exit true with
  | none => rw [xt] at ho'; cases ho'
  | some ot =>
  rw [xt, Option.bind_some] at ho'
  cases xe : e.exit true with
  | none => rw [xe] at ho'; cases ho'
  | some oe =>
  have hl := H.labels
  simp only [St.labels, List.nodup_append] at hl
  have ho := H.st.open
  obtain ⟨s1, o1⟩ := SI.genR (D := fun _ => False) h1 H.names.1 ho H.lab
  obtain ⟨s2, n2⟩ := fork_stage (D := fun _ => False) v o1 s1.lab
  obtain ⟨sf, ef⟩ := n2 c1.blocks.length (by omega) (by omega)
  have l1 := s1.gr.ext.length
  have sT := (s1.trans s2).goto l1 sf
  have stT : Start (goto' (forkIf c1 v) c1.blocks.length) := ef.start
  have HT : Stat t none true (goto' (forkIf c1 v) c1.blocks.length) := Stat.moved sT H.names.2.1 hl.1 H.dist.1 (by simp)
    (fun l h => H.pendL l (by simp [St.labels, h])) (by simp) H.pendF (by simp) stT.open.status ⟨_, xt⟩
  have pT := it _ _ HT _ h3
  have sT3 := (sT.mono (fun l (h : False) => h.elim)).trans pT.si
  have st3 := pT.st _ xt
  have safe3 : ∀ i, c1.blocks.length < i → i < c1.blocks.length + 3 → Safe i c3 ∧ Empty c3 i := by
    intro i h1 h2
    obtain ⟨a, b⟩ := n2 i (by omega) h2
    have a' : Safe i (goto' (forkIf c1 v) c1.blocks.length) := ⟨a.lt, by show i ≠ c1.blocks.length; omega, a.lab⟩
    exact ⟨(pT.si.safe i a').1, pT.si.empty a' b⟩
  obtain ⟨s31, e31⟩ := safe3 (c1.blocks.length + 1) (by omega) (by omega)
  obtain ⟨s32, e32⟩ := safe3 (c1.blocks.length + 2) (by omega) (by omega)
  obtain ⟨sE, stE, n4⟩ := br_goto (c1.blocks.length + 2) sT3 st3 (by omega) s31 e31
  obtain ⟨s42, e42⟩ := n4 _ (by omega) s32 e32
  have HE : Stat e none true (goto' (brTo c3 (c1.blocks.length + 2)) (c1.blocks.length + 1)) := by
    have hid : (goto' (brTo c3 (c1.blocks.length + 2)) (c1.blocks.length + 1)).labelID = c3.labelID := by
      show (brTo c3 _).labelID = _
      unfold brTo; split <;> rfl
    rw [← hid] at sE
    refine Stat.after (labels_all t H.names.2.1) sE sE.gr.id (by simp) H.names.2.2 hl.2.1 H.dist.2 (by simp)
      (fun l h => H.pendL l (by simp [St.labels, h])) (fun l h1 h2 => hl.2.2 l h2 l h1 rfl) (by simp) (by simp) H.pendF (by simp)
      stE.open.status ⟨_, xe⟩
  have pE := ie _ _ HE _ h5
  have st5 := pE.st _ xe
  have s52 := (pE.si.safe _ s42).1
  have e52 := pE.si.empty s42 e42
  have iT := sT.gr.id
  have iT3 := pT.si.gr.id
  have iE3 : c3.labelID = (goto' (brTo c3 (c1.blocks.length + 2)) (c1.blocks.length + 1)).labelID := by
    show c3.labelID = (brTo c3 _).labelID
    unfold brTo; split <;> rfl
  have iE5 := pE.si.gr.id
  have i' : c5.labelID = (goto' (brTo c5 (c1.blocks.length + 2)) (c1.blocks.length + 2)).labelID := by
    show c5.labelID = (brTo c5 _).labelID
    unfold brTo; split <;> rfl
  have all : SI (Placed (St.ifElse cn t e).labels sw (St.ifElse cn t e).cases c.labelID
      (goto' (brTo c5 (c1.blocks.length + 2)) (c1.blocks.length + 2)).labelID) c c5 := by
    refine (sE.mono (Placed.mono ?_ (by simp) (by omega) (by omega))).trans (pE.si.mono (Placed.mono ?_ (by simp) (by omega) (by omega)))
    · intro l h; simp [St.labels, h]
    · intro l h; simp [St.labels, h]
  obtain ⟨s', st', _⟩ := br_goto (c1.blocks.length + 2) all st5 (by omega) s52 e52
  refine ⟨rfl, ho, o1, s1.lab, s1, stT, sT, HT, pT, .brTo _ st3 pT.si.lab, stE, HE, pE, .brTo _ st5 pE.si.lab, st', s', ?_, by simp [St.cases], by simp [St.cases]⟩
  intro o' h
  simp only [St.exit, if_pos, xt, xe, Option.bind_some, Option.map_some, Option.some.injEq] at h
  subst h
  exact st'.open.status

theorem brTo_id (c : CState) (b : Nat) : (brTo c b).labelID = c.labelID := by
  unfold brTo; split <;> rfl

/-- the end of the condition of a `while` -/
def whileTest (c0 c1 : CState) (v : Val) : CState :=
  withTerm (emitted c1 (.icmp .ne v (.const 0))) (.condbr (.reg c1.nextReg) (c0.blocks.length + 1) (c0.blocks.length + 2))

/-- the facts about a `while` -/
structure WhileStages (cn : Ex) (b : St) (sw : Option Nat) (cs : Cases) (c : CState) (v : Val) (c1 : CState) (x3 : Cases) (c3 : CState)
    (c' : CState) : Prop where
  opn : Open c
  siH : SI (fun _ => False) c (whileHead c)
  startH : Start (whileHead c)
  si1 : SI (fun _ => False) (whileHead c) c1
  opn1 : Open c1
  si2 : SI (fun _ => False) c1 (whileTest c c1 v)
  siB : SI (fun _ => False) c (goto' (whileTest c c1 v) (c.blocks.length + 1))
  startB : Start (goto' (whileTest c c1 v) (c.blocks.length + 1))
  statB : Stat b none true (goto' (whileTest c c1 v) (c.blocks.length + 1))
  postB : Post b none true [] (goto' (whileTest c c1 v) (c.blocks.length + 1)) x3 c3
  siBr : SI (fun _ => False) c3 (brTo c3 c.blocks.length)
  start' : Start c'
  post : Post (.while cn b) sw true cs c cs c'

theorem while_static {cn : Ex} {b : St} {v : Val} {c1 c3 : CState} {x3 : Cases} (H : Stat (.while cn b) sw o c)
    (h1 : genR cn (whileHead c) = .ok v c1)
    (h3 : genSt b none [] (goto' (whileTest c c1 v) (c.blocks.length + 1)) = .ok x3 c3)
    (ib : ∀ c cs', Stat b none true c → ∀ c', genSt b none [] c = .ok cs' c' → Post b none true [] c cs' c') :
    o = true ∧ WhileStages cn b sw cs c v c1 x3 c3 (goto' (brTo c3 c.blocks.length) (c.blocks.length + 2)) := by
  obtain ⟨o', ho'⟩ := H.ex
  simp only [St.exit] at ho'
  cases o with
  | false => cases ho'
  | true =>
  rw [if_pos rfl] at ho'
  cases xt : b.exit true with
  | none => rw [xt] at ho'; cases ho'
  | some ot =>
  have ho := H.st.open
  obtain ⟨sH, stH, nH⟩ := whileHead_stage (D := fun _ => False) ho H.lab
  obtain ⟨s1, o1⟩ := SI.genR (D := fun _ => False) h1 H.names.1 stH.open sH.lab
  obtain ⟨a3, o3⟩ := SI.emit (D := fun _ => False) (emit_eq (.icmp .ne v (.const 0)) c1) o1 s1.lab
  have a4 := SI.withTerm (D := fun _ => False) (.condbr (.reg c1.nextReg) (c.blocks.length + 1) (c.blocks.length + 2)) o3 a3.lab
  have s2 : SI (fun _ => False) c1 (whileTest c c1 v) := a3.trans a4
  have s12 := s1.trans s2
  have safe2 : ∀ i, c.blocks.length < i → i < c.blocks.length + 3 → Safe i (whileTest c c1 v) ∧ Empty (whileTest c c1 v) i := by
    intro i h1 h2
    obtain ⟨a, b⟩ := nH i h1 h2
    exact ⟨(s12.safe i a).1, s12.empty a b⟩
  obtain ⟨sb, eb⟩ := safe2 (c.blocks.length + 1) (by omega) (by omega)
  have sB := (sH.trans s12).goto (j := c.blocks.length + 1) (by omega) sb
  have stB : Start (goto' (whileTest c c1 v) (c.blocks.length + 1)) := eb.start
  have HB : Stat b none true (goto' (whileTest c c1 v) (c.blocks.length + 1)) := Stat.moved sB H.names.2 H.labels H.dist (by simp)
    H.pendL (by simp) H.pendF (by simp) stB.open.status ⟨_, xt⟩
  have pB := ib _ _ HB _ h3
  have st3 := pB.st _ xt
  obtain ⟨se, ee⟩ := safe2 (c.blocks.length + 2) (by omega) (by omega)
  have se' : Safe (c.blocks.length + 2) (goto' (whileTest c c1 v) (c.blocks.length + 1)) :=
    ⟨se.lt, by show c.blocks.length + 2 ≠ c.blocks.length + 1; omega, se.lab⟩
  have i1 := sB.gr.id
  have i3 := pB.si.gr.id
  have i' : c3.labelID = (goto' (brTo c3 c.blocks.length) (c.blocks.length + 2)).labelID := (brTo_id c3 _).symm
  have all : SI (Placed (St.while cn b).labels sw (St.while cn b).cases c.labelID
      (goto' (brTo c3 c.blocks.length) (c.blocks.length + 2)).labelID) c c3 :=
    (sB.mono (fun l (h : False) => h.elim)).trans (pB.si.mono (Placed.mono (fun l h => h) (by simp) (by omega) (by omega)))
  obtain ⟨s', st', _⟩ := br_goto c.blocks.length all st3 (by omega) (pB.si.safe _ se').1 (pB.si.empty se' ee)
  refine ⟨rfl, ho, sH, stH, s1, o1, s2, sB, stB, HB, pB, .brTo _ st3 pB.si.lab, st', s', ?_, by simp [St.cases], by simp [St.cases]⟩
  intro o' h
  simp only [St.exit, if_pos, xt, Option.map_some, Option.some.injEq] at h
  subst h
  exact st'.open.status

/-- the terminator of the comparison block -/
def switchT (id : Nat) (v : Val) (d : Nat) (vs : Cases) (c : CState) : Term :=
  if vs = [] then .br d else .switch v d (vs.map fun w => (w, labelBlock (caseName id w) c))

theorem switchCases_eq (id : Nat) : ∀ (vs : Cases) (c : CState), (∀ w ∈ vs, (lookup (caseName id w) c.labels).isSome) →
    switchCases id vs c = .ok (vs.map fun w => (w, labelBlock (caseName id w) c)) c
  | [], _, _ => rfl
  | w :: vs, c, h => by
    have hw := h w (by simp)
    have e : withLabel (caseName id w) c = c := by
      unfold withLabel
      cases hl : lookup (caseName id w) c.labels with
      | none => rw [hl] at hw; cases hw
      | some b => rfl
    simp only [switchCases]
    rw [M.bind_ok (getOrCreateLabel_eq _ _), e, M.bind_ok (switchCases_eq id vs c fun x hx => h x (by simp [hx]))]
    rfl

theorem switchTerm_eq (id : Nat) (v : Val) (d : Nat) (vs : Cases) (c : CState) (h : ∀ w ∈ vs, (lookup (caseName id w) c.labels).isSome) :
    switchTerm id v d vs c = .ok () (withTerm c (switchT id v d vs c)) := by
  unfold switchTerm switchT
  by_cases hv : vs = []
  · subst hv; rfl
  · rw [if_pos hv, if_neg hv, M.bind_ok (switchCases_eq id vs c h)]; rfl

/-- the facts about a `switch` -/
structure SwitchStages (e : Ex) (b : St) (sw : Option Nat) (cs : Cases) (c : CState) (v : Val) (c1 : CState) (vs : Cases) (c3 : CState)
    (c4 : CState) : Prop where
  opn : Open c
  si1 : SI (fun _ => False) (bump c) c1
  opn1 : Open c1
  siH : SI (fun _ => False) c1 (switchHead c1 c.labelID)
  siB : SI (fun _ => False) c (switchHead c1 c.labelID)
  startB : Start (switchHead c1 c.labelID)
  statB : Stat b (some c.labelID) true (switchHead c1 c.labelID)
  postB : Post b (some c.labelID) true [] (switchHead c1 c.labelID) vs c3
  siBr : SI (fun _ => False) c3 (brTo c3 (c1.blocks.length + 2))
  startC : Start (goto' (brTo c3 (c1.blocks.length + 2)) (c1.blocks.length + 1))
  labC : LabOk (goto' (brTo c3 (c1.blocks.length + 2)) (c1.blocks.length + 1))
  look : ∀ w ∈ b.cases, (lookup (caseName c.labelID w) c3.labels).isSome
  eq4 : c4 = withTerm (goto' (brTo c3 (c1.blocks.length + 2)) (c1.blocks.length + 1))
    (switchT c.labelID v (c1.blocks.length + 2) b.cases (goto' (brTo c3 (c1.blocks.length + 2)) (c1.blocks.length + 1)))
  start' : Start (goto' c4 (c1.blocks.length + 2))
  post : Post (.switch e b) sw true cs c cs (goto' c4 (c1.blocks.length + 2))

theorem switch_static {e : Ex} {b : St} {v : Val} {c1 c3 c4 : CState} {vs : Cases} (H : Stat (.switch e b) sw o c)
    (h1 : genR e (bump c) = .ok v c1)
    (h3 : genSt b (some c.labelID) [] (switchHead c1 c.labelID) = .ok vs c3)
    (h4 : switchTerm c.labelID v (c1.blocks.length + 2) vs (goto' (brTo c3 (c1.blocks.length + 2)) (c1.blocks.length + 1)) = .ok () c4)
    (ib : ∀ id c cs', Stat b (some id) true c → ∀ c', genSt b (some id) [] c = .ok cs' c' → Post b (some id) true [] c cs' c') :
    o = true ∧ SwitchStages e b sw cs c v c1 vs c3 c4 := by
  obtain ⟨o', ho'⟩ := H.ex
  simp only [St.exit] at ho'
  cases o with
  | false => cases ho'
  | true =>
  rw [if_pos rfl] at ho'
  cases xt : b.exit true with
  | none => rw [xt] at ho'; cases ho'
  | some ot =>
  have ho := H.st.open
  have s0 := SI.bump (D := fun _ => False) H.lab
  have o0 : Open (bump c) := ho
  obtain ⟨s1, o1⟩ := SI.genR (D := fun _ => False) h1 H.names.1 o0 s0.lab
  obtain ⟨sH, stH, nH⟩ := switchHead_stage (D := fun _ => False) c.labelID o1 s1.lab
  have sB := (s0.trans s1).trans sH
  have l1 := (s0.trans s1).gr.ext.length
  have hid : c.labelID < (switchHead c1 c.labelID).labelID := by
    have := (s1.trans sH).gr.id
    have e : (bump c).labelID = c.labelID + 1 := rfl
    omega
  have HB : Stat b (some c.labelID) true (switchHead c1 c.labelID) := Stat.moved sB H.names.2 H.labels H.dist.2 (fun _ => H.dist.1)
    H.pendL (fun id v e _ => H.pendF id v (by cases e; exact Nat.le_refl _)) H.pendF (fun id e => by cases e; exact hid)
    stH.open.status ⟨_, xt⟩
  have pB := ib _ _ _ HB _ h3
  have st3 := pB.st _ xt
  have hvs : vs = b.cases := by have := pB.cs rfl; simpa using this
  have safe3 : ∀ i, c1.blocks.length < i → i < c1.blocks.length + 3 → Safe i c3 ∧ Empty c3 i := by
    intro i h1 h2
    obtain ⟨a, b⟩ := nH i h1 h2
    exact ⟨(pB.si.safe i a).1, pB.si.empty a b⟩
  obtain ⟨s31, e31⟩ := safe3 (c1.blocks.length + 1) (by omega) (by omega)
  obtain ⟨s32, e32⟩ := safe3 (c1.blocks.length + 2) (by omega) (by omega)
  have sB3 := (sB.mono (fun l (h : False) => h.elim)).trans pB.si
  obtain ⟨sC, stC, nC⟩ := br_goto (c1.blocks.length + 2) sB3 st3 (by omega) s31 e31
  obtain ⟨s42, e42⟩ := nC _ (by omega) s32 e32
  have hlook : ∀ w ∈ b.cases, (lookup (caseName c.labelID w) c3.labels).isSome := fun w hw => pB.placed _ w rfl hw
  subst hvs
  rw [switchTerm_eq] at h4
  rotate_left
  · intro w hw
    show (lookup _ (brTo c3 _).labels).isSome
    rw [brTo_labels]; exact hlook w hw
  cases h4
  have a4 := SI.withTerm (D := Placed b.labels (some c.labelID) b.cases (switchHead c1 c.labelID).labelID c3.labelID)
    (switchT c.labelID v (c1.blocks.length + 2) b.cases (goto' (brTo c3 (c1.blocks.length + 2)) (c1.blocks.length + 1))) stC.open sC.lab
  have s42' := (a4.safe _ s42).1
  have e42' := a4.empty s42 e42
  have all := (sC.trans a4).goto (by omega) s42'
  have i3 := pB.si.gr.id
  have iB := sB.gr.id
  have i' : c3.labelID = (goto' (withTerm (goto' (brTo c3 (c1.blocks.length + 2)) (c1.blocks.length + 1))
    (switchT c.labelID v (c1.blocks.length + 2) b.cases (goto' (brTo c3 (c1.blocks.length + 2)) (c1.blocks.length + 1))))
    (c1.blocks.length + 2)).labelID := (brTo_id c3 _).symm
  refine ⟨rfl, ho, s1, o1, sH, sB, stH, HB, pB, .brTo _ st3 pB.si.lab, stC, sC.lab, hlook, rfl, e42'.start,
    all.mono (Placed.mono (fun l h => h) ?_ (by omega) (by omega)), ?_, by simp [St.cases], by simp [St.cases]⟩
  · intro id v e hv
    cases e
    exact .inr ⟨Nat.le_refl _, by omega⟩
  · intro o' h
    simp only [St.exit, if_pos, xt, Option.map_some, Option.some.injEq] at h
    subst h
    exact e42'.start.open.status

/-- the facts about a labelled statement -/
theorem label_static {l : Name} {s : St} (H : Stat (.label l s) sw o c) :
    SI (fun m => m = l) c (goto' (brTo (withLabel l c) (labelBlock l c)) (labelBlock l c)) ∧
    Start (goto' (brTo (withLabel l c) (labelBlock l c)) (labelBlock l c)) ∧
    lookup l (goto' (brTo (withLabel l c) (labelBlock l c)) (labelBlock l c)).labels = some (labelBlock l c) ∧
    Stat s sw true (goto' (brTo (withLabel l c) (labelBlock l c)) (labelBlock l c)) := by
  have hl := H.labels
  simp only [St.labels, List.nodup_cons] at hl
  obtain ⟨a1, a2, a3⟩ := label_SI (D := fun m => m = l) H.st H.lab (H.pendL l (by simp [St.labels])) rfl
  have i : (goto' (brTo (withLabel l c) (labelBlock l c)) (labelBlock l c)).labelID = c.labelID := by
    show (brTo _ _).labelID = _
    rw [brTo_id]; unfold withLabel; split <;> rfl
  refine ⟨a1, a2, a3, ⟨H.names.2, a1.lab, hl.2, H.dist, H.cases, ?_, ?_, ?_, ?_, a2.open.status, H.ex⟩⟩
  · intro m hm
    exact a1.pend m (fun e => hl.1 (e ▸ hm)) (H.pendL m (by simp [St.labels, hm]))
  · intro id v e hv
    exact a1.pend _ (fun e => nameOk_ne_case H.names.1 _ _ e.symm) (H.pendC id v e hv)
  · intro id v hi
    exact a1.pend _ (fun e => nameOk_ne_case H.names.1 _ _ e.symm) (H.pendF id v (by omega))
  · intro id e; rw [i]; exact H.swlt id e

/-- the facts about a case -/
theorem case_static {id : Nat} {w : Word} {s : St} (H : Stat (.case w s) (some id) o c) :
    SI (fun m => m = caseName id w) c (goto' (brTo (withLabel (caseName id w) c) (labelBlock (caseName id w) c)) (labelBlock (caseName id w) c)) ∧
    Start (goto' (brTo (withLabel (caseName id w) c) (labelBlock (caseName id w) c)) (labelBlock (caseName id w) c)) ∧
    lookup (caseName id w) (goto' (brTo (withLabel (caseName id w) c) (labelBlock (caseName id w) c)) (labelBlock (caseName id w) c)).labels =
      some (labelBlock (caseName id w) c) ∧
    Stat s (some id) true (goto' (brTo (withLabel (caseName id w) c) (labelBlock (caseName id w) c)) (labelBlock (caseName id w) c)) := by
  have hc := H.cases rfl
  simp only [St.cases, List.nodup_cons] at hc
  obtain ⟨a1, a2, a3⟩ := label_SI (D := fun m => m = caseName id w) H.st H.lab (H.pendC id w rfl (by simp [St.cases])) rfl
  have i : (goto' (brTo (withLabel (caseName id w) c) (labelBlock (caseName id w) c)) (labelBlock (caseName id w) c)).labelID = c.labelID := by
    show (brTo _ _).labelID = _
    rw [brTo_id]; unfold withLabel; split <;> rfl
  refine ⟨a1, a2, a3, ⟨H.names, a1.lab, H.labels, H.dist, fun _ => hc.2, ?_, ?_, ?_, ?_, a2.open.status, H.ex⟩⟩
  · intro m hm
    exact a1.pend m (fun e => nameOk_ne_case (labels_all s H.names m hm) _ _ e) (H.pendL m hm)
  · intro id' v e hv
    cases e
    exact a1.pend _ (fun e => hc.1 ((caseName_inj e).2 ▸ hv)) (H.pendC id v rfl (by simp [St.cases, hv]))
  · intro id' v hi
    refine a1.pend _ (fun e => ?_) (H.pendF id' v (by omega))
    have := (caseName_inj e).1
    have := H.swlt id rfl
    omega
  · intro id' e; rw [i]; exact H.swlt id' e

/-- steps that do not concern the code -/
theorem SI.same {D : Name → Prop} (hl : LabOk c) (h1 : c'.blocks = c.blocks) (h2 : c'.cur = c.cur) (h3 : c'.locals = c.locals)
    (h4 : c'.labels = c.labels) (h5 : c'.nextReg = c.nextReg) (h6 : c'.labelID = c.labelID) : SI D c c' := by
  refine ⟨⟨by rw [h1]; exact .refl _, by rw [h3]; exact fun _ _ h => h, by rw [h3]; exact fun _ _ h => .inl h,
    by rw [h4]; exact fun _ _ h => h, by omega, by omega⟩, ⟨by rw [h4]; exact hl.inj, by rw [h4, h1]; exact hl.lt⟩, ?_, ?_⟩
  · intro i hi
    exact ⟨⟨by rw [h1]; exact hi.lt, by rw [h2]; exact hi.cur, by rw [h4]; exact hi.lab⟩, by rw [h1]⟩
  · intro l _ hp
    unfold Pend
    rw [h4, h1, h2]; exact hp

theorem genExtrn_code : ∀ (xs : List Name) {c c' : CState} {u : Unit}, genExtrn xs c = .ok u c' →
    c'.blocks = c.blocks ∧ c'.cur = c.cur ∧ c'.locals = c.locals ∧ c'.labels = c.labels ∧ c'.nextReg = c.nextReg ∧ c'.labelID = c.labelID
  | [], c, c', u, h => by
    simp only [genExtrn] at h; simp at h; subst h; exact ⟨rfl, rfl, rfl, rfl, rfl, rfl⟩
  | x :: xs, c, c', u, h => by
    simp only [genExtrn] at h
    obind h u1 c1 h1
    have k := genExtrn_code xs h
    have k1 : c1.blocks = c.blocks ∧ c1.cur = c.cur ∧ c1.locals = c.locals ∧ c1.labels = c.labels ∧ c1.nextReg = c.nextReg ∧
        c1.labelID = c.labelID := by
      unfold declareExtrn at h1
      cases hg : findGlobalByName c x with
      | some g => rw [hg] at h1; cases h1; exact ⟨rfl, rfl, rfl, rfl, rfl, rfl⟩
      | none =>
        rw [hg] at h1
        simp only at h1
        split at h1
        · cases h1; exact ⟨rfl, rfl, rfl, rfl, rfl, rfl⟩
        · cases h1
    obtain ⟨a1, a2, a3, a4, a5, a6⟩ := k
    obtain ⟨b1, b2, b3, b4, b5, b6⟩ := k1
    exact ⟨a1.trans b1, a2.trans b2, a3.trans b3, a4.trans b4, a5.trans b5, a6.trans b6⟩

theorem autoCheck_ok : ∀ (ds : List (Name × Option Word)) (seen : List Name) {c c' : CState} {u : Unit}, autoCheck seen ds c = .ok u c' →
    c' = c ∧ (∀ d ∈ ds, d.1 ∉ seen ∧ lookup d.1 c.locals = none) ∧ (ds.map (·.1)).Nodup
  | [], seen, c, c', u, h => by
    simp only [autoCheck] at h; simp at h; subst h; simp
  | d :: ds, seen, c, c', u, h => by
    simp only [autoCheck] at h
    rw [M.bind_ok (M.get_apply _)] at h
    replace h := ite_ok h
    rcases h with ⟨_, h⟩ | ⟨hn, h⟩
    · cases h
    · obtain ⟨e, h1, h2⟩ := autoCheck_ok ds _ h
      refine ⟨e, ?_, ?_⟩
      · intro d' hd'
        rcases List.mem_cons.1 hd' with rfl | hd'
        · refine ⟨fun h => hn (.inl h), ?_⟩
          cases hl : lookup d'.1 c.locals with
          | none => rfl
          | some v => exact absurd (.inr (by simp [hl])) hn
        · obtain ⟨a, b⟩ := h1 d' hd'
          exact ⟨fun h => a (by simp [h]), b⟩
      · simp only [List.map_cons, List.nodup_cons]
        refine ⟨fun h => ?_, h2⟩
        obtain ⟨d', h3, h4⟩ := List.mem_map.1 h
        exact (h1 d' h3).1 (by simp [h4])

/-- a new local -/
theorem SI.local {D : Name → Prop} {c1 : CState} {x : Name} {r : Nat} (h : SI D c c1) (hl : c1.locals = c.locals)
    (hx : lookup x c.locals = none) (h1 : c.nextReg ≤ r) (h2 : r < c1.nextReg) :
    SI D c { c1 with locals := insert x (.reg r) c1.locals } := by
  refine ⟨⟨h.gr.ext, ?_, ?_, h.gr.labels, h.gr.reg, h.gr.id⟩, ⟨h.lab.inj, h.lab.lt⟩, fun i hi => ?_, h.pend⟩
  · intro y v hy
    simp only [lookup_insert]
    split
    · rename_i e; subst e; rw [hx] at hy; cases hy
    · rw [hl]; exact hy
  · intro y v hy
    simp only [lookup_insert] at hy
    split at hy
    · cases hy; exact .inr ⟨r, rfl, h1, h2⟩
    · rw [hl] at hy; exact .inl hy
  · obtain ⟨a, b⟩ := h.safe i hi
    exact ⟨⟨a.lt, a.cur, a.lab⟩, b⟩

theorem emit_locals {i : Inst} {v : Val} {c c' : CState} (h : emit i c = .ok v c') : c'.locals = c.locals := by cases h; rfl

theorem emit_reg {i : Inst} {v : Val} {c c' : CState} (h : emit i c = .ok v c') : v = .reg c.nextReg ∧ c'.nextReg = c.nextReg + 1 := by
  cases h; exact ⟨rfl, rfl⟩

theorem declareOne_SI {D : Name → Prop} {x : Name} {n : Word} {u : Unit} (h : declareOne x n c = .ok u c') (ho : Open c) (hl : LabOk c)
    (hx : lookup x c.locals = none) : SI D c c' ∧ Open c' ∧ ∃ r, c'.locals = insert x (.reg r) c.locals := by
  unfold declareOne at h
  replace h := ite_ok h
  rcases h with ⟨_, h⟩ | ⟨_, h⟩
  · unfold declareLocal at h
    obind h a c1 h1
    obind h b c2 h2
    simp at h; subst h
    obtain ⟨s1, o1⟩ := SI.emit (D := D) h1 ho hl
    obtain ⟨s2, o2⟩ := SI.emit (D := D) h2 o1 s1.lab
    obtain ⟨rfl, r1⟩ := emit_reg h1
    obtain ⟨_, r2⟩ := emit_reg h2
    have e : c2.locals = c.locals := (emit_locals h2).trans (emit_locals h1)
    exact ⟨(s1.trans s2).local e hx (Nat.le_refl _) (by omega), o2, c.nextReg, by rw [e]⟩
  · unfold declareLocalArray at h
    obind h a c1 h1
    obind h b c2 h2
    obind h b3 c3 h3
    obind h b4 c4 h4
    obind h b5 c5 h5
    simp at h; subst h
    obtain ⟨s1, o1⟩ := SI.emit (D := D) h1 ho hl
    obtain ⟨s2, o2⟩ := SI.emit (D := D) h2 o1 s1.lab
    obtain ⟨s3, o3⟩ := SI.emit (D := D) h3 o2 s2.lab
    obtain ⟨s4, o4⟩ := SI.emit (D := D) h4 o3 s3.lab
    obtain ⟨s5, o5⟩ := SI.emit (D := D) h5 o4 s4.lab
    obtain ⟨_, r1⟩ := emit_reg h1
    obtain ⟨_, r2⟩ := emit_reg h2
    obtain ⟨_, r3⟩ := emit_reg h3
    obtain ⟨rfl, r4⟩ := emit_reg h4
    obtain ⟨_, r5⟩ := emit_reg h5
    have e : c5.locals = c.locals := (emit_locals h5).trans ((emit_locals h4).trans ((emit_locals h3).trans ((emit_locals h2).trans (emit_locals h1))))
    exact ⟨((((s1.trans s2).trans s3).trans s4).trans s5).local e hx (by omega) (by omega), o5, c3.nextReg, by rw [e]⟩

theorem declareAll_SI {D : Name → Prop} : ∀ (ds : List (Name × Option Word)) {c c' : CState} {u : Unit},
    declareAll (ds.map autoSizeOf) c = .ok u c' → Open c → LabOk c → (∀ d ∈ ds, lookup d.1 c.locals = none) → (ds.map (·.1)).Nodup →
    SI D c c' ∧ Open c'
  | [], c, c', u, h, ho, hl, _, _ => by
    simp only [List.map_nil, declareAll] at h; simp at h; subst h
    exact ⟨.refl hl, ho⟩
  | (x, n) :: ds, c, c', u, h, ho, hl, hx, hn => by
    simp only [List.map_cons, List.nodup_cons] at hn
    simp only [List.map_cons, autoSizeOf, declareAll] at h
    obind h u1 c1 h1
    obtain ⟨s1, o1, r, e1⟩ := declareOne_SI (D := D) h1 ho hl (hx (x, n) (by simp))
    obtain ⟨s2, o2⟩ := declareAll_SI ds h o1 s1.lab (fun d hd => by
      rw [e1, lookup_insert, if_neg (fun e : x = d.1 => hn.1 (List.mem_map.2 ⟨d, hd, e.symm⟩))]
      exact hx d (by simp [hd])) hn.2
    exact ⟨s1.trans s2, o2⟩

theorem goto_SI {D : Name → Prop} {l : Name} (ho : Open c) (hl : LabOk c) (h : genSt (.goto l) sw cs c = .ok cs' c') :
    SI D c c' ∧ Start c' ∧ Ext (withTerm (withLabel l c) (.br (labelBlock l c))).blocks c'.blocks := by
  obtain ⟨rfl, rfl⟩ := goto_run h
  have s1 := withLabel_SI (D := D) l ho.lt hl
  have o1 := (withLabel_status l ho.status).open
  have s2 := SI.withTerm (D := D) (.br (labelBlock l c)) o1 s1.lab
  have l2 : (withTerm (withLabel l c) (.br (labelBlock l c))).blocks.length = (withLabel l c).blocks.length := withTerm_length _ _
  have s3 := SI.append (D := D) [(⟨"unreachable.".toList ++ natDec (withLabel l c).labelID, [], none⟩ : Block)]
    (by rw [l2]; exact o1.lt) s2.lab
  have s4 := SI.bump (D := D) s3.lab
  have all := ((s1.trans s2).trans s3).trans s4
  have hlt := o1.lt
  have sf : Safe (withLabel l c).blocks.length (bump { (withTerm (withLabel l c) (.br (labelBlock l c))) with
      blocks := (withTerm (withLabel l c) (.br (labelBlock l c))).blocks ++ [⟨"unreachable.".toList ++ natDec (withLabel l c).labelID, [], none⟩] }) := by
    refine ⟨?_, ?_, ?_⟩
    · show _ < List.length (_ ++ _)
      rw [List.length_append, l2]; simp
    · show _ ≠ (withLabel l c).cur
      omega
    · intro m hm
      have := s1.lab.lt m _ hm; omega
  refine ⟨all.goto s1.gr.ext.length sf, ⟨⟨"unreachable.".toList ++ natDec (withLabel l c).labelID, [], none⟩, ?_, rfl, rfl⟩, Ext.append _ _⟩
  show ((withTerm (withLabel l c) (.br (labelBlock l c))).blocks ++ [_])[(withLabel l c).blocks.length]? = _
  rw [← l2]; simp

theorem exit_true {s : St} {r : Bool} (h : ∃ o', s.exit o = some o') (hs : ∀ o, s.exit o = if o then some r else none) : o = true := by
  obtain ⟨o', h⟩ := h
  rw [hs] at h
  cases o with
  | true => rfl
  | false => cases h
end

/-- **Static facts** -/
theorem genSt_static : ∀ (s : St) (sw : Option Nat) (o : Bool) (cs : Cases) (c : CState) (cs' : Cases) (c' : CState),
    Stat s sw o c → genSt s sw cs c = .ok cs' c' → Post s sw o cs c cs' c' := by
  intro s
  induction s with
  | skip =>
    intro sw o cs c cs' c' H h
    simp only [genSt] at h; simp at h; obtain ⟨rfl, rfl⟩ := h
    exact .simple rfl (.refl H.lab) (fun o' h => by cases h; exact H.st)
  | seq s t ih1 ih2 =>
    intro sw o cs c cs' c' H h
    obtain ⟨cs1, c1, h1, h2⟩ := seq_run h
    have p := ih1 _ _ _ _ _ _ (seq_first H) h1
    obtain ⟨o1, e1, H2⟩ := seq_second H p
    exact seq_static p e1 (ih2 _ _ _ _ _ _ H2 h2)
  | expr e =>
    intro sw o cs c cs' c' H h
    simp only [genSt] at h
    obind h v c1 h1
    simp at h; obtain ⟨rfl, rfl⟩ := h
    have ho := exit_true H.ex (r := true) (fun o => rfl)
    subst ho
    obtain ⟨s1, o1⟩ := SI.genR (D := fun _ => False) h1 H.names H.st.open H.lab
    exact .simple rfl s1 (fun o' h => by simp [St.exit] at h; subst h; exact o1.status)
  | ret e =>
    intro sw o cs c cs' c' H h
    have ho := exit_true H.ex (r := false) (fun o => rfl)
    subst ho
    cases e with
    | none =>
      simp only [genSt] at h
      rw [M.bind_ok (setTerm_eq _ _)] at h
      simp at h; obtain ⟨rfl, rfl⟩ := h
      exact .simple rfl (.withTerm _ H.st.open H.lab) (fun o' h => by simp [St.exit] at h; subst h; exact withTerm_status _ H.st.open)
    | some e =>
      simp only [genSt] at h
      obind h v c1 h1
      rw [M.bind_ok (setTerm_eq _ _)] at h
      simp at h; obtain ⟨rfl, rfl⟩ := h
      obtain ⟨s1, o1⟩ := SI.genR (D := fun _ => False) h1 H.names H.st.open H.lab
      exact .simple rfl (s1.trans (.withTerm _ o1 s1.lab)) (fun o' h => by simp [St.exit] at h; subst h; exact withTerm_status _ o1)
  | auto ds =>
    intro sw o cs c cs' c' H h
    have ho := exit_true H.ex (r := true) (fun o => rfl)
    subst ho
    simp only [genSt] at h
    obind h u c1 h1
    obind h u2 c2 h2
    simp at h; obtain ⟨rfl, rfl⟩ := h
    obtain ⟨rfl, a1, a2⟩ := autoCheck_ok _ _ h1
    obtain ⟨s1, o1⟩ := declareAll_SI (D := fun _ => False) ds h2 H.st.open H.lab (fun d hd => (a1 d hd).2) a2
    exact .simple rfl s1 (fun o' h => by simp [St.exit] at h; subst h; exact o1.status)
  | extrn xs =>
    intro sw o cs c cs' c' H h
    simp only [genSt] at h
    obind h u c1 h1
    simp at h; obtain ⟨rfl, rfl⟩ := h
    obtain ⟨a1, a2, a3, a4, a5, a6⟩ := genExtrn_code _ h1
    refine .simple rfl (.same H.lab a1 a2 a3 a4 a5 a6) (fun o' h => ?_)
    simp only [St.exit, Option.some.injEq] at h
    subst h
    unfold Status
    rw [a1, a2]; exact H.st
  | ifThen cn t ih =>
    intro sw o cs c cs' c' H h
    rw [genSt_ifThen] at h
    obtain ⟨v, c1, x3, c3, x5, c5, h1, h3, h5, rfl, rfl⟩ := if_run h
    have hx : ∀ o, (St.ifElse cn t .skip).exit o = (St.ifThen cn t).exit o := by
      intro o; simp only [St.exit]; split
      · cases t.exit true <;> rfl
      · rfl
    have H' : Stat (.ifElse cn t .skip) sw o c := by
      refine ⟨⟨H.names.1, H.names.2, trivial⟩, H.lab, ?_, ⟨H.dist, trivial⟩, fun h => H.cases h, ?_, H.pendC, H.pendF, H.swlt, H.st, by rw [hx]; exact H.ex⟩
      · simpa [St.labels] using H.labels
      · simpa [St.labels] using H.pendL
    obtain ⟨rfl, I⟩ := if_static (cs := cs') H' h1 h3 h5 (fun c cs' H c' h => ih _ _ _ _ _ _ H h) (fun c cs' H c' h => by
      simp only [genSt] at h; simp at h; obtain ⟨rfl, rfl⟩ := h
      exact .simple rfl (.refl H.lab) (fun o' h => by cases h; exact H.st))
    have p := I.post
    refine ⟨?_, by rw [← hx]; exact p.st, p.cs, p.placed⟩
    have := p.si
    simpa [St.labels, St.cases] using this
  | ifElse cn t e ih1 ih2 =>
    intro sw o cs c cs' c' H h
    obtain ⟨v, c1, x3, c3, x5, c5, h1, h3, h5, rfl, rfl⟩ := if_run h
    obtain ⟨rfl, I⟩ := if_static (cs := cs') H h1 h3 h5 (fun c cs' H c' h => ih1 _ _ _ _ _ _ H h) (fun c cs' H c' h => ih2 _ _ _ _ _ _ H h)
    exact I.post
  | «while» cn b ih =>
    intro sw o cs c cs' c' H h
    obtain ⟨v, c1, x3, c3, h1, h3, rfl, rfl⟩ := while_run h
    obtain ⟨rfl, I⟩ := while_static (cs := cs') H h1 h3 (fun c cs' H c' h => ih _ _ _ _ _ _ H h)
    exact I.post
  | switch e b ih =>
    intro sw o cs c cs' c' H h
    obtain ⟨v, c1, vs, c3, c4, h1, h3, h4, rfl, rfl⟩ := switch_run h
    obtain ⟨rfl, I⟩ := switch_static (cs := cs') H h1 h3 h4 (fun id c cs' H c' h => ih _ _ _ _ _ _ H h)
    exact I.post
  | case v s ih =>
    intro sw o cs c cs' c' H h
    obtain ⟨id, rfl, h⟩ := case_run h
    obtain ⟨a1, a2, a3, a4⟩ := case_static H
    have p := ih _ _ _ _ _ _ a4 h
    have i1 := a1.gr.id
    have i2 := p.si.gr.id
    refine ⟨(a1.mono ?_).trans (p.si.mono (Placed.mono (fun l h => h) ?_ i1 (Nat.le_refl _))), ?_, ?_, ?_⟩
    · rintro _ rfl
      exact .inr (.inl ⟨id, v, rfl, by simp [St.cases], rfl⟩)
    · intro id v e h; left; simp [St.cases, e, h]
    · intro o' h
      exact p.st o' h
    · intro h; rw [p.cs h]; simp [St.cases]
    · intro id' v' e h
      cases e
      simp only [St.cases, List.mem_cons] at h
      rcases h with rfl | h
      · rw [p.si.gr.labels _ _ a3]; rfl
      · exact p.placed _ _ rfl h
  | label l s ih =>
    intro sw o cs c cs' c' H h
    have h := label_run h
    obtain ⟨a1, a2, a3, a4⟩ := label_static H
    have p := ih _ _ _ _ _ _ a4 h
    have i1 := a1.gr.id
    have i2 := p.si.gr.id
    refine ⟨(a1.mono ?_).trans (p.si.mono (Placed.mono (fun l h => ?_) ?_ i1 (Nat.le_refl _))), fun o' h => p.st o' h, p.cs, p.placed⟩
    · rintro _ rfl
      exact .inl (by simp [St.labels])
    · simp [St.labels, h]
    · intro id v e h; left; exact ⟨e, h⟩
  | goto l =>
    intro sw o cs c cs' c' H h
    have ho := exit_true H.ex (r := true) (fun o => rfl)
    subst ho
    obtain ⟨s1, st1, _⟩ := goto_SI (D := fun _ => False) H.st.open H.lab h
    obtain ⟨_, rfl⟩ := goto_run h
    exact .simple rfl s1 (fun o' h => by simp [St.exit] at h; subst h; exact st1.open.status)

end Blang
