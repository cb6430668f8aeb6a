import Verif.Proofs.SsaEx
/-
Statements and functions keep the invariant.
-/
namespace Blang
open Spec

macro "ncarry" : tactic => `(tactic| repeat (first | assumption | (refine EE.nk (by assumption) ?_) | (refine SE.nk (by assumption) (Nat.le_refl _) ?_)))

section
variable {α β : Type} {g : GS} {n : Nat}

theorem XS.seq {ok1 : GS → α → Prop} {ok2 : GS → β → Prop} {f : B α} {k : α → B β} (hn : n ≤ g.len) (hf : XS g.len g f ok1)
    (hg : ∀ a g1, SE g.len g g1 → n ≤ g1.len → ok1 g1 a → XS n g1 (k a) ok2) : XS n g (f >>= k) ok2 :=
  XS.bind g.len hn hf fun a g1 h => hg a g1 h (Nat.le_trans hn h.le.len)

theorem XS.seqE {ok1 : GS → α → Prop} {ok2 : GS → β → Prop} {f : B α} {k : α → B β} (hn : n ≤ g.len) (hf : XE g f ok1)
    (hg : ∀ a g1, EE g g1 → n ≤ g1.len → ok1 g1 a → XS n g1 (k a) ok2) : XS n g (f >>= k) ok2 :=
  XS.bindE hn hf fun a g1 h => hg a g1 h (Nat.le_trans hn h.len)

theorem XS.weaken {ok : GS → α → Prop} {f : B α} {m : Nat} (h : XS m g f ok) (hn : n ≤ m) : XS n g f ok := by
  intro a c' hc hi
  obtain ⟨G', i, l, o⟩ := h a c' hc hi
  exact ⟨G', i, l.weaken hn, o⟩

theorem nkTargets1 {b : Nat} (h : NK g b) : ∀ j ∈ Term.targets (.br b), NK g j := by
  intro j hj; rw [List.mem_singleton.1 hj]; exact h

theorem XS.brIfOpen (b : Nat) (hb : NK g b) : XS n g (brIfOpen b) (fun _ _ => True) :=
  XS.get fun _ => XS.ite (fun _ => by
    intro a c' hc hi
    obtain ⟨G', i, l, _⟩ := XS.setTerm (n := n) (.br b) nofun (nkTargets1 hb) a c' hc hi
    exact ⟨G', i, l, trivial⟩) (fun _ => XS.pure _ trivial)

theorem XS.st (t : Term) (hv : ∀ v ∈ Term.operands t, VA g v) (ht : ∀ j ∈ Term.targets t, NK g j) : XS n g (Blang.setTerm t) (fun _ _ => True) := by
  intro a c' hc hi
  obtain ⟨G', i, l, _⟩ := XS.setTerm (n := n) t hv ht a c' hc hi
  exact ⟨G', i, l, trivial⟩

theorem XS.ip (b : Nat) (hb : NK g b) : XS n g (Blang.setInsertPoint b) (fun _ _ => True) := by
  intro a c' hc hi
  obtain ⟨G', i, l, _⟩ := XS.setInsertPoint (n := n) b hb a c' hc hi
  exact ⟨G', i, l, trivial⟩

theorem XE.nb (nm : Name) : XE g (Blang.newBlock nm) NK := (XE.newBlock nm).imp fun _ _ h => h.1
theorem XE.fl : XE g Blang.freshLabelID (fun _ _ => True) := XE.freshLabelID.imp fun _ _ _ => trivial

theorem XS.genLabel (hn : n ≤ g.len) (l : Name) : XS n g (genLabel l) (fun _ _ => True) :=
  XS.seqE hn (XE.getOrCreateLabel l) fun b g1 h1 n1 hb => XS.seq n1 (XS.brIfOpen b hb) fun _ g2 h2 n2 _ => XS.ip _ (by ncarry)

theorem XS.genGoto (hn : n ≤ g.len) (l : Name) : XS n g (genGoto l) (fun _ _ => True) :=
  XS.seqE hn (XE.getOrCreateLabel l) fun b g1 h1 n1 hb => XS.seq n1 (XS.st _ nofun (nkTargets1 hb)) fun _ g2 h2 n2 _ => XS.get fun _ =>
    XS.seqE n2 (XE.nb _) fun d g3 h3 n3 hd => XS.seqE n3 XE.fl fun _ g4 h4 n4 _ => XS.ip _ (by ncarry)

theorem nkTargets2 {v : Val} {b b' : Nat} (h : NK g b) (h' : NK g b') : ∀ j ∈ Term.targets (.condbr v b b'), NK g j := by
  intro j hj
  rcases List.mem_cons.1 hj with rfl | hj
  · exact h
  · rw [List.mem_singleton.1 hj]; exact h'

theorem XS.ifStart (hn : n ≤ g.len) (v : Val) (hv : VA g v) : XS n g (ifStart v) (fun g b => NK g b.1 ∧ NK g b.2.1 ∧ NK g b.2.2) :=
  XS.seqE hn XE.fl fun i g1 h1 n1 _ => XS.seqE n1 (XE.nb _) fun b1 g2 h2 n2 k1 => XS.seqE n2 (XE.nb _) fun b2 g3 h3 n3 k2 =>
    XS.seqE n3 (XE.nb _) fun b3 g4 h4 n4 k3 => XS.seqE n4 (XE.emitV _ id (all2 (by vcarry) .const)) fun d g5 h5 n5 hd =>
    XS.seq n5 (XS.st _ (all1 hd) (nkTargets2 (by ncarry) (by ncarry))) fun _ g6 h6 n6 _ => XS.pure _ ⟨by ncarry, by ncarry, by ncarry⟩

theorem XS.whileStart (hn : n ≤ g.len) : XS n g whileStart (fun g b => NK g b.1 ∧ NK g b.2.1 ∧ NK g b.2.2) :=
  XS.seqE hn XE.fl fun i g1 h1 n1 _ => XS.seqE n1 (XE.nb _) fun b1 g2 h2 n2 k1 => XS.seqE n2 (XE.nb _) fun b2 g3 h3 n3 k2 =>
    XS.seqE n3 (XE.nb _) fun b3 g4 h4 n4 k3 => XS.seq n4 (XS.st _ nofun (nkTargets1 (by ncarry))) fun _ g6 h6 n6 _ =>
    XS.seq n6 (XS.ip _ (by ncarry)) fun _ g7 h7 n7 _ => XS.pure _ ⟨by ncarry, by ncarry, by ncarry⟩

/-- the comparison block of a `switch` that is still open; `v` is available in it -/
structure Cmp (g : GS) (b : Nat) (v : Val) : Prop where
  k : g.G.K b
  lt : b < g.len
  ne : b ≠ g.c.cur
  term : termAt g.c.blocks b = none
  va : VOut g.G g.c.blocks b v

theorem Cmp.se {g' : GS} {b : Nat} {v : Val} {m : Nat} (h : Cmp g b v) (l : SE m g g') (hm : g.len ≤ m) : Cmp g' b v := by
  have hl := h.lt
  have hb : b < m := by omega
  refine ⟨(l.K b hb).2 h.k, Nat.lt_of_lt_of_le hl l.le.len, ?_, ?_, l.le.vout (fun a ha => (l.D b a hb).2 ha) h.va⟩
  · intro e
    rw [e] at hb
    exact h.ne (e.trans (l.cur hb (by rw [← e]; exact (l.K b (e ▸ hb)).2 h.k)))
  · unfold termAt; rw [l.keep b hb h.k h.ne]; exact h.term

theorem XS.switchStart (hn : n ≤ g.len) (id : Nat) (v : Val) (hv : VA g v) : XS n g (switchStart id) (fun g b => Cmp g b.1 v ∧ NK g b.2 ∧ n ≤ b.1) := by
  refine XS.seqE hn (XE.nb _) fun s g1 h1 n1 hs => XS.seqE n1 (XE.newFresh _ (Out g1.G g1.c.blocks g1.c.cur)) fun m g2 h2 n2 hm =>
    XS.seqE n2 (XE.newBlock _) fun e g3 h3 n3 he => ?_
  obtain ⟨fm, em, _⟩ := hm
  obtain ⟨he, ee⟩ := he
  have fm := fm.ee h3
  have hs := h3.nk (h2.nk hs)
  have hsm : s ≠ m := fun e => hs.nk (e ▸ fm.k)
  have hv1 := h1.va hv
  have hv3 : VOut g3.G g3.c.blocks m v := fun a e => (hv1 a e).imp (fun h => h3.le.localAddr (h2.le.localAddr h)) (fun h => .inl ((fm.d a).2 h))
  have ho : ∀ a, Out g1.G g1.c.blocks g1.c.cur a → Out g3.G g3.c.blocks g3.c.cur a := fun a h => h3.out a (h2.out a h)
  clear h1 h2 h3 hv1 n2 ee hv
  intro r c' hc hi
  obind hc u c4 h4
  cases h4
  obind hc u c5 h5
  cases h5
  cases hc
  have i4 := hi.putTerm (.br m) nofun (by intro j hj; rw [List.mem_singleton.1 hj]; exact ⟨_, _, fm, ho⟩)
  have fm4 := fm.putTerm (.br m) (P' := fun _ => True) (fun _ _ => trivial) (fun _ => trivial)
  have hl : (g3.c.blocks.modify g3.c.cur (putTerm (.br m))).length = g3.c.blocks.length := List.length_modify ..
  have hnm : n ≤ m := by rw [em]; omega
  refine ⟨g3.G, i4.move s (Nat.lt_of_lt_of_eq hs.lt hl.symm) (.inl hs.nk), ⟨putTerm_le, ?_, fun _ _ => .rfl, fun _ _ _ => .rfl, ?_, ?_⟩, ?_, ?_, hnm⟩
  · intro i _ _ hi; exact modify_ne (Ne.symm hi)
  · intro i j hj _ he
    rcases edge_putTerm he with ⟨_, h⟩ | ⟨_, he⟩
    · rw [List.mem_singleton.1 h] at hj; omega
    · exact he
  · intro _ hk; exact absurd hk hs.nk
  · exact ⟨fm.k, fm4.lt, hsm.symm, fm4.term, putTerm_le.vout (fun _ h => h) hv3⟩
  · exact ⟨he.pos, Nat.lt_of_lt_of_eq he.lt hl.symm, he.nk⟩

theorem XE.switchCases (id : Nat) : ∀ (vs : Cases) (g : GS), XE g (switchCases id vs) (fun g ps => ∀ p ∈ ps, NK g p.2)
  | [], g => XE.pure _ nofun
  | v :: vs, g => XE.bind (XE.getOrCreateLabel _) fun b g1 h1 hb => XE.bind (XE.switchCases id vs g1) fun ps g2 h2 hps => XE.pure _ (by
      intro p hp
      rcases List.mem_cons.1 hp with rfl | hp
      · exact h2.nk hb
      · exact hps p hp)

theorem XS.switchTerm (hn : n ≤ g.len) (id : Nat) (v : Val) (b : Nat) (vs : Cases) (hv : VA g v) (hb : NK g b) : XS n g (switchTerm id v b vs) (fun _ _ => True) := by
  unfold Blang.switchTerm
  refine XS.ite (fun _ => XS.seqE hn (XE.switchCases id vs g) fun ps g1 h1 n1 hps => XS.st _ (all1 (h1.va hv)) ?_) (fun _ => XS.st _ nofun (nkTargets1 hb))
  intro j hj
  rcases List.mem_cons.1 hj with rfl | hj
  · exact h1.nk hb
  · obtain ⟨p, hp, rfl⟩ := List.mem_map.1 hj
    exact hps p hp

theorem XE.genExtrn : ∀ (xs : List Name) (g : GS), XE g (genExtrn xs) (fun _ _ => True)
  | [], g => XE.pure _ trivial
  | x :: xs, g => XE.bind (XE.declareExtrn x) fun _ g1 h1 _ => XE.genExtrn xs g1

theorem XE.autoCheck : ∀ (ds : List (Name × Option Word)) (seen : List Name) (g : GS), XE g (autoCheck seen ds) (fun _ _ => True)
  | [], seen, g => XE.pure _ trivial
  | d :: ds, seen, g => XE.get fun _ => XE.ite (fun _ => XE.fail) (fun _ => XE.autoCheck ds _ _)

theorem EE.la {g g' : GS} (h : EE g g') {v : Val} (hv : ∃ a, v = .reg a ∧ LocalAddr g.c.blocks a) : ∃ a, v = .reg a ∧ LocalAddr g'.c.blocks a := by
  obtain ⟨a, e, ha⟩ := hv; exact ⟨a, e, h.le.localAddr ha⟩

theorem RegOf.la {i : Inst} {v : Val} (h : RegOf i g v) (hi : Inst.makesLocal i) : ∃ a, v = .reg a ∧ LocalAddr g.c.blocks a := by
  obtain ⟨_, a, e, ha⟩ := h; exact ⟨a, e, ha hi⟩

theorem XE.declareLocal (x : Name) : XE g (declareLocal x) (fun _ _ => True) :=
  XE.bind (XE.emit (.alloca .i64) id nofun) fun a g1 h1 ha => XE.bind (XE.emitV _ id (all2 .const ha.1)) fun _ g2 h2 _ => XE.addLocal _ _ (h2.la (ha.la trivial))

theorem XE.declareLocalArray (x : Name) (k : W) : XE g (declareLocalArray x k) (fun _ _ => True) :=
  XE.bind (XE.emit (.alloca _) id nofun) fun a g1 h1 ha => XE.bind (XE.emitV _ id (all1 ha.1)) fun b g2 h2 hb =>
    XE.bind (XE.emitV _ id (all1 hb)) fun p g3 h3 hp => XE.bind (XE.emit (.gepField _ a 0) id (all1 (h3.va (h2.va ha.1)))) fun q g4 h4 hq =>
    XE.bind (XE.emitV _ id (all2 (h4.va hp) hq.1)) fun _ g5 h5 _ => XE.addLocal _ _ (h5.la (hq.la (by
      obtain ⟨_, r, rfl, _⟩ := ha; trivial)))

theorem XE.declareAll : ∀ (ds : List (Name × W)) (g : GS), XE g (declareAll ds) (fun _ _ => True)
  | [], g => XE.pure _ trivial
  | d :: ds, g => XE.bind (XE.ite (fun _ => XE.declareLocal _) (fun _ => XE.declareLocalArray _ _)) fun _ g1 h1 _ => XE.declareAll ds g1

theorem XS.genSt : ∀ (s : St) (sw : Option Nat) (cs : Cases) (n : Nat) (g : GS), n ≤ g.len → XS n g (genSt s sw cs) (fun _ _ => True)
  | .skip, _, _, n, g, hn => XS.pure _ trivial
  | .seq s t, sw, cs, n, g, hn => XS.seq hn (XS.genSt s sw cs _ g (Nat.le_refl _)) fun cs g1 h1 n1 _ => XS.genSt t sw cs n g1 n1
  | .expr e, _, _, n, g, hn => XS.seqE hn (XE.genR e g) fun _ _ _ _ _ => XS.pure _ trivial
  | .ret none, _, _, n, g, hn => XS.seq hn (XS.st _ (all1 .const) nofun) fun _ _ _ _ _ => XS.pure _ trivial
  | .ret (some e), _, _, n, g, hn => XS.seqE hn (XE.genR e g) fun v g1 h1 n1 hv => XS.seq n1 (XS.st _ (all1 hv) nofun) fun _ _ _ _ _ => XS.pure _ trivial
  | .auto ds, _, _, n, g, hn => XS.seqE hn (XE.autoCheck ds [] g) fun _ g1 h1 n1 _ => XS.seqE n1 (XE.declareAll _ g1) fun _ _ _ _ _ => XS.pure _ trivial
  | .extrn xs, _, _, n, g, hn => XS.seqE hn (XE.genExtrn xs g) fun _ _ _ _ _ => XS.pure _ trivial
  | .ifThen c t, _, _, n, g, hn => XS.seqE hn (XE.genR c g) fun v g1 h1 n1 hv => XS.seq n1 (XS.ifStart (Nat.le_refl _) v hv) fun bs g2 h2 n2 hb =>
      have ⟨l1, l2, l3⟩ := hb
      XS.seq n2 (XS.ip _ l1) fun _ g3 h3 n3 _ =>
      XS.seq n3 (XS.genSt t none [] _ g3 (Nat.le_refl _)) fun _ g4 h4 n4 _ => XS.seq n4 (XS.brIfOpen _ (by ncarry)) fun _ g5 h5 n5 _ =>
      XS.seq n5 (XS.ip _ (by ncarry)) fun _ g6 h6 n6 _ =>
      XS.seq n6 (XS.brIfOpen _ (by ncarry)) fun _ g7 h7 n7 _ => XS.seq n7 (XS.ip _ (by ncarry)) fun _ g8 h8 _ _ => XS.pure _ trivial
  | .ifElse c t e, _, _, n, g, hn => XS.seqE hn (XE.genR c g) fun v g1 h1 n1 hv => XS.seq n1 (XS.ifStart (Nat.le_refl _) v hv) fun bs g2 h2 n2 hb =>
      have ⟨l1, l2, l3⟩ := hb
      XS.seq n2 (XS.ip _ l1) fun _ g3 h3 n3 _ =>
      XS.seq n3 (XS.genSt t none [] _ g3 (Nat.le_refl _)) fun _ g4 h4 n4 _ => XS.seq n4 (XS.brIfOpen _ (by ncarry)) fun _ g5 h5 n5 _ =>
      XS.seq n5 (XS.ip _ (by ncarry)) fun _ g6 h6 n6 _ => XS.seq n6 (XS.genSt e none [] _ g6 (Nat.le_refl _)) fun _ g7 h7 n7 _ =>
      XS.seq n7 (XS.brIfOpen _ (by ncarry)) fun _ g8 h8 n8 _ => XS.seq n8 (XS.ip _ (by ncarry)) fun _ g9 h9 _ _ => XS.pure _ trivial
  | .while c b, _, _, n, g, hn => XS.seq hn (XS.whileStart (Nat.le_refl _)) fun bs g1 h1 n1 hb =>
      have ⟨l1, l2, l3⟩ := hb
      XS.seqE n1 (XE.genR c g1) fun v g2 h2 n2 hv => XS.seqE n2 (XE.emitV _ id (all2 hv .const)) fun d g3 h3 n3 hd =>
      XS.seq n3 (XS.st _ (all1 hd) (nkTargets2 (by ncarry) (by ncarry))) fun _ g4 h4 n4 _ =>
      XS.seq n4 (XS.ip _ (by ncarry)) fun _ g5 h5 n5 _ => XS.seq n5 (XS.genSt b none [] _ g5 (Nat.le_refl _)) fun _ g6 h6 n6 _ =>
      XS.seq n6 (XS.brIfOpen _ (by ncarry)) fun _ g7 h7 n7 _ =>
      XS.seq n7 (XS.ip _ (by ncarry)) fun _ g8 h8 _ _ => XS.pure _ trivial
  | .switch e b, _, _, n, g, hn => XS.seqE hn XE.fl fun id g1 h1 n1 _ => XS.seqE n1 (XE.genR e g1) fun v g2 h2 n2 hv =>
      XS.seq n2 (XS.switchStart (Nat.le_refl _) id v hv) fun bs g3 h3 n3 hb =>
      have ⟨l1, l2, l3⟩ := hb
      XS.seq n3 (XS.genSt b (some id) [] _ g3 (Nat.le_refl _)) fun vs g4 h4 n4 _ => XS.seq n4 (XS.brIfOpen _ (by ncarry)) fun _ g5 h5 n5 _ =>
      have q := (l1.se h4 (Nat.le_refl _)).se h5 (Nat.le_refl _)
      have k : NK g5 bs.2 := by ncarry
      XS.bind n (Nat.le_refl _) (XS.setInsertOpen _ q.lt q.term (Nat.le_trans n2 l3)) fun _ g6 h6 e6 => by
        subst e6
        exact XS.seq n5 (XS.switchTerm (Nat.le_refl _) id v _ vs q.va ⟨k.pos, k.lt, k.nk⟩) fun _ g7 h7 n7 _ =>
          XS.seq n7 (XS.ip _ (h7.nk (Nat.le_refl _) ⟨k.pos, k.lt, k.nk⟩)) fun _ g8 h8 _ _ => XS.pure _ trivial
  | .case v s, none, _, n, g, hn => XS.fail
  | .case v s, some id, cs, n, g, hn => XS.seq hn (XS.genLabel (Nat.le_refl _) _) fun _ g1 h1 n1 _ => XS.genSt s (some id) _ n g1 n1
  | .label l s, sw, cs, n, g, hn => XS.seq hn (XS.genLabel (Nat.le_refl _) _) fun _ g1 h1 n1 _ => XS.genSt s sw cs n g1 n1
  | .goto l, _, _, n, g, hn => XS.seq hn (XS.genGoto (Nat.le_refl _) l) fun _ g1 h1 _ _ => XS.pure _ trivial

theorem XE.firstParam (p : Name) : XE g (firstParam p) (fun _ _ => True) :=
  XE.bind (XE.emit (.alloca .i64) id nofun) fun a g1 h1 ha => XE.bind (XE.emitV _ id (all2 .param ha.1)) fun _ g2 h2 _ => XE.addLocal _ _ (h2.la (ha.la trivial))

theorem XE.vaParams (v : Val) : ∀ (ps : List Name) (g : GS), VA g v → XE g (vaParams v ps) (fun _ _ => True)
  | [], g, _ => XE.pure _ trivial
  | p :: ps, g, hv => XE.bind (XE.emit (.alloca .i64) id nofun) fun a g1 h1 ha => XE.bind (XE.emitV _ id (all1 (h1.va hv))) fun r g2 h2 hr =>
      XE.bind (XE.emitV _ id (all2 hr (h2.va ha.1))) fun _ g3 h3 _ => XE.bind (XE.addLocal _ _ (h3.la (h2.la (ha.la trivial)))) fun _ g4 h4 _ =>
      XE.vaParams v ps g4 (by vcarry)

theorem XE.paramCode (ps : List Name) : XE g (paramCode ps) (fun _ _ => True) := by
  unfold Blang.paramCode
  split
  · exact XE.pure _ trivial
  · exact XE.firstParam _
  · exact XE.bind (XE.firstParam _) fun _ g1 h1 _ => XE.bind (XE.emitV _ id nofun) fun a g2 h2 ha =>
      XE.bind (XE.emitV _ id (all1 ha)) fun l g3 h3 hl => XE.bind (XE.getOrCreateFunc _) fun f g4 h4 hf =>
      XE.bind (XE.emitV _ id (all2 (.noReg hf) (by vcarry))) fun _ g5 h5 _ => XE.bind (XE.vaParams _ _ _ (by vcarry)) fun _ g6 h6 _ =>
      XE.bind (XE.getOrCreateFunc _) fun f g7 h7 hf => XE.bind (XE.emitV _ id (all2 (.noReg hf) (by vcarry))) fun _ g8 h8 _ => XE.pure _ trivial
end

/-- the code of a function meets `Core` -/
theorem FuncRun.core {f : Name} {ps : List Name} {b : St} {c : CState} {bs : List Block} (r : FuncRun f ps b c bs)
    (hx : ∀ x v, lookup x r.c1.ctx = some v → NoReg v) (hf : ∀ x v, lookup x r.c1.functions = some v → NoReg v) :
    ∃ G cur, Core G bs cur := by
  have f0 : SsaInv ⟨entered (defFunc f ps) r.c1, ⟨fun _ => False, fun _ _ => False⟩⟩ := by
    refine ⟨⟨by simp [entered], nofun, nofun, ?_, ?_, ?_, ?_⟩, ?_, ?_, hx, hf⟩
    · intro i B k r inst hB hk
      simp [entered] at hB
      rw [List.getElem?_singleton] at hB
      split at hB <;> cases hB
      simp at hk
    · intro i B t hB ht
      simp [entered] at hB
      rw [List.getElem?_singleton] at hB
      split at hB <;> cases hB
      cases ht
    · rintro i j ⟨B, t, hB, ht, _⟩
      simp [entered] at hB
      rw [List.getElem?_singleton] at hB
      split at hB <;> cases hB
      cases ht
    · intro i B k r x b y b' hB hk
      simp [entered] at hB
      rw [List.getElem?_singleton] at hB
      split at hB <;> cases hB
      simp at hk
    · intro l j hj; simp [entered, lookup] at hj
    · intro l j hj; simp [entered, lookup] at hj
  obtain ⟨G1, i1, _, _⟩ := XE.paramCode ps _ _ r.entry f0
  obtain ⟨G2, i2, _, _⟩ := XS.genSt b none [] 0 ⟨_, G1⟩ (Nat.zero_le _) _ _ r.body i1
  rw [r.blocks]
  unfold closed
  split
  · obtain ⟨G3, i3, _⟩ := XS.setTerm (n := 0) (g := ⟨r.c3, G2⟩) (.ret (.const 0)) (all1 .const) nofun _ _ (setTerm_eq _ _) i2
    exact ⟨G3, _, i3.core⟩
  · exact ⟨G2, _, i2.core⟩

/-! ### what `Core` gives -/

theorem Core.path {G : Gh} {bs : List Block} {cur : Nat} (h : Core G bs cur) {done : List Nat} {i k : Nat} (p : Path bs done i k) :
    (∀ a, G.D i a → a ∈ done) ∧ ∀ (B : Block) (k' a : Nat) (inst : Inst), k' < k → bs[i]? = some B → B.insts[k']? = some (a, inst) → a ∈ done := by
  induction p with
  | start => exact ⟨fun a ha => absurd (h.kl _ (h.nk _ _ ha)).1 (by omega), fun _ k' _ _ hk => by omega⟩
  | step p hB hk ih =>
    refine ⟨fun a ha => List.mem_cons_of_mem _ (ih.1 a ha), fun B' k' a inst' hk' hB' hi => ?_⟩
    rw [hB] at hB'; cases hB'
    rcases Nat.lt_succ_iff_lt_or_eq.1 hk' with hk' | rfl
    · exact List.mem_cons_of_mem _ (ih.2 _ k' a inst' hk' hB hi)
    · rw [hk] at hi; cases hi; exact List.mem_cons_self
  | jump p hB ht hj ih =>
    refine ⟨fun a ha => ?_, fun _ k' _ _ hk => by omega⟩
    rcases (h.edges _ _ ⟨_, _, hB, ht, hj⟩).2.2 a ha with hd | ⟨B', inst, hB', hm⟩
    · exact ih.1 a hd
    · rw [hB] at hB'; cases hB'
      obtain ⟨k', hk'⟩ := List.mem_iff_getElem?.1 hm
      exact ih.2 _ k' a inst (List.getElem?_eq_some_iff.1 hk').1 hB hk'

theorem Core.out {G : Gh} {bs : List Block} {cur : Nat} (h : Core G bs cur) {done : List Nat} {i a : Nat} {B : Block} (p : Path bs done i B.insts.length)
    (hB : bs[i]? = some B) (ho : Out G bs i a) : a ∈ done := by
  rcases ho with hd | ⟨B', inst, hB', hm⟩
  · exact (h.path p).1 a hd
  · rw [hB] at hB'; cases hB'
    obtain ⟨k', hk'⟩ := List.mem_iff_getElem?.1 hm
    exact (h.path p).2 _ k' a inst (List.getElem?_eq_some_iff.1 hk').1 hB hk'

theorem Core.dominated {G : Gh} {bs : List Block} {cur : Nat} (h : Core G bs cur) {a : Nat} (ha : ¬ LocalAddr bs a) : Dominated bs a := by
  intro done i k B p hB
  refine ⟨?_, ?_, ?_⟩
  · intro r inst hk hphi hm
    rcases h.ops i B k r inst hB hk hphi a hm with h1 | h1 | ⟨k', j, h1, h2⟩
    · exact absurd h1 ha
    · exact (h.path p).1 a h1
    · exact (h.path p).2 B k' a j h1 hB h2
  · rintro t rfl ht hm
    exact h.out p hB ((h.tops i B t hB ht _ hm a rfl).resolve_left ha)
  · rintro B' hB' r inst hm rfl hp
    obtain ⟨j, hj⟩ := List.mem_iff_getElem?.1 hB'
    obtain ⟨k', hk'⟩ := List.mem_iff_getElem?.1 hm
    cases inst with
    | phi x b y b' =>
      have q := h.phis j B' k' r x b y b' hj hk'
      rcases hp with ⟨rfl, rfl⟩ | ⟨rfl, rfl⟩
      · exact h.out p hB ((q.vx a rfl).resolve_left ha)
      · exact h.out p hB ((q.vy a rfl).resolve_left ha)
    | _ => exact hp.elim

theorem Core.flow {G : Gh} {bs : List Block} {cur : Nat} (h : Core G bs cur) : FlowOk bs := by
  refine ⟨fun i j he => ⟨(h.edges i j he).1, (h.edges i j he).2.1⟩, ?_⟩
  intro i B k r x b y b' hB hk
  have q := h.phis i B k r x b y b' hB hk
  refine ⟨q.first, q.ne, fun j => ⟨q.pred j, ?_⟩⟩
  have key : ∀ b0, termAt bs b0 = some (.br i) → Edge bs b0 i := by
    intro b0 ht
    unfold termAt at ht
    cases hb : bs[b0]? with
    | none => rw [hb] at ht; cases ht
    | some B0 => rw [hb] at ht; exact ⟨B0, _, hb, ht, List.mem_singleton_self _⟩
  rintro (rfl | rfl)
  · exact key _ q.tb
  · exact key _ q.tb'

end Blang
