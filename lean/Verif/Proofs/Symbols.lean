import Verif.Proofs.Locals
import Verif.Proofs.Origin
import Verif.Spec.Symbols
/-
Everything the code refers to is in the module.
-/
namespace Blang
open Spec

/-- the module of a state -/
abbrev modOf (c : CState) : Module := ⟨c.globals, c.funcs⟩

abbrev Kn (c : CState) (v : Val) : Prop := Val.Declared (modOf c) v

/-- `c'` declares what `c` declares -/
structure GeS (c c' : CState) : Prop where
  glob : ∀ s, (∃ g ∈ c.globals, g.sym = s) → ∃ g ∈ c'.globals, g.sym = s
  func : ∀ s, (∃ g ∈ c.funcs, g.sym = s) → ∃ g ∈ c'.funcs, g.sym = s

theorem GeS.refl (c : CState) : GeS c c := ⟨fun _ h => h, fun _ h => h⟩
theorem GeS.trans {a b c : CState} (h1 : GeS a b) (h2 : GeS b c) : GeS a c := ⟨fun s h => h2.glob s (h1.glob s h), fun s h => h2.func s (h1.func s h)⟩
theorem GeS.of_eq {c c' : CState} (h : c'.globals = c.globals) (h2 : c'.funcs = c.funcs) : GeS c c' := ⟨by rw [h]; exact fun _ h => h, by rw [h2]; exact fun _ h => h⟩
theorem GeS.kn {c c' : CState} (h : GeS c c') {v : Val} (hv : Kn c v) : Kn c' v := by
  cases v with
  | glob s t => exact h.glob s hv
  | func s b n => exact h.func s hv
  | _ => trivial

theorem GeS.newGlobal (c : CState) (g : GlobalDef) : GeS c (newGlobalDef c g) :=
  ⟨fun _ ⟨x, h, e⟩ => ⟨x, List.mem_append_left _ h, e⟩, fun _ h => h⟩

/-- a function declared anew -/
theorem mem_redeclare {fs : List Func} {F : Func} {s : Name} (h : ∃ g ∈ fs, g.sym = s) : ∃ g ∈ fs.eraseP (fun g => g.sym = F.sym) ++ [F], g.sym = s := by
  obtain ⟨g, hg, e⟩ := h
  by_cases hs : g.sym = F.sym
  · exact ⟨F, by simp, by rw [← hs, e]⟩
  · exact ⟨g, List.mem_append_left _ (mem_eraseP_of_ne hg (by simp [hs])), e⟩

structure SyInv (c : CState) : Prop where
  insts : ∀ B ∈ c.blocks, ∀ p ∈ B.insts, ∀ v ∈ Inst.operands p.2, Kn c v
  terms : ∀ B ∈ c.blocks, ∀ t, B.term = some t → ∀ v ∈ Term.operands t, Kn c v
  locals : ∀ x v, lookup x c.locals = some v → Kn c v
  ctx : ∀ x v, lookup x c.ctx = some v → Kn c v
  funs : ∀ x v, lookup x c.functions = some v → Kn c v

/-- the code is the same, more is declared -/
theorem SyInv.grow {c c' : CState} (h : SyInv c) (hg : GeS c c') (h1 : c'.blocks = c.blocks)
    (h4 : ∀ x v, lookup x c'.locals = some v → Kn c' v)
    (h5 : ∀ x v, lookup x c'.ctx = some v → Kn c' v) (h6 : ∀ x v, lookup x c'.functions = some v → Kn c' v) : SyInv c' :=
  ⟨by rw [h1]; exact fun B hB p hp v hv => hg.kn (h.insts B hB p hp v hv),
   by rw [h1]; exact fun B hB p hp v hv => hg.kn (h.terms B hB p hp v hv), h4, h5, h6⟩

def KSy (c0 : CState) {α : Type} (f : B α) (ok : CState → α → Prop) : Prop :=
  ∀ c a c', f c = .ok a c' → SyInv c → GeS c0 c → SyInv c' ∧ GeS c c' ∧ ok c' a

section
variable {α β : Type} {c0 : CState}

theorem KSy.pure {ok : CState → α → Prop} (a : α) (h : ∀ c, GeS c0 c → ok c a) : KSy c0 (pure a : B α) ok := by
  intro c b c' hc hf hn
  simp at hc; obtain ⟨rfl, rfl⟩ := hc; exact ⟨hf, .refl _, h _ hn⟩

theorem KSy.bind {ok1 : CState → α → Prop} {ok2 : CState → β → Prop} {f : B α} {g : α → B β} (hf : KSy c0 f ok1)
    (hg : ∀ a c, GeS c0 c → ok1 c a → KSy c (g a) ok2) : KSy c0 (f >>= g) ok2 := by
  intro c b c' hc hF hn
  obind hc a c1 h1
  obtain ⟨f1, l1, o1⟩ := hf _ _ _ h1 hF hn
  obtain ⟨f2, l2, o2⟩ := hg a c1 (hn.trans l1) o1 _ _ _ hc f1 (.refl _)
  exact ⟨f2, l1.trans l2, o2⟩

theorem KSy.fail {ok : CState → α → Prop} {s : String} : KSy c0 (bfail s : B α) ok := by intro c b c' h; cases h

theorem KSy.ite {ok : CState → α → Prop} {p : Prop} [Decidable p] {f g : B α} (hf : p → KSy c0 f ok) (hg : ¬ p → KSy c0 g ok) : KSy c0 (if p then f else g) ok := by
  split
  · exact hf ‹_›
  · exact hg ‹_›

theorem KSy.get {ok : CState → β → Prop} {g : CState → B β} (hg : ∀ c, SyInv c → GeS c0 c → KSy c (g c) ok) :
    KSy c0 ((M.get : B CState) >>= g) ok := by
  intro c b c' hc hF hn
  rw [Blang.M.bind_ok (M.get_apply _)] at hc
  exact hg c hF hn c b c' hc hF (.refl _)

theorem KSy.imp {ok ok' : CState → α → Prop} {f : B α} (hf : KSy c0 f ok) (h : ∀ c a, ok c a → ok' c a) : KSy c0 f ok' := by
  intro c a c' hc hF hn
  obtain ⟨f1, l1, o1⟩ := hf _ _ _ hc hF hn
  exact ⟨f1, l1, h _ _ o1⟩

theorem KSy.emit (i : Inst) (hi : ∀ v ∈ Inst.operands i, Kn c0 v) : KSy c0 (emit i) Kn := by
  intro c v c' hc hf hn
  cases hc
  refine ⟨⟨?_, ?_, hf.locals, hf.ctx, hf.funs⟩, .of_eq rfl rfl, trivial⟩
  · intro B hB
    rcases mem_modify hB with hB | ⟨A, hA, rfl⟩
    · exact hf.insts B hB
    · have h := hf.insts A (List.mem_of_getElem? hA)
      intro p hp
      rw [List.mem_append] at hp
      rcases hp with hp | hp
      · exact h p hp
      · simp at hp; subst hp
        exact fun v hv => hn.kn (hi v hv)
  · intro B hB
    rcases mem_modify hB with hB | ⟨A, hA, rfl⟩
    · exact hf.terms B hB
    · exact hf.terms A (List.mem_of_getElem? hA)

theorem KSy.setTerm (t : Term) (ht : ∀ v ∈ Term.operands t, Kn c0 v) : KSy c0 (setTerm t) (fun _ _ => True) := by
  intro c v c' hc hf hn
  cases hc
  refine ⟨⟨?_, ?_, hf.locals, hf.ctx, hf.funs⟩, .of_eq rfl rfl, trivial⟩
  · intro B hB
    rcases mem_modify hB with hB | ⟨A, hA, rfl⟩
    · exact hf.insts B hB
    · exact hf.insts A (List.mem_of_getElem? hA)
  · intro B hB
    rcases mem_modify hB with hB | ⟨A, hA, rfl⟩
    · exact hf.terms B hB
    · intro t' ht'; cases ht'; exact fun v hv => hn.kn (ht v hv)

theorem SyInv.append {c : CState} (hf : SyInv c) (nm : Name) (ls : List (Name × Nat)) :
    SyInv { c with blocks := c.blocks ++ [⟨nm, [], none⟩], labels := ls } := by
  refine ⟨?_, ?_, hf.locals, hf.ctx, hf.funs⟩
  · intro B hB
    rw [List.mem_append] at hB
    rcases hB with hB | hB
    · exact hf.insts B hB
    · simp at hB; subst hB; simp
  · intro B hB
    rw [List.mem_append] at hB
    rcases hB with hB | hB
    · exact hf.terms B hB
    · simp at hB; subst hB; simp

theorem KSy.newBlock (nm : Name) : KSy c0 (newBlock nm) (fun _ _ => True) := by
  intro c v c' hc hf hn
  cases hc
  exact ⟨hf.append nm c.labels, .of_eq rfl rfl, trivial⟩

theorem KSy.setInsertPoint (b : Nat) : KSy c0 (setInsertPoint b) (fun _ _ => True) := by
  intro c v c' hc hf hn
  cases hc
  exact ⟨⟨hf.insts, hf.terms, hf.locals, hf.ctx, hf.funs⟩, .of_eq rfl rfl, trivial⟩

theorem KSy.getInsertBlock : KSy c0 getInsertBlock (fun _ _ => True) := by
  intro c v c' hc hf hn
  cases hc; exact ⟨hf, .refl _, trivial⟩

theorem KSy.freshLabelID : KSy c0 freshLabelID (fun _ _ => True) := by
  intro c v c' hc hf hn
  cases hc; exact ⟨⟨hf.insts, hf.terms, hf.locals, hf.ctx, hf.funs⟩, .of_eq rfl rfl, trivial⟩

theorem KSy.getOrCreateLabel (l : Name) : KSy c0 (getOrCreateLabel l) (fun _ _ => True) := by
  intro c v c' hc hf hn
  unfold Blang.getOrCreateLabel at hc
  cases hl : lookup l c.labels with
  | some b => rw [hl] at hc; cases hc; exact ⟨hf, .refl _, trivial⟩
  | none => rw [hl] at hc; cases hc; exact ⟨hf.append l _, .of_eq rfl rfl, trivial⟩

theorem KSy.addLocal (x : Name) (v : Val) (hv : Kn c0 v) : KSy c0 (M.modify fun c => { c with locals := insert x v c.locals } : B Unit) (fun _ _ => True) := by
  intro c u c' hc hf hn
  cases hc
  refine ⟨⟨hf.insts, hf.terms, ?_, hf.ctx, hf.funs⟩, .of_eq rfl rfl, trivial⟩
  intro y w hw
  rcases lookup_insert_or hw with rfl | hw
  · exact hn.kn hv
  · exact hf.locals _ _ hw

theorem KSy.getOrDeclareFunction (x : Name) : KSy c0 (getOrDeclareFunction x) (fun c r => ∀ v, r = some v → Kn c v) := by
  intro c v c' h hf hn
  unfold Blang.getOrDeclareFunction at h
  cases hl : lookup x c.functions with
  | some f =>
    rw [hl] at h; cases h
    exact ⟨hf, .refl _, fun v hv => by cases hv; exact hf.funs _ _ hl⟩
  | none =>
    rw [hl] at h
    cases hx : lookup x c.ctx with
    | some _ => rw [hx] at h; cases h; exact ⟨hf, .refl _, (fun _ h => by cases h)⟩
    | none =>
      rw [hx] at h; cases h
      have hg : GeS c { newFunc (removeFuncByName c x) ⟨globalName x, [], true, []⟩ with
          functions := insert x (Func.val ⟨globalName x, [], true, []⟩) (newFunc (removeFuncByName c x) ⟨globalName x, [], true, []⟩).functions,
          usedAsFunction := x :: (newFunc (removeFuncByName c x) ⟨globalName x, [], true, []⟩).usedAsFunction } :=
        ⟨fun _ h => h, fun s h => mem_redeclare (F := ⟨globalName x, [], true, []⟩) h⟩
      have hk : Kn { newFunc (removeFuncByName c x) ⟨globalName x, [], true, []⟩ with
          functions := insert x (Func.val ⟨globalName x, [], true, []⟩) (newFunc (removeFuncByName c x) ⟨globalName x, [], true, []⟩).functions,
          usedAsFunction := x :: (newFunc (removeFuncByName c x) ⟨globalName x, [], true, []⟩).usedAsFunction } (Func.val ⟨globalName x, [], true, []⟩) :=
        ⟨_, List.mem_append_right _ (by simp), rfl⟩
      refine ⟨hf.grow hg rfl (fun y w hw => hg.kn (hf.locals y w hw)) (fun y w hw => hg.kn (hf.ctx y w hw)) ?_, hg, fun v hv => by cases hv; exact hk⟩
      intro y w hw
      rcases lookup_insert_or hw with rfl | hw
      · exact hk
      · exact hg.kn (hf.funs _ _ hw)

theorem KSy.getOrCreateFunc (x : Name) : KSy c0 (getOrCreateFunc x) Kn := by
  intro c v c' h hf hn
  unfold Blang.getOrCreateFunc at h
  split at h <;> cases h
  · rename_i f hx
    exact ⟨hf, .refl _, _, List.mem_of_find?_eq_some hx, rfl⟩
  · have hg : GeS c (newFunc c ⟨x, [[]], false, []⟩) := ⟨fun _ h => h, fun _ ⟨g, h, e⟩ => ⟨g, List.mem_append_left _ h, e⟩⟩
    exact ⟨hf.grow hg rfl (fun y w hw => hg.kn (hf.locals y w hw)) (fun y w hw => hg.kn (hf.ctx y w hw)) (fun y w hw => hg.kn (hf.funs y w hw)), hg,
      _, List.mem_append_right _ (by simp), rfl⟩

theorem KSy.createString (s : List Char) : KSy c0 (createStringConstant s) (fun c g => Kn c g.val) := by
  intro c v c' h hf hn
  cases h
  have hg := GeS.newGlobal c ⟨strSym c.stringID, .bytes (stringBytes s), true⟩
  exact ⟨hf.grow ⟨hg.glob, hg.func⟩ rfl (fun y w hw => hg.kn (hf.locals y w hw)) (fun y w hw => hg.kn (hf.ctx y w hw)) (fun y w hw => hg.kn (hf.funs y w hw)), ⟨hg.glob, hg.func⟩,
    _, List.mem_append_right _ (by simp), rfl⟩

theorem KSy.declareExtrn (x : Name) : KSy c0 (declareExtrn x) (fun _ _ => True) := by
  intro c v c' h hf hn
  unfold Blang.declareExtrn at h
  have key : ∀ (c' : CState) (g : GlobalDef), GeS c c' → g ∈ c'.globals → ∀ (y : Name) (w : Val), lookup y (insert x g.val c.ctx) = some w → Kn c' w := by
    intro c' g hG hg y w hw
    rcases lookup_insert_or hw with rfl | hw
    · exact ⟨g, hg, rfl⟩
    · exact hG.kn (hf.ctx _ _ hw)
  split at h
  · rename_i g hg
    cases h
    have h1 := List.mem_of_find?_eq_some hg
    exact ⟨⟨hf.insts, hf.terms, hf.locals, key c _ (.refl _) h1, hf.funs⟩, .of_eq rfl rfl, trivial⟩
  · split at h
    · cases h
      have hg := GeS.newGlobal c ⟨globalName x, .word (.int 0), false⟩
      exact ⟨hf.grow ⟨hg.glob, hg.func⟩ rfl (fun y w hw => hg.kn (hf.locals y w hw))
        (key (newGlobalDef c ⟨globalName x, .word (.int 0), false⟩) _ hg (List.mem_append_right _ (by simp))) (fun y w hw => hg.kn (hf.funs y w hw)), ⟨hg.glob, hg.func⟩, trivial⟩
    · cases h

theorem KSy.emit0 (i : Inst) (h : Inst.operands i = []) : KSy c0 (Blang.emit i) Kn := KSy.emit i (by rw [h]; exact fun v hv => by cases hv)
theorem KSy.emit1 (i : Inst) {v : Val} (h : Inst.operands i = [v]) (hv : Kn c0 v) : KSy c0 (Blang.emit i) Kn :=
  KSy.emit i (by rw [h]; exact fun w hw => by simp at hw; subst hw; exact hv)
theorem KSy.emit2 (i : Inst) {v w : Val} (h : Inst.operands i = [v, w]) (hv : Kn c0 v) (hw : Kn c0 w) : KSy c0 (Blang.emit i) Kn :=
  KSy.emit i (by
    rw [h]; intro u hu
    simp only [List.mem_cons, List.not_mem_nil, or_false] at hu
    rcases hu with rfl | rfl
    · exact hv
    · exact hw)
theorem KSy.term0 (t : Term) (h : Term.operands t = []) : KSy c0 (Blang.setTerm t) (fun _ _ => True) := KSy.setTerm t (by rw [h]; exact fun v hv => by cases hv)
theorem KSy.term1 (t : Term) {v : Val} (h : Term.operands t = [v]) (hv : Kn c0 v) : KSy c0 (Blang.setTerm t) (fun _ _ => True) :=
  KSy.setTerm t (by rw [h]; exact fun w hw => by simp at hw; subst hw; exact hv)
end

/-- carry a fact over to a later state -/
macro "carryS" : tactic => `(tactic| repeat (first | assumption | exact trivial | (refine GeS.kn (by assumption) ?_)))

section
variable {c0 : CState}
set_option quotPrecheck false
local notation "T" => fun (_ : CState) _ => True
local notation "LOK" => fun (c : CState) (v : LV) => Kn c v.1

theorem KSy.rval (v : LV) (hv : Kn c0 v.1) : KSy c0 (rval v) Kn :=
  KSy.ite (fun _ => KSy.emit1 _ rfl hv) (fun _ => KSy.pure _ fun _ hc => hc.kn hv)

theorem KSy.cmpOp (p : Pred) (x y : Val) (hx : Kn c0 x) (hy : Kn c0 y) : KSy c0 (cmpOp p x y) Kn :=
  KSy.bind (KSy.emit2 _ rfl hx hy) fun a c hc ha => KSy.emit1 _ rfl ha

theorem KSy.genOp (o : Op) (x y : Val) (hx : Kn c0 x) (hy : Kn c0 y) : KSy c0 (genOp o x y) Kn := by
  cases o
  · exact KSy.emit2 _ rfl hx hy
  · exact KSy.cmpOp _ _ _ hx hy

theorem KSy.needLval (v : LV) (hv : Kn c0 v.1) : KSy c0 (needLval v) Kn :=
  KSy.ite (fun _ => KSy.pure _ fun _ hc => hc.kn hv) (fun _ => KSy.fail)

theorem KSy.call (f : Val) (as : List Val) (hf : Kn c0 f) (ha : ∀ a ∈ as, Kn c0 a) : KSy c0 (Blang.emit (.call f as)) Kn :=
  KSy.emit _ (by
    intro v hv
    rcases List.mem_cons.1 hv with rfl | hv
    · exact hf
    · exact ha v hv)

theorem KSy.genCall (f : Val) (as : List Val) (hf : Kn c0 f) (ha : ∀ a ∈ as, Kn c0 a) : KSy c0 (genCall f as) Kn := by
  unfold Blang.genCall
  split
  · exact KSy.ite (fun _ => KSy.bind (KSy.emit1 _ rfl hf) fun a c hc hva => KSy.call _ _ hva fun a hm => hc.kn (ha a hm)) (fun _ => KSy.call _ _ hf ha)
  · exact KSy.bind (KSy.emit1 _ rfl hf) fun a c hc hva => KSy.call _ _ hva fun a hm => hc.kn (ha a hm)

theorem KSy.genStr (s : List Char) : KSy c0 (genStr s) Kn :=
  KSy.bind (KSy.createString _) fun g c hc hg => KSy.bind (KSy.emit1 _ rfl hg) fun a c hc ha => KSy.emit1 _ rfl ha

theorem KSy.genPostfix (o : BinOp) (v : Val) (hv : Kn c0 v) : KSy c0 (genPostfix o v) Kn :=
  KSy.bind (KSy.emit1 _ rfl hv) fun a c1 h1 ha => KSy.bind (KSy.emit2 _ rfl ha trivial) fun b c2 h2 hb =>
    KSy.bind (KSy.emit2 _ rfl hb (by carryS)) fun d c3 h3 _ => KSy.pure _ (fun c hc => by carryS)

theorem KSy.genPrefix (o : BinOp) (v : Val) (hv : Kn c0 v) : KSy c0 (genPrefix o v) T :=
  KSy.bind (KSy.emit1 _ rfl hv) fun a c1 h1 ha => KSy.bind (KSy.emit2 _ rfl ha trivial) fun b c2 h2 hb =>
    KSy.bind (KSy.emit2 _ rfl hb (by carryS)) fun d c3 h3 _ => KSy.pure _ (fun c hc => trivial)

theorem KSy.genAssign (o : Option Op) (l r : Val) (hl : Kn c0 l) (hr : Kn c0 r) : KSy c0 (genAssign o l r) Kn := by
  unfold Blang.genAssign
  split
  · exact KSy.bind (KSy.emit1 _ rfl hl) fun a c1 h1 ha => KSy.bind (KSy.genOp _ _ _ ha (by carryS)) fun b c2 h2 hb =>
      KSy.bind (KSy.emit2 _ rfl hb (by carryS)) fun d c3 h3 _ => KSy.pure _ (fun c hc => by carryS)
  · exact KSy.bind (KSy.emit2 _ rfl hr hl) fun a c1 h1 ha => KSy.pure _ (fun c hc => by carryS)

theorem KSy.getAddress (x : Name) : KSy c0 (getAddress x) (fun c r => ∀ v, r = some v → Kn c v) := by
  refine KSy.get fun c hf hn => ?_
  cases hl : lookup x c.locals with
  | some v => exact KSy.pure _ (fun m hm w hw => by cases hw; exact hm.kn (hf.locals _ _ hl))
  | none =>
    cases hx : lookup x c.ctx with
    | none => exact KSy.pure _ (fun m hm w hw => by cases hw)
    | some v =>
      have hv := hf.ctx _ _ hx
      cases v with
      | glob g ty =>
        cases ty with
        | i64 => exact KSy.pure _ (fun m hm w hw => by cases hw; exact hm.kn hv)
        | arr n => exact KSy.bind (KSy.emit1 _ rfl hv) fun a c1 h1 ha => KSy.pure _ (fun c hc w hw => by cases hw; exact hc.kn ha)
        | bytes n => exact KSy.bind (KSy.emit1 _ rfl hv) fun a c1 h1 ha => KSy.pure _ (fun c hc w hw => by cases hw; exact hc.kn ha)
      | _ => exact KSy.pure _ (fun m hm w hw => by cases hw; exact hm.kn hv)

theorem findFunc_kn {c : CState} {x : Name} {fn : Func} (h : findFuncByName c x = some fn) : Kn c fn.val := ⟨fn, List.mem_of_find?_eq_some h, rfl⟩

theorem KSy.genVar (x : Name) : KSy c0 (genVar x) LOK := by
  refine KSy.bind (KSy.getAddress x) fun r c1 h1 hr => ?_
  cases r with
  | some a => exact KSy.pure _ (fun c hc => hc.kn (hr _ rfl))
  | none =>
    refine KSy.get fun c hf hn => ?_
    cases hx : findFuncByName c x with
    | some fn => exact KSy.bind (KSy.emit1 _ rfl (findFunc_kn hx)) fun a c1 h1 ha => KSy.pure _ (fun c hc => hc.kn ha)
    | none =>
      refine KSy.bind (KSy.getOrDeclareFunction x) fun r c2 h2 hr => ?_
      cases r with
      | some fn => exact KSy.bind (KSy.emit1 _ rfl (hr _ rfl)) fun a c1 h1 ha => KSy.pure _ (fun c hc => hc.kn ha)
      | none => exact KSy.fail

theorem KSy.genCallee (x : Name) : KSy c0 (genCallee x) LOK := by
  refine KSy.get fun c hf hn => ?_
  cases hx : findFuncByName c x with
  | some fn => exact KSy.pure _ (fun c hc => hc.kn (findFunc_kn hx))
  | none =>
    cases hx : lookup x c.ctx with
    | some g => exact KSy.pure _ (fun m hm => hm.kn (hf.ctx _ _ hx))
    | none =>
      refine KSy.bind (KSy.getOrDeclareFunction x) fun r c2 h2 hr => ?_
      cases r with
      | some fn => exact KSy.pure _ (fun m hm => hm.kn (hr _ rfl))
      | none => exact KSy.fail

theorem KSy.condStart (v : Val) (hv : Kn c0 v) : KSy c0 (condStart v) T :=
  KSy.bind KSy.freshLabelID fun i c1 h1 _ => KSy.bind (KSy.newBlock _) fun b1 c2 h2 k1 => KSy.bind (KSy.newBlock _) fun b2 c3 h3 k2 =>
    KSy.bind (KSy.newBlock _) fun b3 c4 h4 k3 => KSy.bind (KSy.emit2 _ rfl (by carryS) trivial) fun d c5 h5 hd =>
    KSy.bind (KSy.term1 _ rfl hd) fun _ c6 h6 _ => KSy.pure _ (fun c hc => trivial)

theorem KSy.genNeg (v : LV) (hv : Kn c0 v.1) : KSy c0 (genNeg v) Kn :=
  KSy.bind (KSy.rval _ hv) fun b c2 h2 hb => KSy.emit2 _ rfl trivial hb

theorem KSy.genDeref (v : LV) (hv : Kn c0 v.1) : KSy c0 (genDeref v) Kn :=
  KSy.bind (KSy.rval _ hv) fun b c2 h2 hb => KSy.emit1 _ rfl hb

theorem KSy.genNot (v : LV) (hv : Kn c0 v.1) : KSy c0 (genNot v) Kn :=
  KSy.bind (KSy.rval _ hv) fun b c2 h2 hb => KSy.cmpOp _ _ _ hb trivial

mutual
theorem KSy.genL : ∀ (e : Ex) (c0 : CState), KSy c0 (genL e) LOK
  | .num _, _ => KSy.pure _ (fun _ _ => trivial)
  | .str _, _ => KSy.bind (KSy.genStr _) fun a c1 h1 ha => KSy.pure _ (fun c hc => hc.kn ha)
  | .var x, _ => KSy.genVar x
  | .paren e, n => KSy.bind (KSy.genL e n) fun a c1 h1 ha => KSy.bind (KSy.rval _ ha) fun b c2 h2 hb => KSy.pure _ (fun c hc => hc.kn hb)
  | .index a i, n => KSy.bind (KSy.genL a n) fun v c1 h1 hv => KSy.bind (KSy.rval _ hv) fun b c2 h2 hb => KSy.bind (KSy.emit1 _ rfl hb) fun p c3 h3 hp =>
      KSy.bind (KSy.genL i c3) fun w c4 h4 hw => KSy.bind (KSy.rval _ hw) fun w' c5 h5 hw' => KSy.bind (KSy.emit2 _ rfl (by carryS) (by carryS)) fun r c6 h6 hr =>
      KSy.pure _ (fun c hc => hc.kn hr)
  | .callName f as, n => KSy.bind (KSy.genCallee f) fun v c1 h1 hv => KSy.bind (KSy.rval _ hv) fun b c2 h2 hb => KSy.bind (KSy.genArgs as c2) fun vs c3 h3 hvs =>
      KSy.bind (KSy.genCall _ _ (h3.kn hb) hvs) fun r c4 h4 hr => KSy.pure _ (fun c hc => hc.kn hr)
  | .call f as, n => KSy.bind (KSy.genL f n) fun v c1 h1 hv => KSy.bind (KSy.rval _ hv) fun b c2 h2 hb => KSy.bind (KSy.genArgs as c2) fun vs c3 h3 hvs =>
      KSy.bind (KSy.genCall _ _ (h3.kn hb) hvs) fun r c4 h4 hr => KSy.pure _ (fun c hc => hc.kn hr)
  | .post _ e, n => KSy.bind (KSy.genL e n) fun v c1 h1 hv => KSy.bind (KSy.needLval _ hv) fun b c2 h2 hb => KSy.bind (KSy.genPostfix _ _ hb) fun r c3 h3 hr =>
      KSy.pure _ (fun c hc => hc.kn hr)
  | .pre _ e, n => KSy.bind (KSy.genL e n) fun v c1 h1 hv => KSy.bind (KSy.needLval _ hv) fun b c2 h2 hb => KSy.bind (KSy.genPrefix _ _ hb) fun r c3 h3 hr =>
      KSy.pure _ (fun c hc => hc.kn (h3.kn hb))
  | .not e, n => KSy.bind (KSy.genL e n) fun v c1 h1 hv => KSy.bind (KSy.genNot _ hv) fun r c3 h3 hr =>
      KSy.pure _ (fun c hc => hc.kn hr)
  | .neg e, n => KSy.bind (KSy.genL e n) fun v c1 h1 hv => KSy.bind (KSy.genNeg _ hv) fun r c3 h3 hr =>
      KSy.pure _ (fun c hc => hc.kn hr)
  | .deref e, n => KSy.bind (KSy.genL e n) fun v c1 h1 hv => KSy.bind (KSy.genDeref _ hv) fun r c3 h3 hr =>
      KSy.pure _ (fun c hc => hc.kn hr)
  | .addr e, n => KSy.bind (KSy.genL e n) fun v c1 h1 hv => KSy.bind (KSy.needLval _ hv) fun b c2 h2 hb => KSy.bind (KSy.emit1 _ rfl hb) fun r c3 h3 hr =>
      KSy.pure _ (fun c hc => hc.kn hr)
  | .bin _ l r, n => KSy.bind (KSy.genL l n) fun v c1 h1 hv => KSy.bind (KSy.rval _ hv) fun b c2 h2 hb => KSy.bind (KSy.genL r c2) fun w c3 h3 hw =>
      KSy.bind (KSy.rval _ hw) fun w' c4 h4 hw' => KSy.bind (KSy.genOp _ _ _ (by carryS) hw') fun r c5 h5 hr => KSy.pure _ (fun c hc => hc.kn hr)
  | .cond cn t e, n => KSy.bind (KSy.genL cn n) fun v c1 h1 hv => KSy.bind (KSy.rval _ hv) fun b c2 h2 hb => KSy.bind (KSy.condStart _ hb) fun bs c3 h3 hbs =>
      KSy.bind (KSy.setInsertPoint _) fun _ c4 h4 _ => KSy.bind (KSy.genL t c4) fun tv c5 h5 htv => KSy.bind (KSy.rval _ htv) fun tv' c6 h6 htv' =>
      KSy.bind KSy.getInsertBlock fun _ c7 h7 _ => KSy.bind (KSy.term0 _ rfl) fun _ c8 h8 _ =>
      KSy.bind (KSy.setInsertPoint _) fun _ c9 h9 _ => KSy.bind (KSy.genL e c9) fun ev c10 h10 hev => KSy.bind (KSy.rval _ hev) fun ev' c11 h11 hev' =>
      KSy.bind KSy.getInsertBlock fun _ c12 h12 _ => KSy.bind (KSy.term0 _ rfl) fun _ c13 h13 _ =>
      KSy.bind (KSy.setInsertPoint _) fun _ c14 h14 _ => KSy.bind (KSy.emit2 _ rfl (by carryS) (by carryS)) fun r c15 h15 hr => KSy.pure _ (fun c hc => hc.kn hr)
  | .assign _ l r, n => KSy.bind (KSy.genL l n) fun v c1 h1 hv => KSy.bind (KSy.needLval _ hv) fun b c2 h2 hb => KSy.bind (KSy.genL r c2) fun w c3 h3 hw =>
      KSy.bind (KSy.rval _ hw) fun w' c4 h4 hw' => KSy.bind (KSy.genAssign _ _ _ (by carryS) hw') fun r c5 h5 hr => KSy.pure _ (fun c hc => hc.kn hr)

theorem KSy.genArgs : ∀ (es : List Ex) (c0 : CState), KSy c0 (genArgs es) (fun c vs => ∀ v ∈ vs, Kn c v)
  | [], n => KSy.pure _ (fun _ _ v hv => by cases hv)
  | e :: es, n => KSy.bind (KSy.genL e n) fun v c1 h1 hv => KSy.bind (KSy.rval _ hv) fun b c2 h2 hb => KSy.bind (KSy.genArgs es c2) fun vs c3 h3 hvs =>
      KSy.pure _ (fun c hc w hw => by
        rcases List.mem_cons.1 hw with rfl | hw
        · carryS
        · exact hc.kn (hvs w hw))
end

theorem KSy.genR (e : Ex) (c0 : CState) : KSy c0 (genR e) Kn := KSy.bind (KSy.genL e c0) fun v c1 h1 hv => KSy.rval _ hv

/-! ### statements -/

theorem KSy.brIfOpen (b : Nat) : KSy c0 (brIfOpen b) (fun _ _ => True) :=
  KSy.get fun _ _ _ => KSy.ite (fun _ => KSy.term0 _ rfl) (fun _ => KSy.pure _ fun _ _ => trivial)

theorem KSy.genLabel (l : Name) : KSy c0 (genLabel l) (fun _ _ => True) :=
  KSy.bind (KSy.getOrCreateLabel l) fun b c1 h1 hb => KSy.bind (KSy.brIfOpen b) fun _ c2 h2 _ => KSy.setInsertPoint _

theorem KSy.genGoto (l : Name) : KSy c0 (genGoto l) (fun _ _ => True) :=
  KSy.bind (KSy.getOrCreateLabel l) fun b c1 h1 hb => KSy.bind (KSy.term0 _ rfl) fun _ c2 h2 _ => KSy.get fun _ _ _ =>
    KSy.bind (KSy.newBlock _) fun d c3 h3 hd => KSy.bind KSy.freshLabelID fun _ c4 h4 _ => KSy.setInsertPoint _

theorem KSy.ifStart (v : Val) (hv : Kn c0 v) : KSy c0 (ifStart v) T :=
  KSy.bind KSy.freshLabelID fun i c1 h1 _ => KSy.bind (KSy.newBlock _) fun b1 c2 h2 k1 => KSy.bind (KSy.newBlock _) fun b2 c3 h3 k2 =>
    KSy.bind (KSy.newBlock _) fun b3 c4 h4 k3 => KSy.bind (KSy.emit2 _ rfl (by carryS) trivial) fun d c5 h5 hd =>
    KSy.bind (KSy.term1 _ rfl hd) fun _ c6 h6 _ => KSy.pure _ (fun c hc => trivial)

theorem KSy.whileStart : KSy c0 whileStart T :=
  KSy.bind KSy.freshLabelID fun i c1 h1 _ => KSy.bind (KSy.newBlock _) fun b1 c2 h2 k1 => KSy.bind (KSy.newBlock _) fun b2 c3 h3 k2 =>
    KSy.bind (KSy.newBlock _) fun b3 c4 h4 k3 => KSy.bind (KSy.term0 _ rfl) fun _ c5 h5 _ => KSy.bind (KSy.setInsertPoint _) fun _ c6 h6 _ =>
    KSy.pure _ (fun c hc => trivial)

theorem KSy.switchStart (id : Nat) : KSy c0 (switchStart id) T :=
  KSy.bind (KSy.newBlock _) fun b1 c2 h2 k1 => KSy.bind (KSy.newBlock _) fun b2 c3 h3 k2 =>
    KSy.bind (KSy.newBlock _) fun b3 c4 h4 k3 => KSy.bind (KSy.term0 _ rfl) fun _ c5 h5 _ => KSy.bind (KSy.setInsertPoint _) fun _ c6 h6 _ =>
    KSy.pure _ (fun c hc => trivial)

theorem KSy.switchCases (id : Nat) : ∀ (vs : Cases) (c0 : CState), KSy c0 (switchCases id vs) (fun _ _ => True)
  | [], n => KSy.pure _ (fun _ _ => trivial)
  | v :: vs, n => KSy.bind (KSy.getOrCreateLabel _) fun b c1 h1 hb => KSy.bind (KSy.switchCases id vs c1) fun ps c2 h2 hps => KSy.pure _ (fun _ _ => trivial)

theorem KSy.switchTerm (id : Nat) (v : Val) (b : Nat) (vs : Cases) (hv : Kn c0 v) : KSy c0 (switchTerm id v b vs) (fun _ _ => True) := by
  unfold Blang.switchTerm
  exact KSy.ite (fun _ => KSy.bind (KSy.switchCases id vs c0) fun ps c1 h1 hps => KSy.term1 _ rfl (h1.kn hv)) (fun _ => KSy.term0 _ rfl)

theorem KSy.genExtrn : ∀ (xs : List Name) (c0 : CState), KSy c0 (genExtrn xs) (fun _ _ => True)
  | [], n => KSy.pure _ (fun _ _ => trivial)
  | x :: xs, n => KSy.bind (KSy.declareExtrn x) fun _ c1 h1 _ => KSy.genExtrn xs c1

theorem KSy.autoCheck : ∀ (ds : List (Name × Option Word)) (seen : List Name) (c0 : CState), KSy c0 (autoCheck seen ds) (fun _ _ => True)
  | [], seen, n => KSy.pure _ (fun _ _ => trivial)
  | d :: ds, seen, n => KSy.get fun c _ hc => KSy.ite (fun _ => KSy.fail) (fun _ => KSy.autoCheck ds _ _)

theorem KSy.declareLocal (x : Name) : KSy c0 (declareLocal x) (fun _ _ => True) :=
  KSy.bind (KSy.emit0 _ rfl) fun a c1 h1 ha => KSy.bind (KSy.emit2 _ rfl trivial ha) fun _ c2 h2 _ => KSy.addLocal _ _ (by carryS)

theorem KSy.declareLocalArray (x : Name) (k : W) : KSy c0 (declareLocalArray x k) (fun _ _ => True) :=
  KSy.bind (KSy.emit0 _ rfl) fun a c1 h1 ha => KSy.bind (KSy.emit1 _ rfl ha) fun b c2 h2 hb =>
    KSy.bind (KSy.emit1 _ rfl hb) fun p c3 h3 hp => KSy.bind (KSy.emit1 _ rfl (by carryS)) fun q c4 h4 hq =>
    KSy.bind (KSy.emit2 _ rfl (by carryS) hq) fun _ c5 h5 _ => KSy.addLocal _ _ (h5.kn hq)

theorem KSy.declareAll : ∀ (ds : List (Name × W)) (c0 : CState), KSy c0 (declareAll ds) (fun _ _ => True)
  | [], n => KSy.pure _ (fun _ _ => trivial)
  | d :: ds, n => KSy.bind (KSy.ite (fun _ => KSy.declareLocal _) (fun _ => KSy.declareLocalArray _ _)) fun _ c1 h1 _ => KSy.declareAll ds c1

theorem KSy.genSt : ∀ (s : St) (sw : Option Nat) (cs : Cases) (c0 : CState), KSy c0 (genSt s sw cs) (fun _ _ => True)
  | .skip, _, _, n => KSy.pure _ (fun _ _ => trivial)
  | .seq s t, sw, cs, n => KSy.bind (KSy.genSt s sw cs n) fun cs c1 h1 _ => KSy.genSt t sw cs c1
  | .expr e, _, _, n => KSy.bind (KSy.genR e n) fun _ _ _ _ => KSy.pure _ (fun _ _ => trivial)
  | .ret none, _, _, n => KSy.bind (KSy.term1 _ rfl trivial) fun _ _ _ _ => KSy.pure _ (fun _ _ => trivial)
  | .ret (some e), _, _, n => KSy.bind (KSy.genR e n) fun v c1 h1 hv => KSy.bind (KSy.term1 _ rfl hv) fun _ _ _ _ => KSy.pure _ (fun _ _ => trivial)
  | .auto ds, _, _, n => KSy.bind (KSy.autoCheck ds [] n) fun _ c1 h1 _ => KSy.bind (KSy.declareAll _ c1) fun _ _ _ _ => KSy.pure _ (fun _ _ => trivial)
  | .extrn xs, _, _, n => KSy.bind (KSy.genExtrn xs n) fun _ _ _ _ => KSy.pure _ (fun _ _ => trivial)
  | .ifThen c t, _, _, n => KSy.bind (KSy.genR c n) fun v c1 h1 hv => KSy.bind (KSy.ifStart v hv) fun bs c2 h2 hb =>
      KSy.bind (KSy.setInsertPoint _) fun _ c3 h3 _ =>
      KSy.bind (KSy.genSt t none [] c3) fun _ c4 h4 _ => KSy.bind (KSy.brIfOpen _) fun _ c5 h5 _ => KSy.bind (KSy.setInsertPoint _) fun _ c6 h6 _ =>
      KSy.bind (KSy.brIfOpen _) fun _ c7 h7 _ => KSy.bind (KSy.setInsertPoint _) fun _ c8 h8 _ => KSy.pure _ (fun _ _ => trivial)
  | .ifElse c t e, _, _, n => KSy.bind (KSy.genR c n) fun v c1 h1 hv => KSy.bind (KSy.ifStart v hv) fun bs c2 h2 hb =>
      KSy.bind (KSy.setInsertPoint _) fun _ c3 h3 _ =>
      KSy.bind (KSy.genSt t none [] c3) fun _ c4 h4 _ => KSy.bind (KSy.brIfOpen _) fun _ c5 h5 _ => KSy.bind (KSy.setInsertPoint _) fun _ c6 h6 _ =>
      KSy.bind (KSy.genSt e none [] c6) fun _ c7 h7 _ =>
      KSy.bind (KSy.brIfOpen _) fun _ c8 h8 _ => KSy.bind (KSy.setInsertPoint _) fun _ c9 h9 _ => KSy.pure _ (fun _ _ => trivial)
  | .while c b, _, _, n => KSy.bind KSy.whileStart fun bs c1 h1 hb =>
      KSy.bind (KSy.genR c c1) fun v c2 h2 hv => KSy.bind (KSy.emit2 _ rfl hv trivial) fun d c3 h3 hd =>
      KSy.bind (KSy.term1 _ rfl hd) fun _ c4 h4 _ =>
      KSy.bind (KSy.setInsertPoint _) fun _ c5 h5 _ => KSy.bind (KSy.genSt b none [] c5) fun _ c6 h6 _ => KSy.bind (KSy.brIfOpen _) fun _ c7 h7 _ =>
      KSy.bind (KSy.setInsertPoint _) fun _ c8 h8 _ => KSy.pure _ (fun _ _ => trivial)
  | .switch e b, _, _, n => KSy.bind KSy.freshLabelID fun id c1 h1 _ => KSy.bind (KSy.genR e c1) fun v c2 h2 hv => KSy.bind (KSy.switchStart id) fun bs c3 h3 hb =>
      KSy.bind (KSy.genSt b (some id) [] c3) fun vs c4 h4 _ => KSy.bind (KSy.brIfOpen _) fun _ c5 h5 _ => KSy.bind (KSy.setInsertPoint _) fun _ c6 h6 _ =>
      KSy.bind (KSy.switchTerm id v _ vs (by carryS)) fun _ c7 h7 _ => KSy.bind (KSy.setInsertPoint _) fun _ c8 h8 _ => KSy.pure _ (fun _ _ => trivial)
  | .case v s, none, _, n => KSy.fail
  | .case v s, some id, cs, n => KSy.bind (KSy.genLabel _) fun _ c1 h1 _ => KSy.genSt s (some id) _ c1
  | .label l s, sw, cs, n => KSy.bind (KSy.genLabel _) fun _ c1 h1 _ => KSy.genSt s sw cs c1
  | .goto l, _, _, n => KSy.bind (KSy.genGoto l) fun _ c1 h1 _ => KSy.pure _ (fun _ _ => trivial)

theorem KSy.firstParam (p : Name) : KSy c0 (firstParam p) (fun _ _ => True) :=
  KSy.bind (KSy.emit0 _ rfl) fun a c1 h1 ha => KSy.bind (KSy.emit2 _ rfl trivial ha) fun _ c2 h2 _ => KSy.addLocal _ _ (h2.kn ha)

theorem KSy.vaParams (v : Val) : ∀ (ps : List Name) (c0 : CState), Kn c0 v → KSy c0 (vaParams v ps) (fun _ _ => True)
  | [], n, _ => KSy.pure _ (fun _ _ => trivial)
  | p :: ps, n, hv => KSy.bind (KSy.emit0 _ rfl) fun a c1 h1 ha => KSy.bind (KSy.emit1 _ rfl (h1.kn hv)) fun r c2 h2 hr =>
      KSy.bind (KSy.emit2 _ rfl hr (by carryS)) fun _ c3 h3 _ => KSy.bind (KSy.addLocal _ _ (by carryS)) fun _ c4 h4 _ => KSy.vaParams v ps c4 (by carryS)

theorem KSy.intrinsic (f a : Val) (hf : Kn c0 f) (ha : Kn c0 a) : KSy c0 (Blang.emit (.call f [a])) (fun _ _ => True) :=
  (KSy.emit2 _ rfl hf ha).imp fun _ _ _ => trivial

theorem KSy.paramCode (ps : List Name) : KSy c0 (paramCode ps) (fun _ _ => True) := by
  unfold Blang.paramCode
  split
  · exact KSy.pure _ (fun _ _ => trivial)
  · exact KSy.firstParam _
  · exact KSy.bind (KSy.firstParam _) fun _ c1 h1 _ => KSy.bind (KSy.emit0 _ rfl) fun a c2 h2 ha =>
      KSy.bind (KSy.emit1 _ rfl ha) fun l c3 h3 hl => KSy.bind (KSy.getOrCreateFunc _) fun f c4 h4 hf =>
      KSy.bind (KSy.intrinsic _ _ hf (h4.kn hl)) fun _ c5 h5 _ => KSy.bind (KSy.vaParams _ _ _ (by carryS)) fun _ c6 h6 _ =>
      KSy.bind (KSy.getOrCreateFunc _) fun g c7 h7 hg => KSy.bind (KSy.intrinsic _ _ hg (by carryS)) fun _ c8 h8 _ => KSy.pure _ (fun _ _ => trivial)

theorem FuncRun.syms {f : Name} {ps : List Name} {b : St} {c : CState} {bs : List Block} (r : FuncRun f ps b c bs)
    (hx : ∀ x v, lookup x r.c1.ctx = some v → Kn r.c1 v) (hf : ∀ x v, lookup x r.c1.functions = some v → Kn r.c1 v) :
    GeS r.c1 r.c3 ∧ ∀ B ∈ bs, (∀ p ∈ B.insts, ∀ v ∈ Inst.operands p.2, Kn r.c3 v) ∧ ∀ t, B.term = some t → ∀ v ∈ Term.operands t, Kn r.c3 v := by
  have f0 : SyInv (entered (defFunc f ps) r.c1) := by
    refine ⟨?_, ?_, ?_, hx, hf⟩
    · intro B hB
      simp [entered] at hB; subst hB; simp
    · intro B hB
      simp [entered] at hB; subst hB; simp
    · intro l j hj; simp [entered, lookup] at hj
  obtain ⟨f1, g1, _⟩ := KSy.paramCode ps _ _ _ r.entry f0 (.refl _)
  obtain ⟨f2, g2, _⟩ := KSy.genSt b _ _ _ _ _ _ r.body f1 (.refl _)
  refine ⟨⟨(g1.trans g2).glob, (g1.trans g2).func⟩, ?_⟩
  have hb := r.blocks
  have key : ∀ B ∈ closed r.c3, (∀ p ∈ B.insts, ∀ v ∈ Inst.operands p.2, Kn r.c3 v) ∧ ∀ t, B.term = some t → ∀ v ∈ Term.operands t, Kn r.c3 v := by
    unfold closed
    split
    · obtain ⟨f3, _⟩ := KSy.term1 (c0 := r.c3) (.ret (.const 0)) rfl trivial _ _ _ (setTerm_eq _ _) f2 (.refl _)
      exact fun B hB => ⟨f3.insts B hB, f3.terms B hB⟩
    · exact fun B hB => ⟨f2.insts B hB, f2.terms B hB⟩
  exact fun B hB => key B (hb ▸ hB)
end

/-- everything in the module refers to symbols of the module -/
structure Lk (c : CState) : Prop where
  code : ∀ F ∈ c.funcs, ∀ B ∈ F.blocks, (∀ p ∈ B.insts, ∀ v ∈ Inst.operands p.2, Kn c v) ∧ ∀ t, B.term = some t → ∀ v ∈ Term.operands t, Kn c v
  inits : ∀ g ∈ c.globals, ∀ k ∈ GInit.consts g.init, Const.Declared (modOf c) k

theorem GeS.const {c c' : CState} (h : GeS c c') {k : Const} (hk : Const.Declared (modOf c) k) : Const.Declared (modOf c') k := by
  cases k with
  | int n => trivial
  | addr s t i => exact h.glob s hk

/-- the functions keep their code -/
theorem Lk.grow {c c' : CState} (h : Lk c) (hg : GeS c c') (hf : ∀ F ∈ c'.funcs, F ∈ c.funcs ∨ F.blocks = [])
    (hi : ∀ g ∈ c'.globals, g ∈ c.globals ∨ ∀ k ∈ GInit.consts g.init, Const.Declared (modOf c') k) : Lk c' := by
  refine ⟨fun F hF B hB => ?_, fun g hgm k hk => ?_⟩
  · rcases hf F hF with hm | hm
    · have := h.code F hm B hB
      exact ⟨fun p hp v hv => hg.kn (this.1 p hp v hv), fun t ht v hv => hg.kn (this.2 t ht v hv)⟩
    · rw [hm] at hB; cases hB
  · rcases hi g hgm with hm | hm
    · exact hg.const (h.inits g hm k hk)
    · exact hm k hk

/-- string constants have been added -/
structure AddStr (c c' : CState) : Prop where
  funcs : c'.funcs = c.funcs
  globals : ∃ gs, c'.globals = c.globals ++ gs ∧ ∀ g ∈ gs, GInit.consts g.init = []

theorem AddStr.ge {c c' : CState} (h : AddStr c c') : GeS c c' := by
  obtain ⟨gs, e, _⟩ := h.globals
  exact ⟨by rw [e]; exact fun _ ⟨g, hg, hs⟩ => ⟨g, List.mem_append_left _ hg, hs⟩, by rw [h.funcs]; exact fun _ h => h⟩

theorem genIvals_str {vs : List Ival} {c c' : CState} {ks : List Const} (h : genIvals vs c = .ok ks c') :
    AddStr c c' ∧ ∀ k ∈ ks, Const.Declared (modOf c') k := by
  induction vs generalizing c ks with
  | nil => simp [genIvals] at h; obtain ⟨rfl, rfl⟩ := h; exact ⟨⟨rfl, [], by simp⟩, by simp⟩
  | cons v vs ih =>
    simp only [genIvals] at h
    obind h k c1 h1
    obind h ks' c2 h2
    simp at h; obtain ⟨rfl, rfl⟩ := h
    obtain ⟨⟨f1, gs, e1, e2⟩, i2⟩ := ih h2
    have hx : AddStr c c1 ∧ Const.Declared (modOf c1) k := by
      cases v with
      | int v => simp [genIval] at h1; obtain ⟨rfl, rfl⟩ := h1; exact ⟨⟨rfl, [], by simp⟩, trivial⟩
      | str s =>
        simp only [genIval] at h1
        obind h1 g c3 h3
        simp at h1; obtain ⟨rfl, rfl⟩ := h1
        cases h3
        exact ⟨⟨rfl, [_], rfl, by simp [GInit.consts]⟩, _, List.mem_append_right _ (by simp), rfl⟩
    obtain ⟨⟨f0, gs0, e0, e3⟩, hk⟩ := hx
    refine ⟨⟨f1.trans f0, gs0 ++ gs, by rw [e1, e0, List.append_assoc], ?_⟩, ?_⟩
    · intro g hg
      rcases List.mem_append.1 hg with hg | hg
      · exact e3 g hg
      · exact e2 g hg
    · intro k' hk'
      rcases List.mem_cons.1 hk' with rfl | hk'
      · exact (AddStr.ge ⟨f1, gs, e1, e2⟩).const hk
      · exact i2 k' hk'

/-- a variable declared anew -/
theorem Lk.redeclare {c c2 c' : CState} {x : Name} {ng : List GlobalDef} (h : Lk c) (hs : AddStr (removeGlobalByName c x) c2)
    (hf : c'.funcs = c2.funcs) (he : c'.globals = c2.globals ++ ng) (hx : ∃ g ∈ ng, g.sym = globalName x)
    (hk : ∀ g ∈ ng, ∀ k ∈ GInit.consts g.init, Const.Declared (modOf c') k) : Lk c' := by
  obtain ⟨f1, gs, e1, e2⟩ := hs
  have hg : GeS c c' := by
    refine ⟨fun s ⟨g, hm, e⟩ => ?_, fun s h => by rw [hf, f1]; exact h⟩
    rw [he, e1]
    by_cases hsx : g.sym = globalName x
    · obtain ⟨g', hm', e'⟩ := hx
      exact ⟨g', by simp [hm'], by rw [e', ← hsx, e]⟩
    · exact ⟨g, List.mem_append_left _ (List.mem_append_left _ (mem_eraseP_of_ne hm (by simp [hsx]))), e⟩
  refine h.grow hg (fun F hF => .inl (by rw [hf, f1] at hF; exact hF)) (fun g hm => ?_)
  rw [he, e1] at hm
  rcases List.mem_append.1 hm with hm | hm
  · rcases List.mem_append.1 hm with hm | hm
    · exact .inl (List.mem_of_mem_eraseP hm)
    · exact .inr (by rw [e2 g hm]; exact fun k hk => by cases hk)
  · exact .inr (hk g hm)

theorem genDecl_lk {d : Decl} {c c' : CState} (hn : d.All NameOk) {ss : List (List Nat)} (hI : ProgInv c ss)
    (hc : Lk c) (h : genDecl d c = .ok () c') : Lk c' := by
  cases d with
  | global x vals =>
    obtain ⟨ks, c2, k1, e⟩ := genDecl_global h
    subst e
    obtain ⟨a1, a2⟩ := genIvals_str k1
    have a3 := GeS.newGlobal c2 ⟨globalName x, valsInit ks, false⟩
    refine hc.redeclare (ng := [⟨globalName x, valsInit ks, false⟩]) a1 rfl rfl ⟨_, List.mem_singleton_self _, rfl⟩ ?_
    intro g hg k hk
    simp at hg; subst hg
    have : k = .int 0 ∨ k ∈ ks := by
      unfold valsInit at hk
      split at hk
      · simp [GInit.consts] at hk; exact .inl hk
      · simp [GInit.consts] at hk; exact .inr (by simp [hk])
      · exact .inr hk
    rcases this with rfl | hm
    · trivial
    · exact a3.const (a2 k hm)
  | vector x n vals =>
    obtain ⟨ks, c2, c3, g', k1, k3, e⟩ := genDecl_vector h
    subst e
    obtain ⟨a1, a2⟩ := genIvals_str k1
    cases k3 with
    | separate _ _ e e' =>
      subst e e'
      generalize (if n = 0 then BitVec.ofNat 64 ks.length else n) = size
      refine hc.redeclare (ng := [⟨globalName x ++ dataSuffix, .zero size.toNat, false⟩,
        ⟨globalName x, .arr 1 [.addr (globalName x ++ dataSuffix) (.arr size.toNat) 0], false⟩]) a1 rfl ?_ ⟨_, List.mem_cons_of_mem _ (List.mem_singleton_self _), rfl⟩ ?_
      · show (c2.globals ++ [_]) ++ [_] = _; rw [List.append_assoc]; rfl
      · intro g hg k hk
        simp only [List.mem_cons, List.not_mem_nil, or_false] at hg
        rcases hg with rfl | rfl
        · cases hk
        · simp [GInit.consts] at hk; subst hk
          exact ⟨⟨globalName x ++ dataSuffix, .zero size.toNat, false⟩, List.mem_append_left _ (List.mem_append_right _ (List.mem_singleton_self _)), rfl⟩
    | inline m hm _ e e' =>
      subst e e'
      have a3 := GeS.newGlobal c3 ⟨globalName x, .arr (m + 1).toNat (.addr (globalName x) (.arr (m + 1).toNat) 1 ::
        (List.range m.toInt.toNat).map fun i => ks.getD i (.int 0)), false⟩
      refine hc.redeclare (ng := [_]) a1 rfl rfl ⟨_, List.mem_singleton_self _, rfl⟩ ?_
      intro g hg k hk
      simp only [List.mem_singleton] at hg; subst hg
      simp only [GInit.consts, List.mem_cons, List.mem_map] at hk
      rcases hk with rfl | ⟨i, _, rfl⟩
      · exact ⟨_, List.mem_append_right _ (List.mem_singleton_self _), rfl⟩
      · by_cases hi : i < ks.length
        · rw [List.getD_eq_getElem?_getD, List.getElem?_eq_getElem hi]
          exact a3.const (a2 _ (List.getElem_mem hi))
        · rw [List.getD_eq_getElem?_getD, List.getElem?_eq_none (by omega)]; trivial
  | func f ps b =>
    obtain ⟨bs, r, rfl⟩ := genDecl_func hI.functions h
    have hk0 : Kn r.c1 (defFunc f ps).val := by rw [r.c1_eq]; exact ⟨defFunc f ps, List.mem_append_right _ (by simp), rfl⟩
    obtain ⟨g1, g2⟩ := r.syms (by rw [r.c1_eq]; intro x v hv; simp [hI.ctx, lookup] at hv) (by
      intro x v hv
      rw [r.c1_eq] at hv
      rcases lookup_insert_or hv with rfl | hv
      · exact hk0
      · simp [hI.functions, lookup] at hv)
    obtain ⟨fs, e1, e2, e3⟩ := r.funcs hn.2.1 hn.2.2
    obtain ⟨gs, e4, e5⟩ := r.gr hn.2.1 hn.2.2
    have hs := r.curSym hn.2.1 hn.2.2
    have hS := (r.str hI.str).1
    have nd := e3 hI.nodup
    have hgs : ∀ g ∈ gs, ∀ k ∈ GInit.consts g.init, Const.Declared (modOf r.c3) k := by
      intro g hg k hk
      rcases e5.1 g hg with hi | ⟨x, _, rfl⟩
      · have hm : g ∈ r.c3.globals.filter (·.priv) := List.mem_filter.2 ⟨by rw [e4]; exact List.mem_append_right _ hg, hi.1⟩
        rw [hS, List.mem_mapIdx] at hm
        obtain ⟨i, hi, rfl⟩ := hm
        cases hk
      · simp [gzero, GInit.consts] at hk; subst hk; trivial
    have hg : GeS c r.c3 := by
      refine GeS.trans ⟨?_, ?_⟩ g1
      · rw [r.c1_eq]; exact fun _ h => h
      · rw [r.c1_eq]; exact fun s h => mem_redeclare (F := defFunc f ps) h
    have h3 : Lk r.c3 := by
      refine hc.grow hg ?_ ?_
      · intro F hF
        rw [e1] at hF
        rcases List.mem_append.1 hF with hF | hF
        · rcases List.mem_append.1 hF with hF | hF
          · exact .inl (List.mem_of_mem_eraseP hF)
          · simp at hF; subst hF; exact .inr rfl
        · exact .inr (e2 _ hF).blocks
      · intro g hm
        rw [e4] at hm
        rcases List.mem_append.1 hm with hm | hm
        · rw [r.c1_eq] at hm; exact .inl hm
        · exact .inr (hgs g hm)
    have hg' : GeS r.c3 { r.c3 with
        funcs := r.c3.funcs.map fun g => if g.sym = r.c3.curSym then { g with blocks := bs } else g
        curSym := [], blocks := [], cur := 0, locals := [], labels := [] } := by
      refine ⟨fun _ h => h, fun s ⟨g, hm, e⟩ => ⟨_, List.mem_map_of_mem hm, ?_⟩⟩
      split <;> exact e
    refine ⟨fun F hF B hB => ?_, fun g hm k hk => hg'.const (h3.inits g hm k hk)⟩
    have hF : F ∈ r.c3.funcs.map fun g => if g.sym = r.c3.curSym then { g with blocks := bs } else g := hF
    obtain ⟨G, hG, e⟩ := List.mem_map.1 hF
    split at e
    · subst e
      have := g2 B hB
      exact ⟨fun p hp v hv => hg'.kn (this.1 p hp v hv), fun t ht v hv => hg'.kn (this.2 t ht v hv)⟩
    · subst e
      have := h3.code G hG B hB
      exact ⟨fun p hp v hv => hg'.kn (this.1 p hp v hv), fun t ht v hv => hg'.kn (this.2 t ht v hv)⟩

theorem Between.lk {p : Program} {c c' : CState} {ss : List (List Nat)} (h : Between p c c') (hn : ∀ d ∈ p, d.All NameOk) (hI : ProgInv c ss) (hc : Lk c) : Lk c' := by
  induction h generalizing ss with
  | nil => exact hc
  | cons h1 _ ih =>
    have hd := hn _ List.mem_cons_self
    have := genDecl_lk hd hI hc h1
    exact ih (fun d h => hn d (by simp [h])) (hI.decl hd h1) ⟨this.code, this.inits⟩

end Blang
