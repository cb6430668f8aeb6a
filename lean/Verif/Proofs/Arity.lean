import Verif.Proofs.Typing
import Verif.Proofs.ProgMain
/-
Every call by name of a function that the compiler knows with its definition becomes a call instruction of that function, and
stays in the code.
-/
namespace Blang
open Spec

/-- the instruction `i` stands in some block -/
def HasInst (c : CState) (q : Nat × Inst) : Prop := ∃ B ∈ c.blocks, q ∈ B.insts

/-- instructions are kept -/
def InsLe (c c' : CState) : Prop := ∀ q, HasInst c q → HasInst c' q

theorem InsLe.of_eq {c c' : CState} (h : c'.blocks = c.blocks) : InsLe c c' := fun q ⟨B, h1, h2⟩ => ⟨B, by rw [h]; exact h1, h2⟩

theorem InsLe.modify {c c' : CState} {n : Nat} {g : Block → Block} (h : c'.blocks = c.blocks.modify n g) (hg : ∀ B, ∀ q ∈ B.insts, q ∈ (g B).insts) : InsLe c c' := by
  rintro q ⟨B, h1, h2⟩
  obtain ⟨i, hi⟩ := List.getElem?_of_mem h1
  by_cases e : n = i
  · exact ⟨g B, by rw [h]; exact List.mem_of_getElem? (i := i) (by rw [List.getElem?_modify, hi]; simp [e]), hg _ _ h2⟩
  · exact ⟨B, by rw [h]; exact List.mem_of_getElem? (i := i) (by rw [List.getElem?_modify, hi]; simp [e]), h2⟩

theorem InsLe.append {c c' : CState} {bs : List Block} (h : c'.blocks = c.blocks ++ bs) : InsLe c c' :=
  fun q ⟨B, h1, h2⟩ => ⟨B, by rw [h]; exact List.mem_append_left _ h1, h2⟩

theorem InsLe.stable : SStable NameOk InsLe where
  refl c := fun _ h => h
  trans h1 h2 := fun q h => h2 q (h1 q h)
  emit i c a c' h := by cases h; exact .modify rfl fun B q h => List.mem_append_left _ h
  setTerm t c a c' h := by cases h; exact .modify rfl fun B q h => h
  newBlock n c a c' h := by cases h; exact .append rfl
  setInsertPoint n c a c' h := by cases h; exact .of_eq rfl
  freshLabelID c a c' h := by cases h; exact .of_eq rfl
  declFn c x v c' hP hf hx h := by
    unfold getOrDeclareFunction at h
    cases hl : lookup x c.functions with
    | some f => rw [hl] at h; cases h; exact .of_eq rfl
    | none =>
      rw [hl, hx] at h
      dsimp only at h
      cases h
      exact .of_eq rfl
  getOrCreateLabel n _ c a c' h := by
    unfold Blang.getOrCreateLabel at h
    cases hl : lookup n c.labels with
    | some b => rw [hl] at h; cases h; exact .of_eq rfl
    | none => rw [hl] at h; cases h; exact .append rfl
  declareExtrn n _ c a c' h := by
    unfold Blang.declareExtrn at h
    split at h
    · cases h; exact .of_eq rfl
    · split at h
      · cases h; exact .of_eq rfl
      · cases h
  addLocal c k v _ := .of_eq rfl
  createString s c a c' h := by cases h; exact .of_eq rfl

/-- functions and instructions are kept -/
def MRel (c c' : CState) : Prop := FR c c' ∧ InsLe c c'

theorem MRel.stable : SStable NameOk MRel where
  refl c := ⟨FR.stable.refl c, InsLe.stable.refl c⟩
  trans h1 h2 := ⟨h1.1.trans h2.1, InsLe.stable.trans h1.2 h2.2⟩
  emit i c a c' h := ⟨FR.stable.emit i c a c' h, InsLe.stable.emit i c a c' h⟩
  setTerm i c a c' h := ⟨FR.stable.setTerm i c a c' h, InsLe.stable.setTerm i c a c' h⟩
  newBlock i c a c' h := ⟨FR.stable.newBlock i c a c' h, InsLe.stable.newBlock i c a c' h⟩
  setInsertPoint i c a c' h := ⟨FR.stable.setInsertPoint i c a c' h, InsLe.stable.setInsertPoint i c a c' h⟩
  freshLabelID c a c' h := ⟨FR.stable.freshLabelID c a c' h, InsLe.stable.freshLabelID c a c' h⟩
  declFn c x v c' hP hf hx h := ⟨FR.stable.declFn c x v c' hP hf hx h, InsLe.stable.declFn c x v c' hP hf hx h⟩
  getOrCreateLabel n hn c a c' h := ⟨FR.stable.getOrCreateLabel n hn c a c' h, InsLe.stable.getOrCreateLabel n hn c a c' h⟩
  declareExtrn n hn c a c' h := ⟨FR.stable.declareExtrn n hn c a c' h, InsLe.stable.declareExtrn n hn c a c' h⟩
  addLocal c k v h := ⟨FR.stable.addLocal c k v h, InsLe.stable.addLocal c k v h⟩
  createString s c a c' h := ⟨FR.stable.createString s c a c' h, InsLe.stable.createString s c a c' h⟩

theorem FR.find {c c' : CState} (h : FR c c') {x : Name} {G : Func} (hG : findFuncByName c x = some G) : findFuncByName c' x = some G := by
  obtain ⟨_, _, fs, h1, _⟩ := h
  unfold findFuncByName at hG ⊢
  rw [h1, List.find?_append, hG]; rfl

/-- a call of `G` with `k` arguments stands in the code -/
def Called (c : CState) (G : Func) (k : Nat) : Prop := ∃ r as, HasInst c (r, .call G.val as) ∧ as.length = k

/-- known with its definition: with no or with one fixed parameter, not the placeholder of an unknown function -/
def Fixed (G : Func) : Prop := ¬ (G.variadic = true ∧ G.params.length = 0)

theorem InsLe.called {c c' : CState} (h : InsLe c c') {G : Func} {k : Nat} (hc : Called c G k) : Called c' G k :=
  hc.elim fun r ⟨as, h1, h2⟩ => ⟨r, as, h _ h1, h2⟩

/-- nothing is assumed of functions and calls -/
abbrev KWk {α : Type} (c0 : CState) (f : B α) (ok : CState → α → Prop) : Prop := KTy (fun _ _ _ => True) (fun _ _ => True) c0 f ok

theorem DOk.any : DOk (fun _ _ _ => True) (fun _ _ => True) := ⟨fun _ => trivial, fun _ _ => ⟨trivial, trivial⟩⟩

/-- `f` keeps functions and instructions; if `b` it makes the call `q` if the function is known with its definition -/
structure KMd (q : Name × Nat) {α : Type} (c0 : CState) (f : B α) (ok : CState → α → Prop) (b : Prop) : Prop where
  ty : KWk c0 f ok
  keeps : ∀ c a c', f c = .ok a c' → TInv (fun _ _ _ => True) (fun _ _ => True) c → Ge c0 c → MRel c c'
  made : b → ∀ c a c', f c = .ok a c' → TInv (fun _ _ _ => True) (fun _ _ => True) c → Ge c0 c → ∀ G, findFuncByName c q.1 = some G → Fixed G → Called c' G q.2

section
variable {q : Name × Nat} {α β : Type} {f : B α} {g : α → B β} {ok1 : CState → α → Prop} {ok2 : CState → β → Prop} {b1 b2 : Prop} {c0 : CState}

theorem KMd.leaf (h1 : KWk c0 f ok1) (h2 : Keeps MRel f) : KMd q c0 f ok1 False := ⟨h1, fun c a c' h _ _ => h2 c a c' h, False.elim⟩

theorem KMd.mono (h : KMd q c0 f ok1 b1) (hb : b2 → b1) : KMd q c0 f ok1 b2 := ⟨h.1, h.2, fun h' => h.3 (hb h')⟩

theorem KMd.bind (h1 : KMd q c0 f ok1 b1) (h2 : ∀ a c, Ge c0 c → ok1 c a → KMd q c (g a) ok2 b2) : KMd q c0 (f >>= g) ok2 (b1 ∨ b2) := by
  refine ⟨KTy.bind h1.1 fun a c hc ho => (h2 a c hc ho).1, fun c b c' hc hi hl => ?_, fun hb c b c' hc hi hl G hG hf => ?_⟩
  · obind hc a s h
    obtain ⟨i1, l1, o1⟩ := h1.1 _ _ _ h hi hl
    exact MRel.stable.trans (h1.2 _ _ _ h hi hl) ((h2 a s (hl.trans l1) o1).2 _ _ _ hc i1 (.refl _))
  · obind hc a s h
    obtain ⟨i1, l1, o1⟩ := h1.1 _ _ _ h hi hl
    rcases hb with hb | hb
    · exact ((h2 a s (hl.trans l1) o1).2 _ _ _ hc i1 (.refl _)).2.called (h1.3 hb _ _ _ h hi hl G hG hf)
    · exact (h2 a s (hl.trans l1) o1).3 hb _ _ _ hc i1 (.refl _) G ((h1.2 _ _ _ h hi hl).1.find hG) hf
end

theorem genArgs_length : ∀ (es : List Ex) {c c' : CState} {vs : List Val}, genArgs es c = .ok vs c' → vs.length = es.length
  | [], c, c', vs, h => by cases h; rfl
  | e :: es, c, c', vs, h => by
    simp only [genArgs] at h
    obind h v s h1
    obind h w s2 h2
    obind h ws s3 h3
    cases h
    simp [genArgs_length es h3]

theorem genCall_called {G : Func} (hG : Fixed G) {as : List Val} {c c' : CState} {v : Val} (h : genCall G.val as c = .ok v c')
    (hc : c.cur < c.blocks.length) : Called c' G as.length := by
  unfold Func.val genCall at h
  dsimp only at h
  rw [if_neg (fun h => hG ⟨h.1, h.2.1⟩)] at h
  cases h
  refine ⟨c.nextReg, as, ⟨_, List.mem_of_getElem? (i := c.cur) (by rw [List.getElem?_modify, List.getElem?_eq_getElem hc]; simp; rfl), ?_⟩, rfl⟩
  exact List.mem_append_right _ (List.mem_singleton_self _)

set_option quotPrecheck false in
local notation "LOK" => fun (c : CState) (v : LV) => VT c v.1 (LTy v)
set_option quotPrecheck false in
local notation "WOK" => fun (c : CState) (v : Val) => VT c v .word

theorem CIn_any {l : List (Name × Nat)} : CIn (fun _ _ => True) l := fun _ _ => trivial

/-- the call itself: callee, arguments, call -/
theorem KMd.callName {q : Name × Nat} {f : Name} {as : List Ex} {c0 : CState} (hf : NameOk f)
    (hargs : ∀ c0, KMd q c0 (genArgs as) (fun c vs => vs.length = as.length ∧ ∀ v ∈ vs, VT c v .word) (q ∈ Ex.callsArgs as)) :
    KMd q c0 (genL (.callName f as)) LOK (q ∈ Ex.calls (.callName f as)) := by
  have hc : KMd q c0 (genL (.callName f as)) LOK (False ∨ False ∨ q ∈ Ex.callsArgs as ∨ False ∨ False) :=
    KMd.bind (.leaf (KTy.genCallee DOk.any f) (MRel.stable.genCallee hf)) fun v c1 h1 hv => KMd.bind (.leaf (KTy.rvalCallee _ hv) (MRel.stable.rval _)) fun b c2 h2 hb =>
      KMd.bind (hargs c2) fun vs c3 h3 hvs => KMd.bind (.leaf (KTy.genCall DOk.any f _ _ ((h3.callable hb).imp (fun k => ⟨k, trivial⟩) id) hvs.2) (MRel.stable.genCall _ _))
        fun r c4 h4 hr => .leaf (KTy.pure _ (fun c hc => hc.vt hr)) (MRel.stable.pure _)
  refine ⟨hc.1, hc.2, fun hb c a c' h hi hl G hG hfx => ?_⟩
  rcases List.mem_cons.1 hb with e | hb
  · simp only [genL] at h
    obind h v s1 h1
    have e1 : v = (G.val, false) ∧ s1 = c := by
      unfold genCallee at h1
      rw [M.bind_ok (M.get_apply _)] at h1
      subst e
      rw [hG] at h1
      cases h1; exact ⟨rfl, rfl⟩
    obtain ⟨rfl, rfl⟩ := e1
    obind h w s2 h2
    have e2 : w = G.val ∧ s2 = s1 := by cases h2; exact ⟨rfl, rfl⟩
    obtain ⟨rfl, rfl⟩ := e2
    obind h vs s3 h3
    obind h r s4 h4
    cases h
    have := genCall_called hfx h4 ((hargs s2).1 _ _ _ h3 hi (.refl _)).1.cur
    subst e
    rwa [genArgs_length as h3] at this
  · exact hc.3 (.inr (.inr (.inl hb))) c a c' h hi hl G hG hfx

section
variable {q : Name × Nat}

mutual
theorem KMd.genL : ∀ (e : Ex) (_ : e.All NameOk) (c0 : CState), KMd q c0 (genL e) LOK (q ∈ e.calls)
  | .num v, _, n => .mono (.leaf (KTy.genL DOk.any (.num v) CIn_any n) (MRel.stable.pure _)) (by simp [Ex.calls])
  | .str v, hn, n => .mono (.leaf (KTy.genL DOk.any (.str v) CIn_any n) (MRel.stable.toE.genL _ hn)) (by simp [Ex.calls])
  | .var x, hn, n => .mono (.leaf (KTy.genL DOk.any (.var x) CIn_any n) (MRel.stable.toE.genL _ hn)) (by simp [Ex.calls])
  | .paren e, hn, n => .mono (KMd.bind (KMd.genL e hn n) fun a c1 h1 ha => .leaf (KTy.bind (KTy.rval _ ha) fun b c2 h2 hb => KTy.pure _ (fun c hc => hc.vt hb))
      (MRel.stable.bind (MRel.stable.rval _) fun _ => MRel.stable.pure _)) .inl
  | .index a i, hn, n => .mono (KMd.bind (KMd.genL a hn.1 n) fun v c1 h1 hv => KMd.bind (.leaf (KTy.rval _ hv) (MRel.stable.rval _)) fun b c2 h2 hb =>
      KMd.bind (.leaf (KTy.emit _ fun c hc => hc.vt hb) (MRel.stable.emit _)) fun p c3 h3 hp =>
      KMd.bind (KMd.genL i hn.2 c3) fun w c4 h4 hw => .leaf (KTy.bind (KTy.rval _ hw) fun w' c5 h5 hw' => KTy.bind (KTy.emit _ fun c hc => ⟨by carry, by carry⟩) fun r c6 h6 hr =>
      KTy.pure _ (fun c hc => hc.vt hr)) (MRel.stable.bind (MRel.stable.rval _) fun _ => MRel.stable.bind (MRel.stable.emit _) fun _ => MRel.stable.pure _))
      (fun h => by simp only [Ex.calls, List.mem_append] at h; rcases h with h | h <;> simp [h])
  | .callName f as, hn, n => KMd.callName hn.1 fun c0 => KMd.genArgs as hn.2 c0
  | .call f as, hn, n => .mono (KMd.bind (KMd.genL f hn.1 n) fun v c1 h1 hv => KMd.bind (.leaf (KTy.rval _ hv) (MRel.stable.rval _)) fun b c2 h2 hb => KMd.bind (KMd.genArgs as hn.2 c2) fun vs c3 h3 hvs =>
      .leaf (KTy.bind (KTy.genCall DOk.any [] _ _ (.inr (h3.vt hb)) hvs.2) fun r c4 h4 hr => KTy.pure _ (fun c hc => hc.vt hr)) (MRel.stable.bind (MRel.stable.genCall _ _) fun _ => MRel.stable.pure _))
      (fun h => by simp only [Ex.calls, List.mem_append] at h; rcases h with h | h <;> simp [h])
  | .post _ e, hn, n => .mono (KMd.bind (KMd.genL e hn n) fun v c1 h1 hv => .leaf (KTy.bind (KTy.needLval _ hv) fun b c2 h2 hb => KTy.bind (KTy.genPostfix _ _ hb) fun r c3 h3 hr =>
      KTy.pure _ (fun c hc => hc.vt hr)) (MRel.stable.bind (MRel.stable.needLval _) fun _ => MRel.stable.bind (MRel.stable.genPostfix _ _) fun _ => MRel.stable.pure _)) .inl
  | .pre _ e, hn, n => .mono (KMd.bind (KMd.genL e hn n) fun v c1 h1 hv => .leaf (KTy.bind (KTy.needLval _ hv) fun b c2 h2 hb => KTy.bind (KTy.genPrefix _ _ hb) fun r c3 h3 hr =>
      KTy.pure _ (fun c hc => hc.vt (h3.vt hb))) (MRel.stable.bind (MRel.stable.needLval _) fun _ => MRel.stable.bind (MRel.stable.genPrefix _ _) fun _ => MRel.stable.pure _)) .inl
  | .not e, hn, n => .mono (KMd.bind (KMd.genL e hn n) fun v c1 h1 hv => .leaf (KTy.bind (KTy.bind (KTy.rval _ hv) fun b c2 h2 hb => KTy.cmpOp _ _ _ hb rfl) fun r c3 h3 hr =>
      KTy.pure _ (fun c hc => hc.vt hr)) (MRel.stable.bind (MRel.stable.bind (MRel.stable.rval _) fun _ => MRel.stable.cmpOp _ _ _) fun _ => MRel.stable.pure _)) .inl
  | .neg e, hn, n => .mono (KMd.bind (KMd.genL e hn n) fun v c1 h1 hv => .leaf (KTy.bind (KTy.genNeg _ hv) fun r c3 h3 hr =>
      KTy.pure _ (fun c hc => hc.vt hr)) (MRel.stable.bind (MRel.stable.bind (MRel.stable.rval _) fun _ => MRel.stable.emit _) fun _ => MRel.stable.pure _)) .inl
  | .deref e, hn, n => .mono (KMd.bind (KMd.genL e hn n) fun v c1 h1 hv => .leaf (KTy.bind (KTy.genDeref _ hv) fun r c3 h3 hr =>
      KTy.pure _ (fun c hc => hc.vt hr)) (MRel.stable.bind (MRel.stable.bind (MRel.stable.rval _) fun _ => MRel.stable.emit _) fun _ => MRel.stable.pure _)) .inl
  | .addr e, hn, n => .mono (KMd.bind (KMd.genL e hn n) fun v c1 h1 hv => .leaf (KTy.bind (KTy.needLval _ hv) fun b c2 h2 hb => KTy.bind (KTy.emit _ fun c hc => .inl ⟨_, hc.vt hb⟩) fun r c3 h3 hr =>
      KTy.pure _ (fun c hc => hc.vt hr)) (MRel.stable.bind (MRel.stable.needLval _) fun _ => MRel.stable.bind (MRel.stable.emit _) fun _ => MRel.stable.pure _)) .inl
  | .bin _ l r, hn, n => .mono (KMd.bind (KMd.genL l hn.1 n) fun v c1 h1 hv => KMd.bind (.leaf (KTy.rval _ hv) (MRel.stable.rval _)) fun b c2 h2 hb => KMd.bind (KMd.genL r hn.2 c2) fun w c3 h3 hw =>
      .leaf (KTy.bind (KTy.rval _ hw) fun w' c4 h4 hw' => KTy.bind (KTy.genOp _ _ _ (by carry) hw') fun r c5 h5 hr => KTy.pure _ (fun c hc => hc.vt hr))
        (MRel.stable.bind (MRel.stable.rval _) fun _ => MRel.stable.bind (MRel.stable.genOp _ _ _) fun _ => MRel.stable.pure _))
      (fun h => by simp only [Ex.calls, List.mem_append] at h; rcases h with h | h <;> simp [h])
  | .cond cn t e, hn, n => .mono (KMd.bind (KMd.genL cn hn.1 n) fun v c1 h1 hv => KMd.bind (.leaf (KTy.rval _ hv) (MRel.stable.rval _)) fun b c2 h2 hb =>
      KMd.bind (.leaf (KTy.condStart _ hb) (MRel.stable.condStart _)) fun bs c3 h3 hbs =>
      have ⟨l1, l2, l3⟩ := hbs
      KMd.bind (.leaf (KTy.setInsertPoint _ l1) (MRel.stable.setInsertPoint _)) fun _ c4 h4 _ => KMd.bind (KMd.genL t hn.2.1 c4) fun tv c5 h5 htv =>
      KMd.bind (.leaf (KTy.rval _ htv) (MRel.stable.rval _)) fun tv' c6 h6 htv' =>
      KMd.bind (.leaf KTy.getInsertBlock MRel.stable.getInsertBlock) fun _ c7 h7 _ => KMd.bind (.leaf (KTy.setTerm _ fun _ _ => trivial) (MRel.stable.setTerm _)) fun _ c8 h8 _ =>
      KMd.bind (.leaf (KTy.setInsertPoint _ (by carry)) (MRel.stable.setInsertPoint _)) fun _ c9 h9 _ => KMd.bind (KMd.genL e hn.2.2 c9) fun ev c10 h10 hev =>
      .leaf (KTy.bind (KTy.rval _ hev) fun ev' c11 h11 hev' =>
      KTy.bind KTy.getInsertBlock fun _ c12 h12 _ => KTy.bind (KTy.setTerm _ fun _ _ => trivial) fun _ c13 h13 _ =>
      KTy.bind (KTy.setInsertPoint _ (by carry)) fun _ c14 h14 _ => KTy.bind (KTy.emit _ fun c hc => ⟨by carry, by carry⟩) fun r c15 h15 hr => KTy.pure _ (fun c hc => hc.vt hr))
        (MRel.stable.bind (MRel.stable.rval _) fun _ => MRel.stable.bind MRel.stable.getInsertBlock fun _ => MRel.stable.bind (MRel.stable.setTerm _) fun _ =>
          MRel.stable.bind (MRel.stable.setInsertPoint _) fun _ => MRel.stable.bind (MRel.stable.emit _) fun _ => MRel.stable.pure _))
      (fun h => by simp only [Ex.calls, List.mem_append] at h; rcases h with h | h | h <;> simp [h])
  | .assign _ l r, hn, n => .mono (KMd.bind (KMd.genL l hn.1 n) fun v c1 h1 hv => KMd.bind (.leaf (KTy.needLval _ hv) (MRel.stable.needLval _)) fun b c2 h2 hb => KMd.bind (KMd.genL r hn.2 c2) fun w c3 h3 hw =>
      .leaf (KTy.bind (KTy.rval _ hw) fun w' c4 h4 hw' => KTy.bind (KTy.genAssign _ _ _ (by carry) hw') fun r c5 h5 hr => KTy.pure _ (fun c hc => hc.vt hr))
        (MRel.stable.bind (MRel.stable.rval _) fun _ => MRel.stable.bind (MRel.stable.genAssign _ _ _) fun _ => MRel.stable.pure _))
      (fun h => by simp only [Ex.calls, List.mem_append] at h; rcases h with h | h <;> simp [h])

theorem KMd.genArgs : ∀ (es : List Ex) (_ : Ex.AllArgs NameOk es) (c0 : CState), KMd q c0 (genArgs es) (fun c vs => vs.length = es.length ∧ ∀ v ∈ vs, VT c v .word) (q ∈ Ex.callsArgs es)
  | [], _, n => .mono (.leaf (KTy.genArgs DOk.any [] CIn_any n) (MRel.stable.pure _)) (by simp [Ex.callsArgs])
  | e :: es, hn, n => .mono (KMd.bind (KMd.genL e hn.1 n) fun v c1 h1 hv => KMd.bind (.leaf (KTy.rval _ hv) (MRel.stable.rval _)) fun b c2 h2 hb => KMd.bind (KMd.genArgs es hn.2 c2) fun vs c3 h3 hvs =>
      .leaf (KTy.pure _ (fun c hc => ⟨by simp [hvs.1], fun w hw => by
        rcases List.mem_cons.1 hw with rfl | hw
        · carry
        · exact hc.vt (hvs.2 w hw)⟩)) (MRel.stable.pure _))
      (fun h => by simp only [Ex.callsArgs, List.mem_append] at h; rcases h with h | h <;> simp [h])
end

theorem KMd.genR (e : Ex) (hn : e.All NameOk) (c0 : CState) : KMd q c0 (genR e) WOK (q ∈ e.calls) :=
  .mono (KMd.bind (KMd.genL e hn c0) fun v c1 h1 hv => .leaf (KTy.rval _ hv) (MRel.stable.rval _)) .inl

theorem KMd.genSt : ∀ (s : St) (_ : s.All NameOk) (sw : Option Nat) (cs : Cases) (c0 : CState), KMd q c0 (genSt s sw cs) (fun _ _ => True) (q ∈ s.calls)
  | .skip, hn, sw, cs, n => .mono (.leaf (KTy.genSt DOk.any .skip CIn_any sw cs n) (MRel.stable.pure _)) (by simp [St.calls])
  | .seq s t, hn, sw, cs, n => .mono (KMd.bind (KMd.genSt s hn.1 sw cs n) fun cs c1 h1 _ => KMd.genSt t hn.2 sw cs c1) (by simp [St.calls])
  | .expr e, hn, _, _, n => .mono (KMd.bind (KMd.genR e hn n) fun _ _ _ _ => .leaf (KTy.pure _ (fun _ _ => trivial)) (MRel.stable.pure _)) .inl
  | .ret none, hn, sw, cs, n => .mono (.leaf (KTy.genSt DOk.any (.ret none) CIn_any sw cs n) (MRel.stable.genSt _ _ _ hn)) (by simp [St.calls])
  | .ret (some e), hn, _, _, n => .mono (KMd.bind (KMd.genR e hn n) fun v c1 h1 hv => .leaf (KTy.bind (KTy.setTerm _ fun c hc => hc.vt hv) fun _ _ _ _ => KTy.pure _ (fun _ _ => trivial))
      (MRel.stable.bind (MRel.stable.setTerm _) fun _ => MRel.stable.pure _)) .inl
  | .auto ds, hn, sw, cs, n => .mono (.leaf (KTy.genSt DOk.any (.auto ds) CIn_any sw cs n) (MRel.stable.genSt _ _ _ hn)) (by simp [St.calls])
  | .extrn xs, hn, sw, cs, n => .mono (.leaf (KTy.genSt DOk.any (.extrn xs) CIn_any sw cs n) (MRel.stable.genSt _ _ _ hn)) (by simp [St.calls])
  | .ifThen c t, hn, _, _, n => .mono (KMd.bind (KMd.genR c hn.1 n) fun v c1 h1 hv => KMd.bind (.leaf (KTy.ifStart v hv) (MRel.stable.ifStart _)) fun bs c2 h2 hb =>
      have ⟨l1, l2, l3⟩ := hb
      KMd.bind (.leaf (KTy.setInsertPoint _ l1) (MRel.stable.setInsertPoint _)) fun _ c3 h3 _ =>
      KMd.bind (KMd.genSt t hn.2 none [] c3) fun _ c4 h4 _ => .leaf (KTy.bind (KTy.brIfOpen _) fun _ c5 h5 _ => KTy.bind (KTy.setInsertPoint _ (by carry)) fun _ c6 h6 _ =>
      KTy.bind (KTy.brIfOpen _) fun _ c7 h7 _ => KTy.bind (KTy.setInsertPoint _ (by carry)) fun _ c8 h8 _ => KTy.pure _ (fun _ _ => trivial))
        (MRel.stable.bind (MRel.stable.brIfOpen _) fun _ => MRel.stable.bind (MRel.stable.setInsertPoint _) fun _ => MRel.stable.bind (MRel.stable.brIfOpen _) fun _ =>
          MRel.stable.bind (MRel.stable.setInsertPoint _) fun _ => MRel.stable.pure _))
      (fun h => by simp only [St.calls, List.mem_append] at h; rcases h with h | h <;> simp [h])
  | .ifElse c t e, hn, _, _, n => .mono (KMd.bind (KMd.genR c hn.1 n) fun v c1 h1 hv => KMd.bind (.leaf (KTy.ifStart v hv) (MRel.stable.ifStart _)) fun bs c2 h2 hb =>
      have ⟨l1, l2, l3⟩ := hb
      KMd.bind (.leaf (KTy.setInsertPoint _ l1) (MRel.stable.setInsertPoint _)) fun _ c3 h3 _ =>
      KMd.bind (KMd.genSt t hn.2.1 none [] c3) fun _ c4 h4 _ => KMd.bind (.leaf (KTy.brIfOpen _) (MRel.stable.brIfOpen _)) fun _ c5 h5 _ =>
      KMd.bind (.leaf (KTy.setInsertPoint _ (by carry)) (MRel.stable.setInsertPoint _)) fun _ c6 h6 _ =>
      KMd.bind (KMd.genSt e hn.2.2 none [] c6) fun _ c7 h7 _ => .leaf (KTy.bind (KTy.brIfOpen _) fun _ c8 h8 _ => KTy.bind (KTy.setInsertPoint _ (by carry)) fun _ c9 h9 _ => KTy.pure _ (fun _ _ => trivial))
        (MRel.stable.bind (MRel.stable.brIfOpen _) fun _ => MRel.stable.bind (MRel.stable.setInsertPoint _) fun _ => MRel.stable.pure _))
      (fun h => by simp only [St.calls, List.mem_append] at h; rcases h with h | h | h <;> simp [h])
  | .while c b, hn, _, _, n => .mono (KMd.bind (.leaf KTy.whileStart MRel.stable.whileStart) fun bs c1 h1 hb =>
      have ⟨l1, l2, l3⟩ := hb
      KMd.bind (KMd.genR c hn.1 c1) fun v c2 h2 hv => KMd.bind (.leaf (KTy.emit _ fun c hc => ⟨hc.vt hv, rfl⟩) (MRel.stable.emit _)) fun d c3 h3 hd =>
      KMd.bind (.leaf (KTy.setTerm _ fun c hc => hc.vt hd) (MRel.stable.setTerm _)) fun _ c4 h4 _ =>
      KMd.bind (.leaf (KTy.setInsertPoint _ (by carry)) (MRel.stable.setInsertPoint _)) fun _ c5 h5 _ => KMd.bind (KMd.genSt b hn.2 none [] c5) fun _ c6 h6 _ =>
      .leaf (KTy.bind (KTy.brIfOpen _) fun _ c7 h7 _ => KTy.bind (KTy.setInsertPoint _ (by carry)) fun _ c8 h8 _ => KTy.pure _ (fun _ _ => trivial))
        (MRel.stable.bind (MRel.stable.brIfOpen _) fun _ => MRel.stable.bind (MRel.stable.setInsertPoint _) fun _ => MRel.stable.pure _))
      (fun h => by simp only [St.calls, List.mem_append] at h; rcases h with h | h <;> simp [h])
  | .switch e b, hn, _, _, n => .mono (KMd.bind (.leaf KTy.freshLabelID MRel.stable.freshLabelID) fun id c1 h1 _ => KMd.bind (KMd.genR e hn.1 c1) fun v c2 h2 hv =>
      KMd.bind (.leaf (KTy.switchStart id) (MRel.stable.switchStart _)) fun bs c3 h3 hb =>
      have ⟨l1, l2⟩ := hb
      KMd.bind (KMd.genSt b hn.2 (some id) [] c3) fun vs c4 h4 _ => .leaf (KTy.bind (KTy.brIfOpen _) fun _ c5 h5 _ => KTy.bind (KTy.setInsertPoint _ (by carry)) fun _ c6 h6 _ =>
      KTy.bind (KTy.switchTerm id v _ vs (by carry)) fun _ c7 h7 _ => KTy.bind (KTy.setInsertPoint _ (by carry)) fun _ c8 h8 _ => KTy.pure _ (fun _ _ => trivial))
        (MRel.stable.bind (MRel.stable.brIfOpen _) fun _ => MRel.stable.bind (MRel.stable.setInsertPoint _) fun _ => MRel.stable.bind (MRel.stable.switchTerm _ _ _ _) fun _ =>
          MRel.stable.bind (MRel.stable.setInsertPoint _) fun _ => MRel.stable.pure _))
      (fun h => by simp only [St.calls, List.mem_append] at h; rcases h with h | h <;> simp [h])
  | .case v s, hn, none, cs, n => ⟨KTy.fail, (by intro c a c' h; cases h), (by intro _ c a c' h; cases h)⟩
  | .case v s, hn, some id, cs, n => .mono (KMd.bind (.leaf (KTy.genLabel _) (MRel.stable.genLabel (.inr ⟨_, _, rfl⟩))) fun _ c1 h1 _ => KMd.genSt s hn (some id) _ c1) .inr
  | .label l s, hn, sw, cs, n => .mono (KMd.bind (.leaf (KTy.genLabel _) (MRel.stable.genLabel (.inl hn.1))) fun _ c1 h1 _ => KMd.genSt s hn.2 sw cs c1) .inr
  | .goto l, hn, sw, cs, n => .mono (.leaf (KTy.genSt DOk.any (.goto l) CIn_any sw cs n) (MRel.stable.genSt _ _ _ hn)) (by simp [St.calls])
end


/-! ### programs -/

/-- the code of the last definition of a function -/
theorem Between.last {pre post : Program} {f : Ident} {ps : List Ident} {b : St} {c : CState}
    (h : Between (pre ++ Decl.func f ps b :: post) newCompiler c) (hn : ∀ d ∈ pre ++ Decl.func f ps b :: post, d.All NameOk)
    (hpost : ∀ qs b', Decl.func f qs b' ∉ post) :
    ∃ (c1 : CState) (F : Func), Between pre newCompiler c1 ∧ Nonempty (FuncRun f ps b c1 F.blocks) ∧ F ∈ c.funcs ∧ F.sym = globalName f ∧
      F.params = ps.take 1 ∧ F.variadic = decide (ps ≠ []) := by
  obtain ⟨c1, h1, h2⟩ := h.split
  have n1 : ∀ d ∈ pre, d.All NameOk := fun d hd => hn d (by simp [hd])
  have nf := hn (.func f ps b) (by simp)
  have n2 : ∀ d ∈ post, d.All NameOk := fun d hd => hn d (by simp [hd])
  have hI := h1.mid n1
  cases h2 with
  | @cons _ _ _ c2 _ h3 h4 =>
    obtain ⟨bs, r, rfl⟩ := genDecl_func hI.functions h3
    obtain ⟨fs, e1, _, _⟩ := r.funcs nf.2.1 nf.2.2
    have hs := r.curSym nf.2.1 nf.2.2
    have hm : ({ defFunc f ps with blocks := bs } : Func) ∈
        r.c3.funcs.map fun g => if g.sym = r.c3.curSym then { g with blocks := bs } else g := by
      rw [List.mem_map]
      refine ⟨defFunc f ps, by rw [e1]; simp, ?_⟩
      rw [if_pos (by rw [hs]; rfl)]
    have hfin := h4.keepsF (F := { defFunc f ps with blocks := bs }) rfl n2 hm (by
      intro d hd x hx e
      have := globalName_inj (show globalName f = globalName x from e)
      subst this
      cases d with
      | func g qs b' =>
        simp only [funName, Option.some.injEq] at hx
        subst hx
        exact hpost qs b' hd
      | _ => cases hx)
    exact ⟨c1, { defFunc f ps with blocks := bs }, h1, ⟨r⟩, hfin, rfl, rfl, rfl⟩

theorem exists_latest {p : Program} {f : Ident} {ps : List Ident} {b : St} (h : Decl.func f ps b ∈ p) :
    ∃ pre qs b' post, p = pre ++ Decl.func f qs b' :: post ∧ ∀ qs b', Decl.func f qs b' ∉ post := by
  induction p with
  | nil => cases h
  | cons d p ih =>
    by_cases hp : ∃ qs b', Decl.func f qs b' ∈ p
    · obtain ⟨qs, b', hp⟩ := hp
      have : ∃ ps b, Decl.func f ps b ∈ p := ⟨qs, b', hp⟩
      clear ih hp h
      induction p generalizing d with
      | nil => obtain ⟨_, _, h⟩ := this; cases h
      | cons e p ih =>
        by_cases hp : ∃ qs b', Decl.func f qs b' ∈ p
        · obtain ⟨pre, qs, b', post, e1, e2⟩ := ih e hp
          exact ⟨d :: pre, qs, b', post, by rw [e1]; rfl, e2⟩
        · obtain ⟨qs, b', h⟩ := this
          rcases List.mem_cons.1 h with rfl | h
          · exact ⟨[d], qs, b', p, rfl, fun qs b' h => hp ⟨qs, b', h⟩⟩
          · exact absurd ⟨qs, b', h⟩ hp
    · rcases List.mem_cons.1 h with rfl | h
      · exact ⟨[], ps, b, p, rfl, fun qs b' h => hp ⟨qs, b', h⟩⟩
      · exact absurd ⟨ps, b, h⟩ hp

/-- a function that is defined is known with its last definition -/
theorem Between.latest {q : Program} {c : CState} (h : Between q newCompiler c) (hn : ∀ d ∈ q, d.All NameOk) {x : Ident} {qs : List Ident}
    (hl : q.Latest x qs) : ∃ F ∈ c.funcs, F.sym = globalName x ∧ F.params = qs.take 1 ∧ F.variadic = decide (qs ≠ []) := by
  obtain ⟨pre, b, post, rfl, hp⟩ := hl
  obtain ⟨_, F, _, _, h1, h2, h3, h4⟩ := h.last hn hp
  exact ⟨F, h1, h2, h3, h4⟩

/-- the functions that the compiler may know after `q` -/
def KnownNow (q : Program) (s : Name) (v : Bool) (n : Nat) : Prop :=
  (isIntrinsic s = true ∧ v = false ∧ n = 1) ∨
  ∃ x, s = globalName x ∧ ((v = true ∧ n = 0) ∨ ∃ qs, q.Latest x qs ∧ n = (qs.take 1).length ∧ v = decide (qs ≠ []))

theorem Between.knownNow {q : Program} {c : CState} (h : Between q newCompiler c) (hn : ∀ d ∈ q, d.All NameOk) {F : Func} (hF : F ∈ c.funcs) :
    KnownNow q F.sym F.variadic F.params.length := by
  rcases h.known (fun d h => h) hn rfl rfl (by intro g hg; cases hg) (by intro g hg; cases hg) F hF with h1 | ⟨x, e, h1 | ⟨ps, b, hd, _, _⟩⟩
  · exact .inl h1
  · exact .inr ⟨x, e, .inl h1⟩
  · obtain ⟨pre, qs, b', post, e1, e2⟩ := exists_latest hd
    have hl : q.Latest x qs := ⟨pre, b', post, e1, e2⟩
    obtain ⟨G, g1, g2, g3, g4⟩ := h.latest hn hl
    have : F = G := nodup_map_inj (h.mid hn).nodup hF g1 (e.trans g2.symm)
    exact .inr ⟨x, e, .inr ⟨qs, hl, by rw [this, g3], by rw [this, g4]⟩⟩

theorem latest_keep {q : Program} {x f : Ident} {qs ps : List Ident} {b : St} (h : q.Latest x qs) (hx : x ≠ f) :
    Program.Latest (q ++ [Decl.func f ps b]) x qs := by
  obtain ⟨pre, b', post, rfl, h2⟩ := h
  refine ⟨pre, b', post ++ [Decl.func f ps b], by simp, fun rs b'' hm => ?_⟩
  rcases List.mem_append.1 hm with hm | hm
  · exact h2 _ _ hm
  · simp at hm; exact hx hm.1

theorem latest_self (q : Program) (f : Ident) (ps : List Ident) (b : St) : Program.Latest (q ++ [Decl.func f ps b]) f ps :=
  ⟨q, b, [], rfl, by simp⟩

theorem latest_cases {q : Program} {x f : Ident} {qs ps : List Ident} {b : St} (h : Program.Latest (q ++ [Decl.func f ps b]) x qs) :
    (x = f ∧ qs = ps) ∨ (x ≠ f ∧ q.Latest x qs) := by
  obtain ⟨pre, b', post, e, h2⟩ := h
  rcases List.eq_nil_or_concat post with rfl | ⟨post, d, rfl⟩
  · have := List.append_inj' e rfl
    simp at this
    obtain ⟨_, rfl, rfl, _⟩ := this
    exact .inl ⟨rfl, rfl⟩
  · rw [show pre ++ Decl.func x qs b' :: post.concat d = (pre ++ Decl.func x qs b' :: post) ++ [d] by simp] at e
    obtain ⟨rfl, e2⟩ := List.append_inj' e rfl
    simp at e2
    subst e2
    refine .inr ⟨?_, pre, b', post, rfl, fun rs b'' hm => h2 rs b'' (by simp [hm])⟩
    rintro rfl
    exact h2 ps b (by simp)

/-- what the compiler knows when it compiles the body of `f` -/
theorem FuncRun.knownNow {pre : Program} {f : Ident} {ps : List Ident} {b : St} {c1 : CState} {bs : List Block} (r : FuncRun f ps b c1 bs)
    (h : Between pre newCompiler c1) (hn : ∀ d ∈ pre, d.All NameOk) {F : Func} (hF : F ∈ r.c1.funcs) :
    KnownNow (pre ++ [Decl.func f ps b]) F.sym F.variadic F.params.length := by
  rw [r.c1_eq] at hF
  have hF : F ∈ c1.funcs.eraseP _ ++ [_] := hF
  have hnd := (eraseP_sym c1.funcs (globalName f) (h.mid hn).nodup).2
  rcases List.mem_append.1 hF with hF | hF
  · rcases h.knownNow hn (List.mem_of_mem_eraseP hF) with k | ⟨x, e, k | ⟨qs, k1, k2⟩⟩
    · exact .inl k
    · exact .inr ⟨x, e, .inl k⟩
    · refine .inr ⟨x, e, .inr ⟨qs, latest_keep k1 ?_, k2⟩⟩
      rintro rfl
      exact hnd (List.mem_map.2 ⟨F, hF, e⟩)
  · simp at hF; subst hF
    exact .inr ⟨f, rfl, .inr ⟨ps, latest_self _ _ _ _, rfl, rfl⟩⟩

theorem FuncRun.tinv {D : Name → Bool → Nat → Prop} {R : Name → Nat → Prop} {pre : Program} {f : Ident} {ps : List Ident} {b : St} {c1 : CState} {bs : List Block} (r : FuncRun f ps b c1 bs)
    (h : Between pre newCompiler c1) (hn : ∀ d ∈ pre, d.All NameOk) (hD : DOk D R) (hF : ∀ F ∈ r.c1.funcs, D F.sym F.variadic F.params.length) : TInv D R r.c2 := by
  have hI := h.mid hn
  have f0 : TInv D R (entered (defFunc f ps) r.c1) := by
    refine ⟨?_, by simp [entered], ?_, ?_, ?_, ?_, hF, ?_⟩
    · intro B hB
      simp [entered] at hB; subst hB; simp
    · intro l j hj; simp [entered, lookup] at hj
    · intro l j hj; simp [entered, lookup] at hj
    · rw [r.c1_eq]; intro x v hv; simp [entered, hI.ctx, lookup] at hv
    · have hF' := hF
      rw [r.c1_eq] at hF' ⊢
      intro x v hv
      rcases lookup_insert_or' hv with ⟨rfl, rfl⟩ | hv
      · exact ⟨_, _, rfl, hF' (defFunc x ps) (List.mem_append_right _ (List.mem_singleton_self _))⟩
      · simp [hI.functions, lookup] at hv
    · rw [r.c1_eq]; exact h.noBytes hn rfl rfl (by intro g hg; cases hg)
  exact (KTy.paramCode hD ps _ _ _ r.entry f0 (.refl _)).1

/-- a call of the body is in the code -/
theorem FuncRun.called {pre : Program} {f : Ident} {ps : List Ident} {b : St} {c1 : CState} {bs : List Block} (r : FuncRun f ps b c1 bs)
    (h : Between pre newCompiler c1) (hn : ∀ d ∈ pre ++ [Decl.func f ps b], d.All NameOk) {g : Ident} {k : Nat} (hc : (g, k) ∈ b.calls) {qs : List Ident}
    (hl : Program.Latest (pre ++ [Decl.func f ps b]) g qs) :
    ∃ B ∈ bs, ∃ n as, (n, Inst.call (.func (globalName g) (decide (qs ≠ [])) (qs.take 1).length) as) ∈ B.insts ∧ as.length = k := by
  have n1 : ∀ d ∈ pre, d.All NameOk := fun d hd => hn d (by simp [hd])
  have nf := hn (.func f ps b) (by simp)
  have hI := h.mid n1
  -- the function in the table
  obtain ⟨G, g1, g2, g3, g4⟩ : ∃ G ∈ r.c1.funcs, G.sym = globalName g ∧ G.params = qs.take 1 ∧ G.variadic = decide (qs ≠ []) := by
    rw [r.c1_eq]
    rcases latest_cases hl with ⟨rfl, rfl⟩ | ⟨hne, hl⟩
    · exact ⟨defFunc g qs, List.mem_append_right _ (List.mem_singleton_self _), rfl, rfl, rfl⟩
    · obtain ⟨G, g1, g2, g3, g4⟩ := h.latest n1 hl
      refine ⟨G, List.mem_append_left _ ((List.mem_eraseP_of_neg ?_).2 g1), g2, g3, g4⟩
      simp only [decide_eq_true_eq, g2]
      exact fun e => hne (globalName_inj e)
  have hfr : FR (entered (defFunc f ps) r.c1) r.c2 :=
    paramCode_keeps FR.stable.toQStable (getOrCreateFunc_FR _ (.inl rfl)) (getOrCreateFunc_FR _ (.inr rfl)) ps nf.2.1 _ _ _ r.entry
  have hfind : findFuncByName r.c2 g = some G := by
    have hnd : (r.c1.funcs.map Func.sym).Nodup := by
      obtain ⟨fs, e1, _, e3⟩ := r.funcs nf.2.1 nf.2.2
      have := e3 hI.nodup
      rw [e1] at this
      rw [r.c1_eq]
      exact (List.map_append ▸ this : _).sublist (List.sublist_append_left _ _)
    have : findFuncByName (entered (defFunc f ps) r.c1) g = some G := by
      unfold findFuncByName
      have hsm : (r.c1.funcs.find? fun F : Func => decide (F.sym = globalName g)).isSome := List.find?_isSome.2 ⟨G, g1, by simpa using g2⟩
      obtain ⟨G', hG'⟩ := Option.isSome_iff_exists.1 hsm
      have e1 := List.mem_of_find?_eq_some hG'
      have e2 := List.find?_some hG'
      simp only [decide_eq_true_eq] at e2
      rw [nodup_map_inj hnd e1 g1 (e2.trans g2.symm)] at hG'
      exact hG'
    exact hfr.find this
  have hfix : Fixed G := by
    rintro ⟨a, b⟩
    rw [g4] at a; rw [g3] at b
    cases qs <;> simp at a b
  have hT : TInv (fun _ _ _ => True) (fun _ _ => True) r.c2 := r.tinv h n1 DOk.any fun _ _ => trivial
  obtain ⟨n, as, ⟨B, hB, hm⟩, e⟩ := (KMd.genSt (q := (g, k)) b nf.2.2 none [] r.c2).made hc _ _ _ r.body hT (.refl _) G hfind hfix
  have e2 : G.val = .func (globalName g) (decide (qs ≠ [])) (qs.take 1).length := by rw [Func.val, g2, g3, g4]
  rw [e2] at hm
  rw [r.blocks]
  unfold closed
  split
  · obtain ⟨B', hB', hm'⟩ := InsLe.modify (c := r.c3) (c' := { r.c3 with blocks := _ }) (n := r.c3.cur) (g := fun b => { b with term := some (.ret (.const 0)) }) rfl
      (fun _ _ h => h) _ ⟨B, hB, hm⟩
    exact ⟨B', hB', n, as, hm', e⟩
  · exact ⟨B, hB, n, as, hm, e⟩

theorem takes_iff {qs : List Ident} {k : Nat} : Takes (qs.take 1).length (decide (qs ≠ [])) k ↔ (qs = [] ↔ k = 0) := by
  unfold Takes
  cases qs with
  | nil => simp
  | cons a qs => simp; omega

/-- the calls of a definition pass the number of arguments that is demanded if they fit the definitions before -/
theorem FuncRun.arity {pre : Program} {f : Ident} {ps : List Ident} {b : St} {c1 : CState} {bs : List Block} (r : FuncRun f ps b c1 bs)
    (h : Between pre newCompiler c1) (hn : ∀ d ∈ pre, d.All NameOk)
    (hc : ∀ g k, (g, k) ∈ b.calls → ∀ qs, Program.Latest (pre ++ [Decl.func f ps b]) g qs → (qs = [] ↔ k = 0)) : CodeArity bs := by
  have hI := h.mid hn
  let D := KnownNow (pre ++ [Decl.func f ps b])
  let R : Name → Nat → Prop := fun s k => (isIntrinsic s = true ∧ k = 1) ∨ ∃ x, s = globalName x ∧ (x, k) ∈ b.calls
  have hD : DOk D R := ⟨fun x => .inr ⟨x, rfl, .inl ⟨rfl, rfl⟩⟩, fun s hs => ⟨.inl ⟨hs, rfl, rfl⟩, .inl ⟨hs, rfl⟩⟩⟩
  have hF : ∀ F ∈ r.c1.funcs, D F.sym F.variadic F.params.length := fun F hF => r.knownNow h hn hF
  have ht := (r.typed' hD (fun q hq => .inr ⟨q.1, rfl, hq⟩) (by rw [r.c1_eq]; intro x v hv; simp [hI.ctx, lookup] at hv) (by
      have hF' := hF
      rw [r.c1_eq] at hF' ⊢
      intro x v hv
      rcases lookup_insert_or' hv with ⟨rfl, rfl⟩ | hv
      · exact ⟨_, _, rfl, hF' (defFunc x ps) (List.mem_append_right _ (List.mem_singleton_self _))⟩
      · simp [hI.functions, lookup] at hv) hF (by rw [r.c1_eq]; exact h.noBytes hn rfl rfl (by intro g hg; cases hg))).1
  intro B hB ⟨n, i⟩ hi
  have := ((ht B hB).1 _ hi).2
  cases i with
  | call f as =>
    cases f with
    | func s v n =>
      refine ⟨n, v, rfl, ?_⟩
      obtain ⟨h1, h2⟩ := this
      rcases h1 with ⟨hs, rfl, rfl⟩ | ⟨x, rfl, h1⟩
      · rcases h2 with ⟨_, e⟩ | ⟨x, rfl, _⟩
        · simp [Takes, e]
        · rw [intrinsic_ne] at hs; cases hs
      · rcases h2 with ⟨h, _⟩ | ⟨y, e, h2⟩
        · rw [intrinsic_ne] at h; cases h
        · cases globalName_inj e
          rcases h1 with ⟨rfl, rfl⟩ | ⟨qs, hq, rfl, rfl⟩
          · simp [Takes]
          · exact takes_iff.2 (hc _ _ h2 _ hq)
    | _ => exact this
  | _ => trivial

end Blang
