import Verif.Proofs.ModInv
/-
Invariants of the module at the boundaries of declarations.
-/
namespace Blang
open Spec

/-! ### start and end of a function -/

section
variable {R : CState → CState → Prop} {P : Name → Prop}

theorem QStable.firstParam (h : QStable P R) {p : Name} (hP : P p) : Keeps R (firstParam p) :=
  h.bind (h.emit _) fun _ => h.bind (h.emit _) fun _ => fun c a c' hc => by
    simp at hc; rw [← hc]; exact h.addLocal _ _ _ hP

theorem QStable.vaParams (h : QStable P R) (v : Val) (ps : List Name) (hP : ∀ p ∈ ps, P p) : Keeps R (vaParams v ps) := by
  induction ps with
  | nil => exact h.pure _
  | cons p ps ih =>
    refine h.bind (h.emit _) fun _ => h.bind (h.emit _) fun _ => h.bind (h.emit _) fun _ => h.bind ?_ fun _ =>
      ih fun x hx => hP x (by simp [hx])
    intro c a c' hc
    simp at hc; rw [← hc]; exact h.addLocal _ _ _ (hP p (by simp))
end

/-- the state in which `StartFunction` begins to emit code -/
def entered (fn : Func) (c : CState) : CState :=
  { c with curSym := fn.sym, locals := [], labels := [], blocks := [⟨"entry".toList, [], none⟩], cur := 0 }

/-- `StartFunction` after the state has been reset -/
def paramCode (ps : List Name) : B Unit :=
  match ps with
  | [] => pure ()
  | [p] => firstParam p
  | p :: ps => do
    firstParam p
    let vaArray ← emit (.alloca (.bytes 48))
    let vaListPtr ← emit (.gepField (.bytes 48) vaArray 0)
    let vaStart ← getOrCreateFunc "llvm.va_start".toList
    let _ ← emit (.call vaStart [vaListPtr])
    vaParams vaListPtr ps
    let vaEnd ← getOrCreateFunc "llvm.va_end".toList
    let _ ← emit (.call vaEnd [vaListPtr])

theorem startFunction_eq (fn : Func) (c : CState) :
    startFunction fn c = paramCode (startParams c.functions c.functionParams fn.val) (entered fn c) := by
  unfold startFunction
  rw [M.bind_ok (M.modify_apply _ _), M.bind_ok (M.get_apply _)]
  unfold paramCode entered
  rfl

/-- a stable relation that also holds for the declaration of intrinsics -/
theorem paramCode_keeps {P : Name → Prop} {R : CState → CState → Prop} (h : QStable P R)
    (hs : Keeps R (getOrCreateFunc "llvm.va_start".toList)) (he : Keeps R (getOrCreateFunc "llvm.va_end".toList))
    (ps : List Name) (hP : ∀ p ∈ ps, P p) : Keeps R (paramCode ps) := by
  unfold paramCode
  split
  · exact h.pure _
  · exact h.firstParam (hP _ (by simp))
  · refine h.bind (h.firstParam (hP _ (by simp))) fun _ => h.bind (h.emit _) fun _ => h.bind (h.emit _) fun _ =>
      h.bind hs fun _ => h.bind (h.emit _) fun _ => h.bind (h.vaParams _ _ fun x hx => hP x (by simp [hx])) fun _ =>
      h.bind he fun _ => ?_
    exact h.bind (h.emit _) fun _ => h.pure _

theorem getOrCreateFunc_FR (n : Name) (hn : n = "llvm.va_start".toList ∨ n = "llvm.va_end".toList) :
    Keeps FR (getOrCreateFunc n) := by
  intro c a c' h
  unfold getOrCreateFunc at h
  cases hf : c.funcs.find? (fun f => decide (f.sym = n)) with
  | some f => rw [hf] at h; cases h; exact .of_eq rfl rfl rfl
  | none =>
    rw [hf] at h; cases h
    refine FR.add (f := vaDecl n) ?_ ?_
    · rcases hn with rfl | rfl
      · exact .inr (.inl rfl)
      · exact .inr (.inr rfl)
    · intro hm
      rw [List.mem_map] at hm
      obtain ⟨g, h1, h2⟩ := hm
      have := List.find?_eq_none.1 hf g h1
      simp [h2, vaDecl] at this

theorem getOrCreateFunc_GR (n : Name) : Keeps GR (getOrCreateFunc n) := by
  intro c a c' h
  unfold getOrCreateFunc at h
  split at h <;> cases h <;> exact .of_eq rfl

theorem getOrCreateFunc_SR (n : Name) : Keeps SR (getOrCreateFunc n) := by
  intro c a c' h
  unfold getOrCreateFunc at h
  split at h <;> cases h <;> exact .of_eq rfl rfl

/-- `if Term == nil { ret 0 }` on the block list -/
def closed (c : CState) : List Block :=
  if curTerm c = none then c.blocks.modify c.cur fun b => { b with term := some (.ret (.const 0)) } else c.blocks

theorem endFunction_eq (c : CState) : endFunction c = .ok () { c with
    funcs := c.funcs.map fun f => if f.sym = c.curSym then { f with blocks := closed c } else f
    curSym := [], blocks := [], cur := 0, locals := [], labels := [] } := by
  unfold endFunction closeLast
  rw [M.bind_apply, M.bind_ok (M.get_apply _)]
  by_cases h : curTerm c = none
  · rw [if_pos h]
    simp [setTerm, closed, h]
  · rw [if_neg h]
    simp [closed, h]

/-- the parameters of the function that has just been declared -/
theorem startParams_declared {c c1 : CState} {fn : Func} {f : Name} {ps : List Name} (hc : c.functions = [])
    (h : declareFunction f ps c = .ok fn c1) : startParams c1.functions c1.functionParams fn.val = ps := by
  unfold declareFunction at h
  simp only [R.ok.injEq] at h
  obtain ⟨rfl, rfl⟩ := h
  have : (removeFuncByName c f).functions = [] := hc
  simp [startParams, insert, lookup, removeFuncByName, newFunc]

/-- the function that `DeclareFunction` adds -/
def defFunc (f : Name) (ps : List Name) : Func := ⟨globalName f, ps.take 1, decide (ps ≠ []), []⟩

theorem declareFunction_eq (f : Name) (ps : List Name) (c : CState) : declareFunction f ps c =
    .ok (defFunc f ps)
      { c with funcs := c.funcs.eraseP (fun g => g.sym = globalName f) ++ [defFunc f ps]
               functionParams := insert f ps c.functionParams
               functions := insert f (defFunc f ps).val c.functions } := by
  cases ps <;> simp [declareFunction, defFunc, removeFuncByName, newFunc]

/-! ### one function definition -/

/-- the code of a function: what happens between the state `c` and the finished block list -/
structure FuncRun (f : Name) (ps : List Name) (b : St) (c : CState) (bs : List Block) where
  c1 : CState
  c2 : CState
  c3 : CState
  cs : Cases
  decl : declareFunction f ps c = .ok (defFunc f ps) c1
  entry : paramCode ps (entered (defFunc f ps) c1) = .ok () c2
  body : genSt b none [] c2 = .ok cs c3
  blocks : bs = closed c3

theorem genDecl_func {f : Name} {ps : List Name} {b : St} {c c' : CState} (hc : c.functions = [])
    (h : genDecl (.func f ps b) c = .ok () c') :
    ∃ (bs : List Block) (r : FuncRun f ps b c bs), c' = { r.c3 with
      funcs := r.c3.funcs.map fun g => if g.sym = r.c3.curSym then { g with blocks := bs } else g
      curSym := [], blocks := [], cur := 0, locals := [], labels := [] } := by
  simp only [genDecl] at h
  rw [M.bind_ok (declareFunction_eq f ps c)] at h
  obind h u c2 h2
  obind h cs c3 h3
  rw [endFunction_eq] at h
  rw [startFunction_eq, startParams_declared hc (declareFunction_eq f ps c)] at h2
  refine ⟨closed c3, ⟨_, c2, c3, cs, declareFunction_eq f ps c, h2, h3, rfl⟩, ?_⟩
  cases h; rfl

/-! ### the invariant -/

/-- the symbol of a function -/
def FSym (s : Name) : Prop :=
  (∃ x, NameOk x ∧ s = globalName x) ∨ s = "llvm.va_start".toList ∨ s = "llvm.va_end".toList

/-- the symbol of a global that is no string constant -/
def GSym (s : Name) : Prop := ∃ x, NameOk x ∧ (s = globalName x ∨ s = globalName x ++ dataSuffix)

structure ProgInv (c : CState) (ss : List (List Nat)) : Prop where
  nodup : (c.funcs.map Func.sym).Nodup
  fsym : ∀ f ∈ c.funcs, FSym f.sym
  gsym : ∀ g ∈ c.globals, g.priv = true ∨ GSym g.sym
  ginv : GInv c
  str : StrInv c ss
  ctx : c.ctx = []
  functions : c.functions = []
  functionParams : c.functionParams = []

theorem ProgInv.init : ProgInv newCompiler [] :=
  ⟨by simp [newCompiler], by simp [newCompiler], by simp [newCompiler], by intro x _; simp [newCompiler],
    ⟨rfl, rfl⟩, rfl, rfl, rfl⟩

theorem NewF.fsym {f : Func} (h : NewF f) : FSym f.sym := by
  rcases h with ⟨x, hx, rfl⟩ | rfl | rfl
  · exact .inl ⟨x, hx, rfl⟩
  · exact .inr (.inl rfl)
  · exact .inr (.inr rfl)

theorem NewF.blocks {f : Func} (h : NewF f) : f.blocks = [] := by
  rcases h with ⟨x, hx, rfl⟩ | rfl | rfl <;> rfl

theorem GR.gsym {c c' : CState} (h : GR c c') (hg : ∀ g ∈ c.globals, g.priv = true ∨ GSym g.sym) :
    ∀ g ∈ c'.globals, g.priv = true ∨ GSym g.sym := by
  obtain ⟨gs, h1, h2, _⟩ := h
  rw [h1]
  intro g hm
  rw [List.mem_append] at hm
  rcases hm with hm | hm
  · exact hg g hm
  · rcases h2 g hm with h | ⟨x, hx, rfl⟩
    · exact .inl h.1
    · exact .inr ⟨x, hx, .inl rfl⟩

theorem map_sym_eq (bs : List Block) (s : Name) (fs : List Func) :
    (fs.map fun g => if g.sym = s then { g with blocks := bs } else g).map Func.sym = fs.map Func.sym := by
  rw [List.map_map]
  apply List.map_congr_left
  intro g _
  simp only [Function.comp]
  split <;> rfl

section
variable {f : Name} {ps : List Name} {b : St} {c : CState} {bs : List Block}

theorem FuncRun.c1_eq (r : FuncRun f ps b c bs) : r.c1 =
    { c with funcs := c.funcs.eraseP (fun g => g.sym = globalName f) ++ [defFunc f ps]
             functionParams := insert f ps c.functionParams
             functions := insert f (defFunc f ps).val c.functions } := by
  have := r.decl; rw [declareFunction_eq] at this
  simp only [R.ok.injEq, true_and] at this; exact this.symm

theorem FuncRun.fr (r : FuncRun f ps b c bs) (hp : ∀ x ∈ ps, NameOk x) (hb : b.All NameOk) :
    FR (entered (defFunc f ps) r.c1) r.c3 :=
  (paramCode_keeps FR.stable.toQStable (getOrCreateFunc_FR _ (.inl rfl)) (getOrCreateFunc_FR _ (.inr rfl)) ps hp _ _ _
    r.entry).trans (FR.stable.genSt b none [] hb _ _ _ r.body)

theorem FuncRun.gr (r : FuncRun f ps b c bs) (hp : ∀ x ∈ ps, NameOk x) (hb : b.All NameOk) :
    GR (entered (defFunc f ps) r.c1) r.c3 :=
  GR.stable.trans (paramCode_keeps GR.stable.toQStable (getOrCreateFunc_GR _) (getOrCreateFunc_GR _) ps hp _ _ _
    r.entry) (GR.stable.genSt b none [] hb _ _ _ r.body)

theorem FuncRun.str (r : FuncRun f ps b c bs) {ss : List (List Nat)} (h : StrInv c ss) : StrInv r.c3 (ss ++ b.strings) := by
  refine genSt_adds b none [] _ _ _ _ r.body ?_
  refine paramCode_keeps (P := fun _ => True) SR.stable (getOrCreateFunc_SR _) (getOrCreateFunc_SR _) ps (by simp) _ _ _
    r.entry _ ?_
  have : StrInv (entered (defFunc f ps) r.c1) ss := by rw [r.c1_eq]; exact h
  exact this

theorem FuncRun.curSym (r : FuncRun f ps b c bs) (hp : ∀ x ∈ ps, NameOk x) (hb : b.All NameOk) :
    r.c3.curSym = globalName f := (r.fr hp hb).1

/-- symbols of functions after erasing one name -/
theorem eraseP_sym (fs : List Func) (s : Name) (hn : (fs.map Func.sym).Nodup) :
    ((fs.eraseP (fun g => g.sym = s)).map Func.sym).Nodup ∧ s ∉ (fs.eraseP (fun g => g.sym = s)).map Func.sym := by
  induction fs with
  | nil => simp
  | cons g fs ih =>
    simp only [List.map_cons, List.nodup_cons] at hn
    obtain ⟨i1, i2⟩ := ih hn.2
    by_cases h : g.sym = s
    · rw [List.eraseP_cons_of_pos (by simpa using h)]
      exact ⟨hn.2, by rw [← h]; exact hn.1⟩
    · rw [List.eraseP_cons_of_neg (by simpa using h)]
      simp only [List.map_cons, List.nodup_cons, List.mem_cons, not_or]
      refine ⟨⟨?_, i1⟩, fun e => h e.symm, i2⟩
      intro hm
      apply hn.1
      rw [List.mem_map] at hm ⊢
      obtain ⟨x, h1, h2⟩ := hm
      exact ⟨x, List.mem_of_mem_eraseP h1, h2⟩

/-- the functions when the body is finished -/
theorem FuncRun.funcs (r : FuncRun f ps b c bs) (hp : ∀ x ∈ ps, NameOk x) (hb : b.All NameOk) :
    ∃ fs, r.c3.funcs = c.funcs.eraseP (fun g => g.sym = globalName f) ++ [defFunc f ps] ++ fs ∧
      (∀ g ∈ fs, NewF g) ∧ ((c.funcs.map Func.sym).Nodup → (r.c3.funcs.map Func.sym).Nodup) := by
  obtain ⟨_, _, fs, h1, h2, h3⟩ := r.fr hp hb
  refine ⟨fs, ?_, h2, ?_⟩
  · rw [h1]; show r.c1.funcs ++ fs = _; rw [r.c1_eq]
  · intro hn
    apply h3
    show (r.c1.funcs.map Func.sym).Nodup
    rw [r.c1_eq]
    simp only [List.map_append, List.map_cons, List.map_nil]
    obtain ⟨i1, i2⟩ := eraseP_sym c.funcs (globalName f) hn
    rw [List.nodup_append]
    refine ⟨i1, by simp, ?_⟩
    rintro a ha d hd rfl
    simp at hd; subst hd
    exact i2 ha

end

theorem ProgInv.func {f : Name} {ps : List Name} {b : St} {c c' : CState} {ss : List (List Nat)} (hI : ProgInv c ss)
    (hn : (Decl.func f ps b).All NameOk) (h : genDecl (.func f ps b) c = .ok () c') :
    ProgInv { c' with ctx := [], functions := [], functionParams := [] } (ss ++ b.strings) := by
  obtain ⟨hf, hp, hb⟩ := hn
  obtain ⟨bs, r, rfl⟩ := genDecl_func hI.functions h
  obtain ⟨fs, k1, k2, k3⟩ := r.funcs hp hb
  have g := r.gr hp hb
  have e1 : (entered (defFunc f ps) r.c1).globals = c.globals := by rw [r.c1_eq]; rfl
  refine ⟨?_, ?_, ?_, ?_, ?_, rfl, rfl, rfl⟩
  · show (List.map Func.sym (List.map _ _)).Nodup
    rw [map_sym_eq]; exact k3 hI.nodup
  · intro g hg
    have hm : g.sym ∈ r.c3.funcs.map Func.sym := by
      rw [← map_sym_eq bs r.c3.curSym]; exact List.mem_map_of_mem hg
    rw [List.mem_map] at hm
    obtain ⟨g', hg', e⟩ := hm
    rw [← e]
    rw [k1, List.append_assoc, List.mem_append, List.mem_append] at hg'
    rcases hg' with hg' | hg' | hg'
    · exact hI.fsym _ (List.mem_of_mem_eraseP hg')
    · simp at hg'; subst hg'; exact .inl ⟨f, hf, rfl⟩
    · exact (k2 _ hg').fsym
  · exact g.gsym (by rw [e1]; exact hI.gsym)
  · obtain ⟨_, _, _, g3⟩ := g
    exact g3 (by unfold GInv; rw [e1]; exact hI.ginv)
  · exact r.str hI.str

/-! ### globals -/

theorem createString_PInv {s : List Nat} {c c' : CState} {g : GlobalDef} {ss : List (List Nat)} (hI : ProgInv c ss)
    (h : createStringConstant (s.map Char.ofNat) c = .ok g c') : ProgInv c' (ss ++ [s]) := by
  have hs := createString_adds s _ _ _ _ h hI.str
  have hg : GR c c' := GR.stable.createString _ _ _ _ h
  cases h
  exact ⟨hI.nodup, hI.fsym, hg.gsym hI.gsym, hg.choose_spec.2.2 hI.ginv, hs, hI.ctx, hI.functions, hI.functionParams⟩

theorem genIval_PInv {v : Ival} {c c' : CState} {k : Const} {ss : List (List Nat)} (hI : ProgInv c ss)
    (h : genIval v c = .ok k c') : ProgInv c' (ss ++ v.strings) := by
  cases v with
  | int v => simp [genIval] at h; obtain ⟨_, rfl⟩ := h; simpa [Ival.strings] using hI
  | str s =>
    simp only [genIval] at h
    obind h g c1 h1
    simp at h; obtain ⟨_, rfl⟩ := h; exact createString_PInv hI h1

theorem genIvals_PInv {vs : List Ival} {c c' : CState} {ks : List Const} {ss : List (List Nat)} (hI : ProgInv c ss)
    (h : genIvals vs c = .ok ks c') : ProgInv c' (ss ++ vs.flatMap Ival.strings) := by
  induction vs generalizing c ss ks with
  | nil => simp [genIvals] at h; obtain ⟨_, rfl⟩ := h; simpa using hI
  | cons v vs ih =>
    simp only [genIvals] at h
    obind h k c1 h1
    obind h ks' c2 h2
    simp at h; obtain ⟨_, rfl⟩ := h
    have := ih (genIval_PInv hI h1) h2
    simpa using this

/-- removing a name keeps the invariant and makes room for it -/
theorem ProgInv.remove {c : CState} {ss : List (List Nat)} (hI : ProgInv c ss) (x : Name) : ProgInv (removeGlobalByName c x) ss := by
  refine ⟨hI.nodup, hI.fsym, fun g hg => hI.gsym g (List.mem_of_mem_eraseP hg), ?_, ?_, hI.ctx, hI.functions, hI.functionParams⟩
  · intro y hy
    refine Nat.le_trans ?_ (hI.ginv y hy)
    exact (List.eraseP_sublist.filter _).length_le
  · obtain ⟨h1, h2⟩ := hI.str
    refine ⟨?_, h2⟩
    rw [← h1]
    have hk : ∀ gs : List GlobalDef, (∀ g ∈ gs, g.priv = true → ∃ n, g.sym = strSym n) →
        (gs.eraseP (fun g => decide (g.sym = globalName x))).filter (·.priv) = gs.filter (·.priv) := by
      intro gs
      induction gs with
      | nil => simp
      | cons g gs ih =>
        intro hg
        by_cases hs : g.sym = globalName x
        · rw [List.eraseP_cons_of_pos (by simpa using hs)]
          have : g.priv = false := by
            cases hp : g.priv with
            | false => rfl
            | true =>
              obtain ⟨n, hn⟩ := hg g (by simp) hp
              exact absurd (hs.symm.trans hn) (globalName_ne_str x n)
          simp [this]
        · rw [List.eraseP_cons_of_neg (by simpa using hs)]
          simp only [List.filter_cons]
          rw [ih fun g hm => hg g (by simp [hm])]
    apply hk
    intro g hg hp
    have : g ∈ c.globals.filter (·.priv) := by rw [List.mem_filter]; exact ⟨hg, hp⟩
    rw [h1, List.mem_mapIdx] at this
    obtain ⟨i, _, hi⟩ := this
    exact ⟨i, by rw [← hi]; rfl⟩

/-- no global of that name -/
def NoGlobal (c : CState) (x : Name) : Prop := c.globals.filter (fun g => g.sym = globalName x) = []

theorem NoGlobal.remove {c : CState} (h : GInv c) {x : Name} (hx : NameOk x) : NoGlobal (removeGlobalByName c x) x := by
  unfold NoGlobal removeGlobalByName
  have := h x hx
  revert this
  dsimp only
  generalize c.globals = gs
  induction gs with
  | nil => simp
  | cons g gs ih =>
    intro hl
    by_cases hs : g.sym = globalName x
    · rw [List.eraseP_cons_of_pos (by simpa using hs)]
      simp only [List.filter_cons, hs, decide_true, if_true, List.length_cons] at hl
      exact List.length_eq_zero_iff.1 (by omega)
    · rw [List.eraseP_cons_of_neg (by simpa using hs)]
      simp only [List.filter_cons, hs, decide_false, Bool.false_eq_true, if_false] at hl ⊢
      exact ih hl

theorem NoGlobal.str {c : CState} {x : Name} (h : NoGlobal c x) {g : GlobalDef} (hg : IsStr g) : NoGlobal (newGlobalDef c g) x := by
  unfold NoGlobal at *
  obtain ⟨_, n, hn⟩ := hg
  simp only [newGlobalDef, List.filter_append, h, List.nil_append]
  simp [hn]
  exact fun e => globalName_ne_str x n e.symm

theorem NoGlobal.data {c : CState} {x : Name} (hx : NameOk x) (h : NoGlobal c x) {g : GlobalDef} {y : Name}
    (hg : g.sym = globalName y ++ dataSuffix) : NoGlobal (newGlobalDef c g) x := by
  unfold NoGlobal at *
  simp only [newGlobalDef, List.filter_append, h, List.nil_append]
  simp [hg]
  exact fun e => globalName_ne_data hx y e.symm

theorem genIvals_noGlobal {vs : List Ival} {c c' : CState} {ks : List Const} {x : Name} (hx : NoGlobal c x)
    (h : genIvals vs c = .ok ks c') : NoGlobal c' x := by
  induction vs generalizing c ks with
  | nil => simp [genIvals] at h; obtain ⟨_, rfl⟩ := h; exact hx
  | cons v vs ih =>
    simp only [genIvals] at h
    obind h k c1 h1
    obind h ks' c2 h2
    simp at h; obtain ⟨_, rfl⟩ := h
    refine ih ?_ h2
    cases v with
    | int v => simp [genIval] at h1; obtain ⟨_, rfl⟩ := h1; exact hx
    | str s =>
      simp only [genIval] at h1
      obind h1 g c3 h3
      simp at h1; obtain ⟨_, rfl⟩ := h1
      cases h3
      exact NoGlobal.str hx (g := ⟨strSym c.stringID, .bytes (stringBytes (s.map Char.ofNat)), true⟩) ⟨rfl, _, rfl⟩

/-- adding a global of a fresh name -/
theorem ProgInv.add {c : CState} {ss : List (List Nat)} (hI : ProgInv c ss) {g : GlobalDef} {x : Name} (hx : NameOk x)
    (hp : g.priv = false) (hs : g.sym = globalName x) (hn : NoGlobal c x) : ProgInv (newGlobalDef c g) ss := by
  refine ⟨hI.nodup, hI.fsym, ?_, GInv.add_new hs hn hI.ginv, ?_, hI.ctx, hI.functions, hI.functionParams⟩
  · intro g' hm
    simp only [newGlobalDef, List.mem_append, List.mem_singleton] at hm
    rcases hm with hm | rfl
    · exact hI.gsym _ hm
    · exact .inr ⟨x, hx, .inl hs⟩
  · obtain ⟨h1, h2⟩ := hI.str
    exact ⟨by simp [newGlobalDef, h1, hp], h2⟩

theorem ProgInv.addData {c : CState} {ss : List (List Nat)} (hI : ProgInv c ss) {g : GlobalDef} {x : Name} (hx : NameOk x)
    (hp : g.priv = false) (hs : g.sym = globalName x ++ dataSuffix) :
    ProgInv (newGlobalDef c g) ss := by
  refine ⟨hI.nodup, hI.fsym, ?_, ?_, ?_, hI.ctx, hI.functions, hI.functionParams⟩
  · intro g' hm
    simp only [newGlobalDef, List.mem_append, List.mem_singleton] at hm
    rcases hm with hm | rfl
    · exact hI.gsym _ hm
    · exact .inr ⟨x, hx, .inr hs⟩
  · intro y hy
    simp only [newGlobalDef, List.filter_append, List.length_append]
    have : [g].filter (fun g => decide (g.sym = globalName y)) = [] := by
      simp [hs]; exact fun e => globalName_ne_data hy x e.symm
    rw [this]; simpa using hI.ginv y hy
  · obtain ⟨h1, h2⟩ := hI.str
    exact ⟨by simp [newGlobalDef, h1, hp], h2⟩

end Blang
