import Verif.Proofs.GenInv
import Verif.Proofs.SymNames
import Verif.Proofs.Names
/-
Invariants of the module under construction: which functions and globals it contains.
-/
namespace Blang
open Spec

/-! ### functions -/

/-- the function added for a name used before it is defined -/
def fdecl (x : Name) : Func := ⟨globalName x, [], true, []⟩

/-- the declaration of an intrinsic -/
def vaDecl (n : Name) : Func := ⟨n, [[]], false, []⟩

/-- what is added to the table of functions besides definitions -/
def NewF (f : Func) : Prop :=
  (∃ x, NameOk x ∧ f = fdecl x) ∨ f = vaDecl "llvm.va_start".toList ∨ f = vaDecl "llvm.va_end".toList

/-- the table of functions grows by declarations of new names -/
def FR (c c' : CState) : Prop :=
  c'.curSym = c.curSym ∧ c'.functionParams = c.functionParams ∧
  ∃ fs, c'.funcs = c.funcs ++ fs ∧ (∀ f ∈ fs, NewF f) ∧
    ((c.funcs.map Func.sym).Nodup → (c'.funcs.map Func.sym).Nodup)

theorem FR.of_eq {c c' : CState} (h1 : c'.curSym = c.curSym) (h2 : c'.functionParams = c.functionParams)
    (h3 : c'.funcs = c.funcs) : FR c c' := ⟨h1, h2, [], by simp [h3], by simp, by rw [h3]; exact id⟩

theorem FR.trans {a b c : CState} (h1 : FR a b) (h2 : FR b c) : FR a c := by
  obtain ⟨a1, a2, xs, a3, a4, a5⟩ := h1
  obtain ⟨b1, b2, ys, b3, b4, b5⟩ := h2
  refine ⟨b1.trans a1, b2.trans a2, xs ++ ys, by rw [b3, a3]; simp, ?_, fun h => b5 (a5 h)⟩
  intro x hx; rw [List.mem_append] at hx; exact hx.elim (a4 x) (b4 x)

theorem FR.add {c : CState} {f : Func} (hf : NewF f) (ha : f.sym ∉ c.funcs.map Func.sym) : FR c (newFunc c f) := by
  refine ⟨rfl, rfl, [f], rfl, by simpa using hf, ?_⟩
  intro hn
  simp only [newFunc, List.map_append, List.map_cons, List.map_nil]
  rw [List.nodup_append]
  exact ⟨hn, by simp, by rintro a h1 b h2 rfl; simp at h2; subst h2; exact ha h1⟩

theorem findFunc_none {c : CState} {x : Name} (h : findFuncByName c x = none) : globalName x ∉ c.funcs.map Func.sym := by
  intro hm
  rw [List.mem_map] at hm
  obtain ⟨f, h1, h2⟩ := hm
  have := List.find?_eq_none.1 h f h1
  simp [h2] at this

theorem removeFunc_absent {c : CState} {x : Name} (h : globalName x ∉ c.funcs.map Func.sym) : removeFuncByName c x = c := by
  unfold removeFuncByName
  have : c.funcs.eraseP (fun f => decide (f.sym = globalName x)) = c.funcs := by
    apply List.eraseP_of_forall_not
    intro f hf he
    simp at he
    exact h (by rw [← he]; exact List.mem_map_of_mem hf)
  rw [this]

theorem FR.stable : SStable NameOk FR where
  refl c := .of_eq rfl rfl rfl
  trans h1 h2 := h1.trans h2
  emit i c a c' h := by cases h; exact .of_eq rfl rfl rfl
  setTerm t c a c' h := by cases h; exact .of_eq rfl rfl rfl
  newBlock n c a c' h := by cases h; exact .of_eq rfl rfl rfl
  setInsertPoint n c a c' h := by cases h; exact .of_eq rfl rfl rfl
  freshLabelID c a c' h := by cases h; exact .of_eq rfl rfl rfl
  declFn c x v c' hP hf hx h := by
    unfold getOrDeclareFunction at h
    cases hl : lookup x c.functions with
    | some f => rw [hl] at h; cases h; exact .of_eq rfl rfl rfl
    | none =>
      rw [hl, hx] at h
      dsimp only at h
      have ha := findFunc_none hf
      rw [removeFunc_absent ha] at h
      cases h
      exact (FR.add (f := fdecl x) (.inl ⟨x, hP, rfl⟩) ha).trans (.of_eq rfl rfl rfl)
  getOrCreateLabel n _ c a c' h := by
    unfold Blang.getOrCreateLabel at h
    cases hl : lookup n c.labels with
    | some b => rw [hl] at h; cases h; exact .of_eq rfl rfl rfl
    | none => rw [hl] at h; cases h; exact .of_eq rfl rfl rfl
  declareExtrn n _ c a c' h := by
    unfold Blang.declareExtrn at h
    split at h
    · cases h; exact .of_eq rfl rfl rfl
    · split at h
      · cases h; exact .of_eq rfl rfl rfl
      · cases h
  addLocal c k v _ := .of_eq rfl rfl rfl
  createString s c a c' h := by cases h; exact .of_eq rfl rfl rfl

/-! ### globals -/

/-- the global added by an `extrn` of an unknown name -/
def gzero (x : Name) : GlobalDef := ⟨globalName x, .word (.int 0), false⟩

/-- at most one global for each name -/
def GInv (c : CState) : Prop := ∀ x, NameOk x → (c.globals.filter (fun g => g.sym = globalName x)).length ≤ 1

/-- what a string constant looks like -/
def IsStr (g : GlobalDef) : Prop := g.priv = true ∧ ∃ n, g.sym = strSym n

/-- the table of globals grows by string constants and by globals for new names -/
def GR (c c' : CState) : Prop :=
  ∃ gs, c'.globals = c.globals ++ gs ∧ (∀ g ∈ gs, IsStr g ∨ ∃ x, NameOk x ∧ g = gzero x) ∧ (GInv c → GInv c')

theorem GR.of_eq {c c' : CState} (h : c'.globals = c.globals) : GR c c' :=
  ⟨[], by simp [h], by simp, by unfold GInv; rw [h]; exact id⟩

theorem findGlobal_none {c : CState} {x : Name} (h : findGlobalByName c x = none) :
    c.globals.filter (fun g => g.sym = globalName x) = [] := by
  rw [List.filter_eq_nil_iff]
  exact List.find?_eq_none.1 h

theorem GInv.add_str {c : CState} {g : GlobalDef} (hg : IsStr g) (h : GInv c) : GInv (newGlobalDef c g) := by
  intro x hok
  obtain ⟨_, n, hn⟩ := hg
  simp only [newGlobalDef, List.filter_append]
  have : [g].filter (fun g => decide (g.sym = globalName x)) = [] := by
    simp [hn]; exact fun e => globalName_ne_str x n (Eq.symm e)
  rw [this]; simpa using h x hok

theorem GInv.add_new {c : CState} {g : GlobalDef} {y : Name} (hg : g.sym = globalName y)
    (hn : c.globals.filter (fun g => g.sym = globalName y) = []) (h : GInv c) : GInv (newGlobalDef c g) := by
  intro x hok
  simp only [newGlobalDef, List.filter_append, List.length_append]
  by_cases hx : x = y
  · subst hx; rw [hn]; simp; exact List.length_filter_le _ [g]
  · have : [g].filter (fun g => decide (g.sym = globalName x)) = [] := by
      simp [hg]; exact fun e => hx (globalName_inj (Eq.symm e))
    rw [this]; simpa using h x hok

theorem GR.stable : SStable NameOk GR where
  refl c := .of_eq rfl
  trans {a b c} h1 h2 := by
    obtain ⟨gs, a1, a2, a3⟩ := h1
    obtain ⟨hs, b1, b2, b3⟩ := h2
    refine ⟨gs ++ hs, by rw [b1, a1]; simp, ?_, fun h => b3 (a3 h)⟩
    intro x hx; rw [List.mem_append] at hx; exact hx.elim (a2 x) (b2 x)
  emit i c a c' h := by cases h; exact .of_eq rfl
  setTerm t c a c' h := by cases h; exact .of_eq rfl
  newBlock n c a c' h := by cases h; exact .of_eq rfl
  setInsertPoint n c a c' h := by cases h; exact .of_eq rfl
  freshLabelID c a c' h := by cases h; exact .of_eq rfl
  declFn c x v c' _ hf hx h := by
    unfold getOrDeclareFunction at h
    cases hl : lookup x c.functions with
    | some f => rw [hl] at h; cases h; exact .of_eq rfl
    | none =>
      rw [hl, hx] at h
      cases h; exact .of_eq rfl
  getOrCreateLabel n _ c a c' h := by
    unfold Blang.getOrCreateLabel at h
    cases hl : lookup n c.labels with
    | some b => rw [hl] at h; cases h; exact .of_eq rfl
    | none => rw [hl] at h; cases h; exact .of_eq rfl
  declareExtrn n hP c a c' h := by
    unfold Blang.declareExtrn at h
    cases hg : findGlobalByName c n with
    | some g => rw [hg] at h; cases h; exact .of_eq rfl
    | none =>
      rw [hg] at h
      dsimp only at h
      split at h
      · cases h
        refine ⟨[gzero n], rfl, ?_, fun hi => ?_⟩
        · intro g hm; simp at hm; exact .inr ⟨n, hP, hm⟩
        · have := GInv.add_new (g := gzero n) rfl (findGlobal_none hg) hi
          exact this
      · cases h
  addLocal c k v _ := .of_eq rfl
  createString s c a c' h := by
    cases h
    refine ⟨_, rfl, ?_, fun hi => ?_⟩
    · intro g hm; simp at hm; subst hm; exact .inl ⟨rfl, _, rfl⟩
    · have := GInv.add_str (c := c) (g := ⟨strSym c.stringID, .bytes (stringBytes s), true⟩) ⟨rfl, _, rfl⟩ hi
      exact this

/-! ### string constants -/

/-- the constant of the `i`-th string literal -/
def strConst (s : List Nat) (i : Nat) : GlobalDef := ⟨strSym i, .bytes (stringBytes (s.map Char.ofNat)), true⟩

/-- the private globals are the constants of the literals `ss`, in order -/
def StrInv (c : CState) (ss : List (List Nat)) : Prop :=
  c.globals.filter (·.priv) = ss.mapIdx (fun i s => strConst s i) ∧ c.stringID = ss.length

/-- a step that adds no string constant -/
def SR (c c' : CState) : Prop := ∀ ss, StrInv c ss → StrInv c' ss

theorem SR.of_eq {c c' : CState} (h1 : c'.globals = c.globals) (h2 : c'.stringID = c.stringID) : SR c c' := by
  intro ss h; unfold StrInv at *; rw [h1, h2]; exact h

theorem SR.stable {P : Name → Prop} : QStable P SR where
  refl c := .of_eq rfl rfl
  trans {a b c} h1 h2 := fun ss h => h2 ss (h1 ss h)
  emit i c a c' h := by cases h; exact .of_eq rfl rfl
  setTerm t c a c' h := by cases h; exact .of_eq rfl rfl
  newBlock n c a c' h := by cases h; exact .of_eq rfl rfl
  setInsertPoint n c a c' h := by cases h; exact .of_eq rfl rfl
  freshLabelID c a c' h := by cases h; exact .of_eq rfl rfl
  declFn c x v c' _ hf hx h := by
    unfold getOrDeclareFunction at h
    cases hl : lookup x c.functions with
    | some f => rw [hl] at h; cases h; exact .of_eq rfl rfl
    | none =>
      rw [hl, hx] at h
      cases h; exact .of_eq rfl rfl
  getOrCreateLabel n _ c a c' h := by
    unfold Blang.getOrCreateLabel at h
    cases hl : lookup n c.labels with
    | some b => rw [hl] at h; cases h; exact .of_eq rfl rfl
    | none => rw [hl] at h; cases h; exact .of_eq rfl rfl
  declareExtrn n hP c a c' h := by
    unfold Blang.declareExtrn at h
    cases hg : findGlobalByName c n with
    | some g => rw [hg] at h; cases h; exact .of_eq rfl rfl
    | none =>
      rw [hg] at h
      dsimp only at h
      split at h
      · cases h
        intro ss hi
        unfold StrInv at *
        simpa [newGlobalDef] using hi
      · cases h
  addLocal c k v _ := .of_eq rfl rfl

/-- `f` adds the constants of the literals `x`. -/
def Adds {α : Type} (f : B α) (x : List (List Nat)) : Prop :=
  ∀ c a c' ss, f c = .ok a c' → StrInv c ss → StrInv c' (ss ++ x)

theorem Adds.of_keeps {α : Type} {f : B α} (h : Keeps SR f) : Adds f [] := by
  intro c a c' ss h1 h2; rw [List.append_nil]; exact h _ _ _ h1 _ h2

theorem Adds.bind {α β : Type} {f : B α} {g : α → B β} {x y : List (List Nat)} (hf : Adds f x) (hg : ∀ a, Adds (g a) y) :
    Adds (f >>= g) (x ++ y) := by
  intro c b c' ss h hi
  obind h a s h1
  rw [← List.append_assoc]
  exact hg _ _ _ _ _ h (hf _ _ _ _ h1 hi)

/-- a first step without constants -/
theorem Adds.skip {α β : Type} {f : B α} {g : α → B β} {y : List (List Nat)} (hf : Keeps SR f) (hg : ∀ a, Adds (g a) y) :
    Adds (f >>= g) y := (Adds.of_keeps hf).bind hg

/-- last steps without constants -/
theorem Adds.bind0 {α β : Type} {f : B α} {g : α → B β} {x : List (List Nat)} (hf : Adds f x) (hg : ∀ a, Keeps SR (g a)) :
    Adds (f >>= g) x := by
  have := hf.bind (fun a => Adds.of_keeps (hg a))
  rwa [List.append_nil] at this

theorem createString_adds (s : List Nat) : Adds (createStringConstant (s.map Char.ofNat)) [s] := by
  intro c a c' ss h hi
  cases h
  obtain ⟨h1, h2⟩ := hi
  refine ⟨?_, by simp [h2]⟩
  simp only [newGlobalDef, List.filter_append, h1, List.mapIdx_append]
  simp [strConst, h2]

private abbrev q : QStable (fun _ => True) SR := SR.stable

mutual
theorem genL_adds : ∀ e : Ex, Adds (genL e) e.strings
  | .num _ => .of_keeps (q.pure _)
  | .str s => ((createString_adds s).bind0 fun _ => q.bind (q.emit _) fun _ => q.emit _).bind0 fun _ => q.pure _
  | .var _ => .of_keeps (q.genVar trivial)
  | .paren e => (genL_adds e).bind0 fun _ => q.bind (q.rval _) fun _ => q.pure _
  | .index a i => (genL_adds a).bind fun _ => .skip (q.rval _) fun _ => .skip (q.emit _) fun _ =>
      (genL_adds i).bind0 fun _ => q.bind (q.rval _) fun _ => q.bind (q.emit _) fun _ => q.pure _
  | .callName _ as => .skip (q.genCallee trivial) fun _ => .skip (q.rval _) fun _ => (genArgs_adds as).bind0 fun _ =>
      q.bind (q.genCall _ _) fun _ => q.pure _
  | .call f as => (genL_adds f).bind fun _ => .skip (q.rval _) fun _ => (genArgs_adds as).bind0 fun _ =>
      q.bind (q.genCall _ _) fun _ => q.pure _
  | .post _ e => (genL_adds e).bind0 fun _ => q.bind (q.needLval _) fun _ => q.bind (q.genPostfix _ _) fun _ => q.pure _
  | .pre _ e => (genL_adds e).bind0 fun _ => q.bind (q.needLval _) fun _ => q.bind (q.genPrefix _ _) fun _ => q.pure _
  | .not e => (genL_adds e).bind0 fun _ => q.bind (q.bind (q.rval _) fun _ => q.cmpOp _ _ _) fun _ => q.pure _
  | .neg e => (genL_adds e).bind0 fun _ => q.bind (q.bind (q.rval _) fun _ => q.emit _) fun _ => q.pure _
  | .deref e => (genL_adds e).bind0 fun _ => q.bind (q.bind (q.rval _) fun _ => q.emit _) fun _ => q.pure _
  | .addr e => (genL_adds e).bind0 fun _ => q.bind (q.needLval _) fun _ => q.bind (q.emit _) fun _ => q.pure _
  | .bin _ l r => (genL_adds l).bind fun _ => .skip (q.rval _) fun _ => (genL_adds r).bind0 fun _ =>
      q.bind (q.rval _) fun _ => q.bind (q.genOp _ _ _) fun _ => q.pure _
  | .cond c t e => by
      rw [Ex.strings, List.append_assoc]
      exact (genL_adds c).bind fun _ => .skip (q.rval _) fun _ => .skip (q.condStart _) fun (_, _, _) =>
        .skip (q.setInsertPoint _) fun _ => (genL_adds t).bind fun _ => .skip (q.rval _) fun _ =>
        .skip q.getInsertBlock fun _ => .skip (q.setTerm _) fun _ =>
        .skip (q.setInsertPoint _) fun _ => (genL_adds e).bind0 fun _ => q.bind (q.rval _) fun _ =>
        q.bind q.getInsertBlock fun _ => q.bind (q.setTerm _) fun _ =>
        q.bind (q.setInsertPoint _) fun _ => q.bind (q.emit _) fun _ => q.pure _
  | .assign _ l r => (genL_adds l).bind fun _ => .skip (q.needLval _) fun _ => (genL_adds r).bind0 fun _ =>
      q.bind (q.rval _) fun _ => q.bind (q.genAssign _ _ _) fun _ => q.pure _

theorem genArgs_adds : ∀ es : List Ex, Adds (genArgs es) (Ex.stringsArgs es)
  | [] => .of_keeps (q.pure _)
  | e :: es => (genL_adds e).bind fun _ => .skip (q.rval _) fun _ => (genArgs_adds es).bind0 fun _ => q.pure _
end

theorem genR_adds (e : Ex) : Adds (genR e) e.strings := (genL_adds e).bind0 fun _ => q.rval _

theorem genSt_adds : ∀ (s : St) (sw : Option Nat) (cs : Cases), Adds (genSt s sw cs) s.strings
  | .skip, _, _ => .of_keeps (q.pure _)
  | .seq s t, _, _ => (genSt_adds s _ _).bind fun _ => genSt_adds t _ _
  | .expr e, _, _ => (genR_adds e).bind0 fun _ => q.pure _
  | .ret none, _, _ => .of_keeps (q.bind (q.setTerm _) fun _ => q.pure _)
  | .ret (some e), _, _ => (genR_adds e).bind0 fun _ => q.bind (q.setTerm _) fun _ => q.pure _
  | .auto ds, _, _ => .of_keeps (q.bind (q.autoCheck _ _) fun _ => q.bind (q.declareAll _ (by simp)) fun _ => q.pure _)
  | .extrn xs, _, _ => .of_keeps (q.bind (q.genExtrn _ (by simp)) fun _ => q.pure _)
  | .ifThen c t, _, _ => (genR_adds c).bind fun _ => .skip (q.ifStart _) fun (_, _, _) =>
      .skip (q.setInsertPoint _) fun _ => (genSt_adds t _ _).bind0 fun _ => q.bind (q.brIfOpen _) fun _ =>
      q.bind (q.setInsertPoint _) fun _ => q.bind (q.brIfOpen _) fun _ => q.bind (q.setInsertPoint _) fun _ => q.pure _
  | .ifElse c t e, _, _ => by
      rw [St.strings, List.append_assoc]
      exact (genR_adds c).bind fun _ => .skip (q.ifStart _) fun (_, _, _) =>
        .skip (q.setInsertPoint _) fun _ => (genSt_adds t _ _).bind fun _ => .skip (q.brIfOpen _) fun _ =>
        .skip (q.setInsertPoint _) fun _ => (genSt_adds e _ _).bind0 fun _ => q.bind (q.brIfOpen _) fun _ =>
        q.bind (q.setInsertPoint _) fun _ => q.pure _
  | .while c b, _, _ => .skip q.whileStart fun (_, _, _) => (genR_adds c).bind fun _ => .skip (q.emit _) fun _ =>
      .skip (q.setTerm _) fun _ =>
      .skip (q.setInsertPoint _) fun _ => (genSt_adds b _ _).bind0 fun _ => q.bind (q.brIfOpen _) fun _ =>
      q.bind (q.setInsertPoint _) fun _ => q.pure _
  | .switch e b, _, _ => .skip q.freshLabelID fun _ => (genR_adds e).bind fun _ => .skip (q.switchStart _) fun (_, _) =>
      (genSt_adds b _ _).bind0 fun _ => q.bind (q.brIfOpen _) fun _ =>
      q.bind (q.setInsertPoint _) fun _ => q.bind (q.switchTerm _ _ _ _) fun _ =>
      q.bind (q.setInsertPoint _) fun _ => q.pure _
  | .case _ _, none, _ => by intro c a c' ss h; cases h
  | .case _ s, some _, _ => .skip (q.genLabel (.inl trivial)) fun _ => genSt_adds s _ _
  | .label _ s, _, _ => .skip (q.genLabel (.inl trivial)) fun _ => genSt_adds s _ _
  | .goto _, _, _ => .of_keeps (q.bind (q.genGoto trivial) fun _ => q.pure _)

end Blang
