import Verif.Proofs.StaticSt
/-
What relates a place of the program to the state of the generator.
-/
namespace Blang
open Spec

/-! ### tables -/

/-- the tables of names refer to what they should -/
structure Tables (c : CState) : Prop where
  ctxv : ∀ x v, lookup x c.ctx = some v → ∃ ty, v = .glob (globalName x) ty
  fns : ∀ x v, lookup x c.functions = some v → ∃ b n, v = .func (globalName x) b n
  ctxn : ∀ x, (lookup x c.ctx).isSome → NameOk x ∧ globalName x ∈ c.globals.map GlobalDef.sym

def TR (c c' : CState) : Prop := Tables c → Tables c'

theorem TR.of_eq {c c' : CState} (h1 : c'.ctx = c.ctx) (h2 : c'.functions = c.functions) (h3 : c'.globals = c.globals) : TR c c' :=
  fun h => ⟨by rw [h1]; exact h.ctxv, by rw [h2]; exact h.fns, by rw [h1, h3]; exact h.ctxn⟩

theorem TR.stable : SStable NameOk TR where
  refl c := id
  trans h1 h2 := fun h => h2 (h1 h)
  emit i c a c' h := by cases h; exact .of_eq rfl rfl rfl
  setTerm t c a c' h := by cases h; exact .of_eq rfl rfl rfl
  newBlock n c a c' h := by cases h; exact .of_eq rfl rfl rfl
  setInsertPoint n c a c' h := by cases h; exact .of_eq rfl rfl rfl
  freshLabelID c a c' h := by cases h; exact .of_eq rfl rfl rfl
  createString s c a c' h := by
    cases h
    intro h
    refine ⟨h.ctxv, h.fns, fun x hx => ⟨(h.ctxn x hx).1, ?_⟩⟩
    simp only [newGlobalDef, List.map_append, List.mem_append]
    exact .inl (h.ctxn x hx).2
  declFn c x v c' _ hf hx h := by
    unfold getOrDeclareFunction at h
    cases hl : lookup x c.functions with
    | some f => rw [hl] at h; cases h; exact .of_eq rfl rfl rfl
    | none =>
      rw [hl, hx] at h
      cases h
      refine fun hi => ⟨hi.ctxv, ?_, hi.ctxn⟩
      intro y w hw
      simp only [lookup_insert] at hw
      split at hw
      · rename_i e; subst e; cases hw; exact ⟨_, _, rfl⟩
      · exact hi.fns y w hw
  getOrCreateLabel n _ c a c' h := by
    rw [getOrCreateLabel_eq] at h
    cases h
    unfold withLabel
    split <;> exact .of_eq rfl rfl rfl
  declareExtrn x hx c u c' h := by
    unfold declareExtrn at h
    cases hg : findGlobalByName c x with
    | some g =>
      rw [hg] at h; cases h
      have hs : g.sym = globalName x := by have := List.find?_some hg; simpa using this
      have hm : globalName x ∈ c.globals.map GlobalDef.sym := (findGlobal_isSome c x).1 (by simp [hg])
      refine fun hi => ⟨?_, hi.fns, ?_⟩
      · intro y w hw
        simp only [lookup_insert] at hw
        split at hw
        · rename_i e; subst e; cases hw; exact ⟨g.init.ty, by rw [← hs]; rfl⟩
        · exact hi.ctxv y w hw
      · intro y hy
        simp only [lookup_insert] at hy
        split at hy
        · rename_i e; subst e; exact ⟨hx, hm⟩
        · exact hi.ctxn y hy
    | none =>
      rw [hg] at h
      simp only at h
      split at h
      · cases h
        refine fun hi => ⟨?_, hi.fns, ?_⟩
        · intro y w hw
          simp only [lookup_insert] at hw
          split at hw
          · rename_i e; subst e; cases hw; exact ⟨_, rfl⟩
          · exact hi.ctxv y w hw
        · intro y hy
          simp only [lookup_insert] at hy
          simp only [newGlobalDef, List.map_append, List.mem_append, List.map_cons, List.map_nil, List.mem_singleton]
          split at hy
          · rename_i e; subst e; exact ⟨hx, .inr rfl⟩
          · exact ⟨(hi.ctxn y hy).1, .inl (hi.ctxn y hy).2⟩
      · cases h
  addLocal c k v _ := .of_eq rfl rfl rfl

/-- the cells of locals are in registers -/
def LocOk (c : CState) : Prop := ∀ x v, lookup x c.locals = some v → ∃ r, v = .reg r ∧ r < c.nextReg

theorem LocOk.gr {c c' : CState} (h : LocOk c) (hg : Gr c c') : LocOk c' := by
  intro x v hx
  have := hg.reg
  rcases hg.new x v hx with h1 | ⟨r, e, h1, h2⟩
  · obtain ⟨r, e, hr⟩ := h x v h1
    exact ⟨r, e, by omega⟩
  · exact ⟨r, e, h2⟩

/-- the generator is at the place `P` -/
structure PM (P : Place) (c : CState) : Prop where
  knows : Knows P.env c
  tabs : Tables c
  str : ∃ ss, StrInv c ss ∧ ss.length = P.lits
  loc : LocOk c

theorem Knows.same {E : Env} {c c' : CState} (hc : Knows E c) (h1 : c'.globals = c.globals) (h2 : c'.funcs = c.funcs) (h3 : c'.locals = c.locals)
    (h4 : c'.ctx = c.ctx) (h5 : c'.functions = c.functions) (h6 : c'.usedAsFunction = c.usedAsFunction) : Knows E c' :=
  ⟨by rw [h1]; exact hc.vars, by rw [h2]; exact hc.funs, by rw [h3]; exact hc.locals, by rw [h4]; exact hc.exts,
    by rw [h5, h2]; exact hc.fns, by rw [h6, h2]; exact hc.used⟩

/-- only the code changes -/
structure SameTabs (c c' : CState) : Prop where
  globals : c'.globals = c.globals
  funcs : c'.funcs = c.funcs
  locals : c'.locals = c.locals
  ctx : c'.ctx = c.ctx
  functions : c'.functions = c.functions
  used : c'.usedAsFunction = c.usedAsFunction
  str : c'.stringID = c.stringID
  reg : c.nextReg ≤ c'.nextReg

theorem SameTabs.refl (c : CState) : SameTabs c c := ⟨rfl, rfl, rfl, rfl, rfl, rfl, rfl, Nat.le_refl _⟩

theorem SameTabs.trans {a b c : CState} (h1 : SameTabs a b) (h2 : SameTabs b c) : SameTabs a c :=
  ⟨h2.globals.trans h1.globals, h2.funcs.trans h1.funcs, h2.locals.trans h1.locals, h2.ctx.trans h1.ctx,
    h2.functions.trans h1.functions, h2.used.trans h1.used, h2.str.trans h1.str, Nat.le_trans h1.reg h2.reg⟩

theorem SameTabs.goto (c : CState) (b : Nat) : SameTabs c (goto' c b) := ⟨rfl, rfl, rfl, rfl, rfl, rfl, rfl, Nat.le_refl _⟩
theorem SameTabs.withTerm (c : CState) (t : Term) : SameTabs c (withTerm c t) := ⟨rfl, rfl, rfl, rfl, rfl, rfl, rfl, Nat.le_refl _⟩
theorem SameTabs.brTo (c : CState) (b : Nat) : SameTabs c (brTo c b) := by
  unfold Blang.brTo; split <;> exact ⟨rfl, rfl, rfl, rfl, rfl, rfl, rfl, Nat.le_refl _⟩
theorem SameTabs.bump (c : CState) : SameTabs c (bump c) := ⟨rfl, rfl, rfl, rfl, rfl, rfl, rfl, Nat.le_refl _⟩
theorem SameTabs.add3 (c : CState) (x y z : Name) : SameTabs c (add3 c x y z) := ⟨rfl, rfl, rfl, rfl, rfl, rfl, rfl, Nat.le_refl _⟩
theorem SameTabs.emitted (c : CState) (i : Inst) : SameTabs c (emitted c i) :=
  ⟨rfl, rfl, rfl, rfl, rfl, rfl, rfl, Nat.le_succ _⟩
theorem SameTabs.withLabel (c : CState) (l : Name) : SameTabs c (withLabel l c) := by
  unfold Blang.withLabel; split <;> exact ⟨rfl, rfl, rfl, rfl, rfl, rfl, rfl, Nat.le_refl _⟩
theorem SameTabs.forkIf (c : CState) (v : Val) : SameTabs c (forkIf c v) :=
  ((SameTabs.bump c).trans (.add3 _ _ _ _)).trans ((SameTabs.emitted _ _).trans (.withTerm _ _))
theorem SameTabs.whileHead (c : CState) : SameTabs c (whileHead c) := ⟨rfl, rfl, rfl, rfl, rfl, rfl, rfl, Nat.le_refl _⟩
theorem SameTabs.whileTest (c c1 : CState) (v : Val) : SameTabs c1 (whileTest c c1 v) := (SameTabs.emitted _ _).trans (.withTerm _ _)
theorem SameTabs.switchHead (c : CState) (k : Nat) : SameTabs c (switchHead c k) := ⟨rfl, rfl, rfl, rfl, rfl, rfl, rfl, Nat.le_refl _⟩

theorem PM.same {P : Place} {c c' : CState} (h : PM P c) (s : SameTabs c c') : PM P c' := by
  refine ⟨h.knows.same s.globals s.funcs s.locals s.ctx s.functions s.used, TR.of_eq s.ctx s.functions s.globals h.tabs, ?_, ?_⟩
  · obtain ⟨ss, h1, h2⟩ := h.str
    exact ⟨ss, SR.of_eq s.globals s.str ss h1, h2⟩
  · intro x v hx
    rw [s.locals] at hx
    obtain ⟨r, e, hr⟩ := h.loc x v hx
    exact ⟨r, e, Nat.lt_of_lt_of_le hr s.reg⟩

theorem PM.expr {P : Place} {c c' : CState} {e : Ex} {v : Val} (h : PM P c) (hn : e.All NameOk) (hg : genR e c = .ok v c') :
    PM (P.afterEx e) c' := by
  refine ⟨((tr_genR e hn P.env c h.knows).2 _ _ hg).2.1, TR.stable.toE.genR e hn _ _ _ hg h.tabs, ?_, ?_⟩
  · obtain ⟨ss, h1, h2⟩ := h.str
    exact ⟨_, genR_adds e _ _ _ _ hg h1, by simp [Place.afterEx, h2]⟩
  · have k := ER.stable.genR e hn _ _ _ hg
    intro x v hx
    rw [k.locals] at hx
    obtain ⟨r, e, hr⟩ := h.loc x v hx
    exact ⟨r, e, Nat.lt_of_lt_of_le hr k.reg⟩

theorem PM.st {P : Place} {c c' : CState} {s : St} {sw : Option Nat} {cs cs' : Cases} (h : PM P c) (hn : s.All NameOk)
    (hg : genSt s sw cs c = .ok cs' c') (gr : Gr c c') : PM (P.after s) c' := by
  refine ⟨((tr_genSt s hn sw cs P.env c h.knows).2 _ _ hg).2.1, TR.stable.genSt s _ _ hn _ _ _ hg h.tabs, ?_, h.loc.gr gr⟩
  obtain ⟨ss, h1, h2⟩ := h.str
  exact ⟨_, genSt_adds s _ _ _ _ _ _ hg h1, by simp [Place.after, h2]⟩

/-! ### environments grow -/

/-- `E'` knows at least what `E` knows -/
structure Env.Le (E E' : Env) : Prop where
  vars : ∀ x ∈ E.vars, x ∈ E'.vars
  funs : ∀ x ∈ E.funs, x ∈ E'.funs
  locals : ∀ x ∈ E.locals, x ∈ E'.locals

theorem Env.Le.refl (E : Env) : Env.Le E E := ⟨fun _ h => h, fun _ h => h, fun _ h => h⟩

theorem Env.Le.trans {A B C : Env} (h1 : Env.Le A B) (h2 : Env.Le B C) : Env.Le A C :=
  ⟨fun x h => h2.vars x (h1.vars x h), fun x h => h2.funs x (h1.funs x h), fun x h => h2.locals x (h1.locals x h)⟩

theorem Env.le_afterEx (E : Env) (e : Ex) : Env.Le E (E.afterEx e) :=
  ⟨fun _ h => h, fun _ h => List.mem_append_right _ h, fun _ h => h⟩

theorem Env.le_extrn : ∀ (xs : List Ident) (E : Env), Env.Le E (xs.foldl Env.afterExtrn E)
  | [], E => .refl E
  | x :: xs, E => (⟨fun _ h => List.mem_cons_of_mem _ h, fun _ h => h, fun _ h => h⟩ : Env.Le E (E.afterExtrn x)).trans (Env.le_extrn xs _)

theorem Env.le_after : ∀ (s : St) (E : Env), Env.Le E (E.after s)
  | .skip, E | .ret none, E | .goto _, E => .refl E
  | .seq s t, E => (Env.le_after s E).trans (Env.le_after t _)
  | .expr e, E | .ret (some e), E => Env.le_afterEx E e
  | .auto ds, E => ⟨fun _ h => h, fun _ h => h, fun _ h => List.mem_append_right _ h⟩
  | .extrn xs, E => Env.le_extrn xs E
  | .ifThen c t, E => (Env.le_afterEx E c).trans (Env.le_after t _)
  | .ifElse c t e, E => (Env.le_afterEx E c).trans ((Env.le_after t _).trans (Env.le_after e _))
  | .while c b, E | .switch c b, E => (Env.le_afterEx E c).trans (Env.le_after b _)
  | .case _ s, E | .label _ s, E => Env.le_after s E

/-- conditions on a statement at a place, relative to all that is known at the end -/
structure Ok (Ei : Env) (P : Place) (s : St) : Prop where
  le : Env.Le (P.env.after s) Ei
  callees : ∀ f ∈ s.callees, f ∉ Ei.locals
  sizes : ∀ n ∈ s.sizes, n ≠ -1

section
variable {Ei : Env} {P : Place}

theorem Ok.start {s : St} (h : Ok Ei P s) : Env.Le P.env Ei := (Env.le_after s _).trans h.le

theorem Ok.seq1 {s t : St} (h : Ok Ei P (.seq s t)) : Ok Ei P s :=
  ⟨(Env.le_after t _).trans h.le, fun f hf => h.callees f (by simp [St.callees, hf]), fun n hn => h.sizes n (by simp [St.sizes, hn])⟩

theorem Ok.seq2 {s t : St} (h : Ok Ei P (.seq s t)) : Ok Ei (P.after s) t :=
  ⟨h.le, fun f hf => h.callees f (by simp [St.callees, hf]), fun n hn => h.sizes n (by simp [St.sizes, hn])⟩

theorem Ok.then {c : Ex} {t e : St} (h : Ok Ei P (.ifElse c t e)) : Ok Ei (P.afterEx c) t :=
  ⟨(Env.le_after e _).trans h.le, fun f hf => h.callees f (by simp [St.callees, hf]), fun n hn => h.sizes n (by simp [St.sizes, hn])⟩

theorem Ok.else {c : Ex} {t e : St} (h : Ok Ei P (.ifElse c t e)) : Ok Ei ((P.afterEx c).after t) e :=
  ⟨h.le, fun f hf => h.callees f (by simp [St.callees, hf]), fun n hn => h.sizes n (by simp [St.sizes, hn])⟩

theorem Ok.ifThen {c : Ex} {t : St} (h : Ok Ei P (.ifThen c t)) : Ok Ei P (.ifElse c t .skip) :=
  ⟨h.le, fun f hf => h.callees f (by simpa [St.callees] using hf), fun n hn => h.sizes n (by simpa [St.sizes] using hn)⟩

theorem Ok.while {c : Ex} {b : St} (h : Ok Ei P (.while c b)) : Ok Ei (P.afterEx c) b :=
  ⟨h.le, fun f hf => h.callees f (by simp [St.callees, hf]), fun n hn => h.sizes n (by simpa [St.sizes] using hn)⟩

theorem Ok.switch {c : Ex} {b : St} (h : Ok Ei P (.switch c b)) : Ok Ei (P.afterEx c) b :=
  ⟨h.le, fun f hf => h.callees f (by simp [St.callees, hf]), fun n hn => h.sizes n (by simpa [St.sizes] using hn)⟩

theorem Ok.case {v : Word} {s : St} (h : Ok Ei P (.case v s)) : Ok Ei P s := ⟨h.le, h.callees, h.sizes⟩

theorem Ok.label {l : Name} {s : St} (h : Ok Ei P (.label l s)) : Ok Ei P s := ⟨h.le, h.callees, h.sizes⟩
end

end Blang
