import Verif.Proofs.ProgMain
import Verif.Spec.Scope
/-
The compiler accepts a tree exactly when it obeys the static rules (Spec/Scope.lean).
-/
namespace Blang
open Spec

/-- The statement obeys the rules; `sw`: it stands directly in the body of a `switch`. -/
def St.Wf : St → Bool → Env → Prop
  | .skip, _, _ => True
  | .seq s t, sw, E => St.Wf s sw E ∧ St.Wf t sw (E.after s)
  | .expr e, _, E => e.Wf E
  | .ret none, _, _ => True
  | .ret (some e), _, E => e.Wf E
  | .auto ds, _, E => (ds.map (·.1)).Nodup ∧ ∀ d ∈ ds, d.1 ∉ E.locals
  | .extrn xs, _, E => E.ExtrnOk xs
  | .ifThen c t, _, E => c.Wf E ∧ St.Wf t false (E.afterEx c)
  | .ifElse c t e, _, E => c.Wf E ∧ St.Wf t false (E.afterEx c) ∧ St.Wf e false ((E.afterEx c).after t)
  | .while c b, _, E => c.Wf E ∧ St.Wf b false (E.afterEx c)
  | .switch e b, _, E => e.Wf E ∧ St.Wf b true (E.afterEx e)
  | .case _ s, sw, E => sw = true ∧ St.Wf s sw E
  | .label _ s, sw, E => St.Wf s sw E
  | .goto _, _, _ => True

theorem wf_iff (s : St) : ∀ (sw : Bool) (E : Env), St.Wf s sw E ↔ s.Scoped E ∧ s.CasesOk sw := by
  induction s with
  | ret e => intro sw E; cases e <;> simp [St.Wf, St.Scoped, St.CasesOk]
  | seq s t ih1 ih2 => intro sw E; simp only [St.Wf, St.Scoped, St.CasesOk, ih1, ih2]; grind
  | ifThen c t ih => intro sw E; simp only [St.Wf, St.Scoped, St.CasesOk, ih]; grind
  | ifElse c t e ih1 ih2 => intro sw E; simp only [St.Wf, St.Scoped, St.CasesOk, ih1, ih2]; grind
  | «while» c t ih => intro sw E; simp only [St.Wf, St.Scoped, St.CasesOk, ih]; grind
  | switch c t ih => intro sw E; simp only [St.Wf, St.Scoped, St.CasesOk, ih]; grind
  | case v s ih => intro sw E; simp only [St.Wf, St.Scoped, St.CasesOk, ih]; grind
  | label v s ih => intro sw E; simp only [St.Wf, St.Scoped, St.CasesOk, ih]
  | _ => intro sw E; simp [St.Wf, St.Scoped, St.CasesOk]

def Decl.Wf (E : Env) : Decl → Prop
  | .global _ _ | .vector _ _ _ => True
  | .func f ps b => St.Wf b false (E.enter f ps)

theorem declWf_iff (d : Decl) (E : Env) : Decl.Wf E d ↔ d.Scoped E ∧ d.CasesOk := by
  cases d with
  | func f ps b => exact wf_iff b false _
  | _ => simp [Decl.Wf, Decl.Scoped, Decl.CasesOk]

/-- The program obeys the rules. -/
def Program.Wf : Env → Program → Prop
  | _, [] => True
  | E, d :: p => Decl.Wf E d ∧ Program.Wf (E.afterDecl d) p

theorem progWf_iff (p : Program) : ∀ E : Env, Program.Wf E p ↔ (Program.Scoped E p ∧ ∀ d ∈ p, d.CasesOk) := by
  induction p with
  | nil => intro E; simp [Program.Wf, Program.Scoped]
  | cons d p ih => intro E; simp only [Program.Wf, Program.Scoped, ih, declWf_iff, List.forall_mem_cons]; grind

/-- what the compiler state knows agrees with the environment of the rules -/
structure Knows (E : Env) (c : CState) : Prop where
  vars : ∀ x, NameOk x → (x ∈ E.vars ↔ globalName x ∈ c.globals.map GlobalDef.sym)
  funs : ∀ x, NameOk x → (x ∈ E.funs ↔ globalName x ∈ c.funcs.map Func.sym)
  locals : ∀ x, x ∈ E.locals ↔ (lookup x c.locals).isSome
  exts : ∀ x, x ∈ E.exts ↔ (lookup x c.ctx).isSome
  fns : ∀ x, (lookup x c.functions).isSome → globalName x ∈ c.funcs.map Func.sym
  used : ∀ x ∈ c.usedAsFunction, globalName x ∈ c.funcs.map Func.sym

/-- `f` succeeds exactly when `W` holds, and then leads from `E` to `E'` with a result satisfying `Φ` -/
def Tr {α : Type} (E : Env) (f : B α) (W : Prop) (E' : Env) (Φ : α → Prop) : Prop :=
  ∀ c, Knows E c → (W → ∃ a c', f c = .ok a c') ∧ ∀ a c', f c = .ok a c' → W ∧ Knows E' c' ∧ Φ a

theorem lookup_insert {α : Type} (k x : Name) (v : α) (m : List (Name × α)) :
    lookup x (insert k v m) = if k = x then some v else lookup x m := by
  unfold lookup insert
  rw [List.find?_cons]
  by_cases h : k = x <;> simp [h]

theorem findFunc_isSome (c : CState) (x : Name) :
    (findFuncByName c x).isSome ↔ globalName x ∈ c.funcs.map Func.sym := by
  unfold findFuncByName
  rw [List.find?_isSome, List.mem_map]
  constructor
  · rintro ⟨f, h1, h2⟩; exact ⟨f, h1, by simpa using h2⟩
  · rintro ⟨f, h1, h2⟩; exact ⟨f, h1, by simpa using h2⟩

theorem findGlobal_isSome (c : CState) (x : Name) :
    (findGlobalByName c x).isSome ↔ globalName x ∈ c.globals.map GlobalDef.sym := by
  unfold findGlobalByName
  rw [List.find?_isSome, List.mem_map]
  constructor
  · rintro ⟨f, h1, h2⟩; exact ⟨f, h1, by simpa using h2⟩
  · rintro ⟨f, h1, h2⟩; exact ⟨f, h1, by simpa using h2⟩

section
variable {α β : Type} {E E1 E2 : Env}

theorem Tr.bind {f : B α} {g : α → B β} {W1 W2 : Prop} {Φ : α → Prop} {Ψ : β → Prop} (hf : Tr E f W1 E1 Φ)
    (hg : ∀ a, Φ a → Tr E1 (g a) W2 E2 Ψ) : Tr E (f >>= g) (W1 ∧ W2) E2 Ψ := by
  intro c hc
  obtain ⟨h1, h2⟩ := hf c hc
  constructor
  · rintro ⟨w1, w2⟩
    obtain ⟨a, c1, e1⟩ := h1 w1
    obtain ⟨_, k1, p1⟩ := h2 _ _ e1
    obtain ⟨b, c2, e2⟩ := (hg a p1 c1 k1).1 w2
    exact ⟨b, c2, by rw [M.bind_ok e1, e2]⟩
  · intro b c2 h
    obind h a c1 e1
    obtain ⟨w1, k1, p1⟩ := h2 _ _ e1
    obtain ⟨w2, k2, p2⟩ := (hg a p1 c1 k1).2 _ _ h
    exact ⟨⟨w1, w2⟩, k2, p2⟩

/-- a first step that always succeeds -/
theorem Tr.step {f : B α} {g : α → B β} {W : Prop} {Φ : α → Prop} {Ψ : β → Prop} (hf : Tr E f True E1 Φ)
    (hg : ∀ a, Φ a → Tr E1 (g a) W E2 Ψ) : Tr E (f >>= g) W E2 Ψ := by
  have := hf.bind hg
  simpa using this

/-- a rest that always succeeds -/
theorem Tr.thenT {f : B α} {g : α → B β} {W : Prop} {Φ : α → Prop} {Ψ : β → Prop} (hf : Tr E f W E1 Φ)
    (hg : ∀ a, Φ a → Tr E1 (g a) True E2 Ψ) : Tr E (f >>= g) W E2 Ψ := by
  have := hf.bind hg
  simpa using this

theorem Tr.pure {a : α} {Φ : α → Prop} (h : Φ a) : Tr E (pure a : B α) True E Φ := by
  intro c hc
  refine ⟨fun _ => ⟨a, c, rfl⟩, ?_⟩
  intro b c' hb
  simp at hb; obtain ⟨rfl, rfl⟩ := hb
  exact ⟨trivial, hc, h⟩

theorem Tr.post {f : B α} {W : Prop} {Φ Ψ : α → Prop} (hf : Tr E f W E1 Φ) (h : ∀ a, Φ a → Ψ a) : Tr E f W E1 Ψ :=
  fun c hc => ⟨(hf c hc).1, fun a c' e => ⟨((hf c hc).2 a c' e).1, ((hf c hc).2 a c' e).2.1, h _ ((hf c hc).2 a c' e).2.2⟩⟩

theorem Tr.iff {f : B α} {W V : Prop} {Φ : α → Prop} (hf : Tr E f W E1 Φ) (h : W ↔ V) : Tr E f V E1 Φ := by
  rw [propext h] at hf; exact hf

theorem Tr.fail {Φ : α → Prop} {s : String} : Tr E (bfail s : B α) False E1 Φ :=
  fun _ _ => ⟨fun h => h.elim, fun _ _ h => by cases h⟩

theorem Tr.get {g : CState → B β} {W : Prop} {Ψ : β → Prop}
    (hg : ∀ c, Knows E c → ((W → ∃ a c', g c c = .ok a c') ∧ ∀ a c', g c c = .ok a c' → W ∧ Knows E2 c' ∧ Ψ a)) :
    Tr E (M.get >>= g) W E2 Ψ := by
  intro c hc
  rw [M.bind_ok (M.get_apply _)]
  exact hg c hc

/-- a function that always succeeds and does not touch what `Knows` looks at -/
theorem Tr.frame {f : B α} (h : ∀ c, ∃ a c', f c = .ok a c' ∧ c'.globals = c.globals ∧ c'.funcs = c.funcs ∧
      c'.locals = c.locals ∧ c'.ctx = c.ctx ∧ c'.functions = c.functions ∧ c'.usedAsFunction = c.usedAsFunction) :
    Tr E f True E (fun _ => True) := by
  intro c hc
  obtain ⟨a, c', e, h1, h2, h3, h4, h5, h6⟩ := h c
  refine ⟨fun _ => ⟨a, c', e⟩, ?_⟩
  intro b d e'
  rw [e] at e'; cases e'
  refine ⟨trivial, ⟨?_, ?_, ?_, ?_, ?_, ?_⟩, trivial⟩
  · rw [h1]; exact hc.vars
  · rw [h2]; exact hc.funs
  · rw [h3]; exact hc.locals
  · rw [h4]; exact hc.exts
  · rw [h5, h2]; exact hc.fns
  · rw [h6, h2]; exact hc.used

theorem tr_emit (i : Inst) : Tr E (emit i) True E (fun _ => True) :=
  Tr.frame fun c => ⟨_, _, rfl, rfl, rfl, rfl, rfl, rfl, rfl⟩
theorem tr_setTerm (t : Term) : Tr E (setTerm t) True E (fun _ => True) :=
  Tr.frame fun c => ⟨_, _, rfl, rfl, rfl, rfl, rfl, rfl, rfl⟩
theorem tr_newBlock (n : Name) : Tr E (newBlock n) True E (fun _ => True) :=
  Tr.frame fun c => ⟨_, _, rfl, rfl, rfl, rfl, rfl, rfl, rfl⟩
theorem tr_setInsertPoint (n : Nat) : Tr E (setInsertPoint n) True E (fun _ => True) :=
  Tr.frame fun c => ⟨_, _, rfl, rfl, rfl, rfl, rfl, rfl, rfl⟩
theorem tr_getInsertBlock : Tr E getInsertBlock True E (fun _ => True) :=
  Tr.frame fun c => ⟨_, _, rfl, rfl, rfl, rfl, rfl, rfl, rfl⟩
theorem tr_freshLabelID : Tr E freshLabelID True E (fun _ => True) :=
  Tr.frame fun c => ⟨_, _, rfl, rfl, rfl, rfl, rfl, rfl, rfl⟩
theorem tr_getOrCreateLabel (n : Name) : Tr E (getOrCreateLabel n) True E (fun _ => True) :=
  Tr.frame fun c => by
    unfold getOrCreateLabel
    split <;> exact ⟨_, _, rfl, rfl, rfl, rfl, rfl, rfl, rfl⟩

theorem tr_createString (s : List Char) : Tr E (createStringConstant s) True E (fun _ => True) := by
  intro c hc
  refine ⟨fun _ => ⟨_, _, rfl⟩, ?_⟩
  intro g c' h
  cases h
  refine ⟨trivial, ⟨?_, hc.funs, hc.locals, hc.exts, hc.fns, hc.used⟩, trivial⟩
  intro x hx
  rw [hc.vars x hx]
  have : globalName x ≠ strSym c.stringID := globalName_ne_str _ _
  simp [newGlobalDef, this]

theorem tr_rval (v : LV) : Tr E (rval v) True E (fun _ => True) := by
  unfold rval
  split
  · exact tr_emit _
  · exact .pure trivial

theorem tr_cmpOp (p : Pred) (x y : Val) : Tr E (cmpOp p x y) True E (fun _ => True) :=
  (tr_emit _).step fun _ _ => tr_emit _

theorem tr_genOp (o : Op) (x y : Val) : Tr E (genOp o x y) True E (fun _ => True) := by
  cases o
  · exact tr_emit _
  · exact tr_cmpOp _ _ _

theorem tr_needLval (v : LV) : Tr E (needLval v) (v.2 = true) E (fun _ => True) := by
  unfold needLval
  cases v.2
  · simpa using Tr.fail
  · simpa using Tr.pure trivial

theorem tr_genCall (f : Val) (as : List Val) : Tr E (genCall f as) True E (fun _ => True) := by
  unfold genCall
  split
  · split
    · exact (tr_emit _).step fun _ _ => tr_emit _
    · exact tr_emit _
  · exact (tr_emit _).step fun _ _ => tr_emit _

theorem tr_genStr (s : List Char) : Tr E (genStr s) True E (fun _ => True) :=
  (tr_createString _).step fun _ _ => (tr_emit _).step fun _ _ => tr_emit _

theorem tr_genPostfix (o : BinOp) (v : Val) : Tr E (genPostfix o v) True E (fun _ => True) :=
  (tr_emit _).step fun _ _ => (tr_emit _).step fun _ _ => (tr_emit _).step fun _ _ => .pure trivial

theorem tr_genPrefix (o : BinOp) (v : Val) : Tr E (genPrefix o v) True E (fun _ => True) :=
  (tr_emit _).step fun _ _ => (tr_emit _).step fun _ _ => (tr_emit _).step fun _ _ => .pure trivial

theorem tr_genAssign (o : Option Op) (l r : Val) : Tr E (genAssign o l r) True E (fun _ => True) := by
  unfold genAssign
  split
  · exact (tr_emit _).step fun _ _ => (tr_genOp _ _ _).step fun _ _ => (tr_emit _).step fun _ _ => .pure trivial
  · exact (tr_emit _).step fun _ _ => .pure trivial

theorem tr_condStart (v : Val) : Tr E (condStart v) True E (fun _ => True) :=
  tr_freshLabelID.step fun _ _ => (tr_newBlock _).step fun _ _ => (tr_newBlock _).step fun _ _ =>
    (tr_newBlock _).step fun _ _ => (tr_emit _).step fun _ _ => (tr_setTerm _).step fun _ _ => .pure trivial

/-- the environment after more names have been used as functions -/
def addFuns (E : Env) (l : List Ident) : Env := { E with funs := l ++ E.funs }

/-- declaring a function on first use -/
theorem tr_declFn {x : Name} (hx : NameOk x) {c : CState} (hc : Knows E c) (hf : findFuncByName c x = none)
    (hl : lookup x c.ctx = none) : ∃ fn c', getOrDeclareFunction x c = .ok (some fn) c' ∧ Knows (addFuns E [x]) c' := by
  have hn : globalName x ∉ c.funcs.map Func.sym := findFunc_none hf
  have h0 : lookup x c.functions = none := by
    cases h : lookup x c.functions with
    | none => rfl
    | some v => exact absurd (hc.fns x (by simp [h])) hn
  unfold getOrDeclareFunction
  rw [h0]
  dsimp only
  rw [hl]
  dsimp only
  rw [removeFunc_absent hn]
  refine ⟨_, _, rfl, ⟨hc.vars, ?_, hc.locals, hc.exts, ?_, ?_⟩⟩
  · intro y hy
    have : (globalName y = globalName x) ↔ y = x := ⟨globalName_inj, fun h => by rw [h]⟩
    simp only [addFuns, newFunc, List.map_append, List.mem_append, List.mem_cons, List.not_mem_nil, or_false,
      List.singleton_append, List.map_cons, List.map_nil, this]
    rw [← hc.funs y hy]; exact or_comm
  · intro y hy
    simp only [newFunc, lookup_insert] at hy
    simp only [newFunc, List.map_append, List.mem_append, List.map_cons, List.map_nil, List.mem_singleton]
    split at hy
    · rename_i h; right; rw [h]
    · left; exact hc.fns _ hy
  · intro y hy
    simp only [newFunc, List.map_append, List.mem_append, List.map_cons, List.map_nil, List.mem_singleton]
    simp only [newFunc, List.mem_cons] at hy
    rcases hy with rfl | hy
    · right; rfl
    · left; exact hc.used _ hy

/-- adding a name that is already there changes nothing -/
theorem Knows.again {c : CState} {x : Name} (hc : Knows E c) (h : globalName x ∈ c.funcs.map Func.sym) :
    Knows (addFuns E [x]) c := by
  refine ⟨hc.vars, ?_, hc.locals, hc.exts, hc.fns, hc.used⟩
  intro y hy
  simp only [addFuns, List.cons_append, List.nil_append, List.mem_cons]
  rw [hc.funs y hy]
  constructor
  · rintro (rfl | h')
    · exact h
    · exact h'
  · exact .inr

theorem tr_getAddress (x : Name) : Tr E (getAddress x) True E (fun r => r.isSome = true ↔ E.Var x) := by
  intro c hc
  unfold getAddress
  rw [M.bind_ok (M.get_apply _)]
  have hl := hc.locals x
  have he := hc.exts x
  cases h : lookup x c.locals with
  | some v =>
    rw [h] at hl
    exact (Tr.pure (by simp [Env.Var, hl])) c hc
  | none =>
    rw [h] at hl
    dsimp only
    cases h2 : lookup x c.ctx with
    | none =>
      rw [h2] at he
      exact (Tr.pure (by simp [Env.Var, hl, he])) c hc
    | some v =>
      rw [h2] at he
      have hv : E.Var x := .inr (by simp [he])
      cases v with
      | glob s t =>
        cases t with
        | arr n => exact ((tr_emit _).step fun _ _ => Tr.pure (by simp [hv])) c hc
        | bytes n => exact ((tr_emit _).step fun _ _ => Tr.pure (by simp [hv])) c hc
        | i64 => exact (Tr.pure (by simp [hv])) c hc
      | const n => exact (Tr.pure (by simp [hv])) c hc
      | reg n => exact (Tr.pure (by simp [hv])) c hc
      | func s v n => exact (Tr.pure (by simp [hv])) c hc
      | param => exact (Tr.pure (by simp [hv])) c hc

theorem tr_genVar {x : Name} (hx : NameOk x) :
    Tr E (genVar x) True (E.afterEx (.var x)) (fun v => v.2 = true ↔ (Ex.var x).Lvalue E) := by
  have hE : E.afterEx (.var x) = if E.Var x then E else addFuns E [x] := by
    unfold Env.afterEx Ex.uses
    split <;> rfl
  rw [hE]
  unfold genVar
  intro c hc
  obtain ⟨h1, h2⟩ := tr_getAddress x c hc
  obtain ⟨r, c1, e1⟩ := h1 trivial
  obtain ⟨_, k1, p1⟩ := h2 _ _ e1
  rw [M.bind_ok e1]
  cases r with
  | some v =>
    have hv : E.Var x := p1.1 rfl
    rw [if_pos hv]
    exact (Tr.pure (by simp [Ex.Lvalue, hv])) c1 k1
  | none =>
    have hv : ¬ E.Var x := fun h => by simpa using p1.2 h
    rw [if_neg hv]
    have hctx : lookup x c1.ctx = none := by
      have := k1.exts x
      cases hh : lookup x c1.ctx with
      | none => rfl
      | some w => rw [hh] at this; exact absurd (.inr (this.2 rfl)) hv
    dsimp only
    rw [M.bind_ok (M.get_apply _)]
    cases hf : findFuncByName c1 x with
    | some fn =>
      have k2 := k1.again (x := x) ((findFunc_isSome _ _).1 (by simp [hf]))
      exact ((tr_emit _).step fun _ _ => Tr.pure (by simp [Ex.Lvalue, hv])) c1 k2
    | none =>
      obtain ⟨fn, c2, e2, k2⟩ := tr_declFn hx k1 hf hctx
      dsimp only
      rw [M.bind_ok e2]
      exact ((tr_emit _).step fun _ _ => Tr.pure (by simp [Ex.Lvalue, hv])) c2 k2

theorem tr_genCallee {f : Name} (hx : NameOk f) :
    Tr E (genCallee f) True (addFuns E (if f ∈ E.exts then [] else [f])) (fun _ => True) := by
  unfold genCallee
  refine Tr.get fun c hc => ?_
  cases hf : findFuncByName c f with
  | some fn =>
    have hm := (findFunc_isSome c f).1 (by simp [hf])
    by_cases he : f ∈ E.exts
    · rw [if_pos he]; exact (Tr.pure trivial) c hc
    · rw [if_neg he]; exact (Tr.pure trivial) c (hc.again hm)
  | none =>
    dsimp only
    cases h2 : lookup f c.ctx with
    | some g =>
      rw [if_pos ((hc.exts f).2 (by simp [h2]))]
      exact (Tr.pure trivial) c hc
    | none =>
      rw [if_neg (fun h => by have := (hc.exts f).1 h; simp [h2] at this)]
      obtain ⟨fn, c2, e2, k2⟩ := tr_declFn hx hc hf h2
      dsimp only
      rw [M.bind_ok e2]
      exact (Tr.pure trivial) c2 k2

theorem addFuns_add (E : Env) (l m : List Ident) : addFuns (addFuns E l) m = addFuns E (m ++ l) := by
  simp [addFuns]

/-- `Knows` sees the function names as a set -/
theorem Knows.perm {c : CState} {l m : List Ident} (h : Knows (addFuns E l) c) (hp : ∀ x, x ∈ l ↔ x ∈ m) :
    Knows (addFuns E m) c := by
  refine ⟨h.vars, ?_, h.locals, h.exts, h.fns, h.used⟩
  intro x hx
  rw [← h.funs x hx]
  simp [addFuns, hp]

theorem Tr.perm {f : B α} {W : Prop} {Φ : α → Prop} {l m : List Ident} (h : Tr E f W (addFuns E1 l) Φ)
    (hp : ∀ x, x ∈ l ↔ x ∈ m) : Tr E f W (addFuns E1 m) Φ :=
  fun c hc => ⟨(h c hc).1, fun a c' e => ⟨((h c hc).2 a c' e).1, ((h c hc).2 a c' e).2.1.perm hp, ((h c hc).2 a c' e).2.2⟩⟩
end

mutual
theorem uses_addFuns (E : Env) (l : List Ident) : ∀ e : Ex, e.uses (addFuns E l) = e.uses E
  | .num _ | .str _ => rfl
  | .var _ => rfl
  | .paren e | .post _ e | .pre _ e | .not e | .neg e | .deref e | .addr e => by
    simp only [Ex.uses]; exact uses_addFuns E l e
  | .index a i => by simp only [Ex.uses, uses_addFuns E l a, uses_addFuns E l i]
  | .callName f as => by simp only [Ex.uses, usesArgs_addFuns E l as]; rfl
  | .call f as => by simp only [Ex.uses, uses_addFuns E l f, usesArgs_addFuns E l as]
  | .bin _ a i | .assign _ a i => by simp only [Ex.uses, uses_addFuns E l a, uses_addFuns E l i]
  | .cond a b i => by simp only [Ex.uses, uses_addFuns E l a, uses_addFuns E l b, uses_addFuns E l i]

theorem usesArgs_addFuns (E : Env) (l : List Ident) : ∀ es : List Ex, Ex.usesArgs (addFuns E l) es = Ex.usesArgs E es
  | [] => rfl
  | e :: es => by simp only [Ex.usesArgs, uses_addFuns E l e, usesArgs_addFuns E l es]
end

theorem lvalue_addFuns (E : Env) (l : List Ident) : ∀ e : Ex, e.Lvalue (addFuns E l) = e.Lvalue E := by
  intro e; cases e <;> rfl

mutual
theorem wf_addFuns (E : Env) (l : List Ident) : ∀ e : Ex, e.Wf (addFuns E l) = e.Wf E
  | .num _ | .str _ | .var _ => rfl
  | .paren e | .not e | .neg e | .deref e => by simp only [Ex.Wf]; exact wf_addFuns E l e
  | .post _ e | .pre _ e | .addr e => by simp only [Ex.Wf, wf_addFuns E l e, lvalue_addFuns]
  | .index a i => by simp only [Ex.Wf, wf_addFuns E l a, wf_addFuns E l i]
  | .callName f as => by simp only [Ex.Wf, wfArgs_addFuns E l as]
  | .call f as => by simp only [Ex.Wf, wf_addFuns E l f, wfArgs_addFuns E l as]
  | .bin _ a i => by simp only [Ex.Wf, wf_addFuns E l a, wf_addFuns E l i]
  | .assign _ a i => by simp only [Ex.Wf, wf_addFuns E l a, wf_addFuns E l i, lvalue_addFuns]
  | .cond a b i => by simp only [Ex.Wf, wf_addFuns E l a, wf_addFuns E l b, wf_addFuns E l i]

theorem wfArgs_addFuns (E : Env) (l : List Ident) : ∀ es : List Ex, Ex.WfArgs (addFuns E l) es = Ex.WfArgs E es
  | [] => rfl
  | e :: es => by simp only [Ex.WfArgs, wf_addFuns E l e, wfArgs_addFuns E l es]
end

/-- the rule for an expression, in any environment that differs by function names only -/
theorem tr_more {E : Env} {e : Ex} {l : List Ident} {f : B LV}
    (h : ∀ E, Tr E f (e.Wf E) (addFuns E (e.uses E)) (fun v => v.2 = true ↔ e.Lvalue E)) :
    Tr (addFuns E l) f (e.Wf E) (addFuns E (e.uses E ++ l)) (fun v => v.2 = true ↔ e.Lvalue E) := by
  have := h (addFuns E l)
  rw [wf_addFuns, uses_addFuns, lvalue_addFuns, addFuns_add] at this
  exact this

theorem tr_moreA {E : Env} {es : List Ex} {l : List Ident} {f : B (List Val)}
    (h : ∀ E, Tr E f (Ex.WfArgs E es) (addFuns E (Ex.usesArgs E es)) (fun _ => True)) :
    Tr (addFuns E l) f (Ex.WfArgs E es) (addFuns E (Ex.usesArgs E es ++ l)) (fun _ => True) := by
  have := h (addFuns E l)
  rw [wfArgs_addFuns, usesArgs_addFuns, addFuns_add] at this
  exact this

/-- one operand, then code that always succeeds -/
theorem tr_one {E : Env} {e : Ex} {k : LV → B LV} {f : B LV} {Φ : LV → Prop}
    (h : Tr E f (e.Wf E) (addFuns E (e.uses E)) (fun v => v.2 = true ↔ e.Lvalue E))
    (hk : ∀ v E', Tr E' (k v) True E' Φ) : Tr E (f >>= k) (e.Wf E) (addFuns E (e.uses E)) Φ :=
  h.thenT fun v _ => hk v _

/-- an operand that must be an lvalue, then code that always succeeds -/
theorem tr_lval {E : Env} {e : Ex} {k : Val → B LV} {f : B LV} {Φ : LV → Prop}
    (h : Tr E f (e.Wf E) (addFuns E (e.uses E)) (fun v => v.2 = true ↔ e.Lvalue E))
    (hk : ∀ v E', Tr E' (k v) True E' Φ) :
    Tr E (f >>= fun v => needLval v >>= k) (e.Wf E ∧ e.Lvalue E) (addFuns E (e.uses E)) Φ :=
  h.bind fun v hv => ((tr_needLval v).iff hv).thenT fun a _ => hk a _

theorem addFuns_nil (E : Env) : addFuns E [] = E := rfl

mutual
theorem tr_genL : ∀ (e : Ex), e.All NameOk → ∀ E : Env,
    Tr E (genL e) (e.Wf E) (addFuns E (e.uses E)) (fun v => v.2 = true ↔ e.Lvalue E)
  | .num v, _, E => by
    rw [show Ex.uses E (.num v) = [] by simp [Ex.uses]]
    exact (Tr.pure (by simp [Ex.Lvalue])).iff (by simp [Ex.Wf])
  | .str s, _, E => by
    rw [show Ex.uses E (.str s) = [] by simp [Ex.uses]]
    exact ((tr_genStr _).step fun _ _ => Tr.pure (by simp [Ex.Lvalue])).iff (by simp [Ex.Wf])
  | .var x, hn, E => (tr_genVar hn).iff (by simp [Ex.Wf])
  | .paren e, hn, E => by
    simp only [Ex.uses, Ex.Wf]
    exact tr_one (tr_genL e hn E) fun v E' => (tr_rval v).step fun _ _ => .pure (by simp [Ex.Lvalue])
  | .index a i, hn, E => by
    simp only [Ex.uses, Ex.Wf]
    refine Tr.perm (l := i.uses E ++ a.uses E) ?_ (by intro x; simp; exact or_comm)
    refine (tr_genL a hn.1 E).bind fun v _ => (tr_rval v).step fun _ _ => (tr_emit _).step fun _ _ => ?_
    exact (tr_more (tr_genL i hn.2)).thenT fun v _ => (tr_rval v).step fun _ _ => (tr_emit _).step fun _ _ =>
      .pure (by simp [Ex.Lvalue])
  | .callName f as, hn, E => by
    simp only [Ex.uses, Ex.Wf]
    refine Tr.perm (l := Ex.usesArgs E as ++ (if f ∈ E.exts then [] else [f])) ?_ (by intro x; simp; exact or_comm)
    refine (tr_genCallee hn.1).step fun v _ => (tr_rval v).step fun _ _ => ?_
    exact (tr_moreA (tr_genArgs as hn.2)).thenT fun v _ => (tr_genCall _ _).step fun _ _ => .pure (by simp [Ex.Lvalue])
  | .call f as, hn, E => by
    simp only [Ex.uses, Ex.Wf]
    refine Tr.perm (l := Ex.usesArgs E as ++ f.uses E) ?_ (by intro x; simp; exact or_comm)
    refine (tr_genL f hn.1 E).bind fun v _ => (tr_rval v).step fun _ _ => ?_
    exact (tr_moreA (tr_genArgs as hn.2)).thenT fun v _ => (tr_genCall _ _).step fun _ _ => .pure (by simp [Ex.Lvalue])
  | .post d e, hn, E => by
    simp only [Ex.uses, Ex.Wf]
    exact tr_lval (tr_genL e hn E) fun v E' => (tr_genPostfix _ v).step fun _ _ => .pure (by simp [Ex.Lvalue])
  | .pre d e, hn, E => by
    simp only [Ex.uses, Ex.Wf]
    exact tr_lval (tr_genL e hn E) fun v E' => (tr_genPrefix _ v).step fun _ _ => .pure (by simp [Ex.Lvalue])
  | .not e, hn, E => by
    simp only [Ex.uses, Ex.Wf]
    exact tr_one (tr_genL e hn E) fun v E' => ((tr_rval v).step fun _ _ => tr_cmpOp _ _ _).step fun _ _ =>
      .pure (by simp [Ex.Lvalue])
  | .neg e, hn, E => by
    simp only [Ex.uses, Ex.Wf]
    exact tr_one (tr_genL e hn E) fun v E' => ((tr_rval v).step fun _ _ => tr_emit _).step fun _ _ =>
      .pure (by simp [Ex.Lvalue])
  | .deref e, hn, E => by
    simp only [Ex.uses, Ex.Wf]
    exact tr_one (tr_genL e hn E) fun v E' => ((tr_rval v).step fun _ _ => tr_emit _).step fun _ _ =>
      .pure (by simp [Ex.Lvalue])
  | .addr e, hn, E => by
    simp only [Ex.uses, Ex.Wf]
    exact tr_lval (tr_genL e hn E) fun v E' => (tr_emit _).step fun _ _ => .pure (by simp [Ex.Lvalue])
  | .bin o l r, hn, E => by
    simp only [Ex.uses, Ex.Wf]
    refine Tr.perm (l := r.uses E ++ l.uses E) ?_ (by intro x; simp; exact or_comm)
    refine (tr_genL l hn.1 E).bind fun v _ => (tr_rval v).step fun _ _ => ?_
    exact (tr_more (tr_genL r hn.2)).thenT fun v _ => (tr_rval v).step fun _ _ => (tr_genOp _ _ _).step fun _ _ =>
      .pure (by simp [Ex.Lvalue])
  | .cond c t e, hn, E => by
    simp only [Ex.uses, Ex.Wf]
    refine Tr.perm (l := e.uses E ++ (t.uses E ++ c.uses E)) ?_ (by intro x; simp; grind)
    refine (tr_genL c hn.1 E).bind fun v _ => (tr_rval v).step fun _ _ => (tr_condStart _).step fun (_, _, _) _ =>
      (tr_setInsertPoint _).step fun _ _ => ?_
    refine (tr_more (tr_genL t hn.2.1)).bind fun v _ => (tr_rval v).step fun _ _ => tr_getInsertBlock.step fun _ _ =>
      (tr_setTerm _).step fun _ _ => (tr_setInsertPoint _).step fun _ _ => ?_
    exact (tr_more (tr_genL e hn.2.2)).thenT fun v _ => (tr_rval v).step fun _ _ => tr_getInsertBlock.step fun _ _ =>
      (tr_setTerm _).step fun _ _ => (tr_setInsertPoint _).step fun _ _ => (tr_emit _).step fun _ _ =>
      .pure (by simp [Ex.Lvalue])
  | .assign o l r, hn, E => by
    simp only [Ex.uses, Ex.Wf]
    refine Tr.perm (l := r.uses E ++ l.uses E) ?_ (by intro x; simp; exact or_comm)
    refine (tr_genL l hn.1 E).bind fun v hv => ((tr_needLval v).iff hv).bind fun _ _ => ?_
    exact (tr_more (tr_genL r hn.2)).thenT fun v _ => (tr_rval v).step fun _ _ => (tr_genAssign _ _ _).step fun _ _ =>
      .pure (by simp [Ex.Lvalue])

theorem tr_genArgs : ∀ (es : List Ex), Ex.AllArgs NameOk es → ∀ E : Env,
    Tr E (genArgs es) (Ex.WfArgs E es) (addFuns E (Ex.usesArgs E es)) (fun _ => True)
  | [], _, E => Tr.pure trivial
  | e :: es, hn, E => by
    simp only [Ex.usesArgs, Ex.WfArgs]
    refine Tr.perm (l := Ex.usesArgs E es ++ e.uses E) ?_ (by intro x; simp; exact or_comm)
    refine (tr_genL e hn.1 E).bind fun v _ => (tr_rval v).step fun _ _ => ?_
    exact (tr_moreA (tr_genArgs es hn.2)).thenT fun _ _ => .pure trivial
end

theorem tr_genR (e : Ex) (hn : e.All NameOk) (E : Env) :
    Tr E (genR e) (e.Wf E) (E.afterEx e) (fun _ => True) :=
  (tr_genL e hn E).thenT fun v _ => tr_rval v

/-! ### statements -/

theorem tr_brIfOpen {E : Env} (b : Nat) : Tr E (brIfOpen b) True E (fun _ => True) := by
  unfold brIfOpen
  refine Tr.get fun c hc => ?_
  split
  · exact tr_setTerm _ c hc
  · exact (Tr.pure trivial) c hc

theorem tr_genLabel {E : Env} (l : Name) : Tr E (genLabel l) True E (fun _ => True) :=
  (tr_getOrCreateLabel _).step fun _ _ => (tr_brIfOpen _).step fun _ _ => tr_setInsertPoint _

theorem tr_genGoto {E : Env} (l : Name) : Tr E (genGoto l) True E (fun _ => True) :=
  (tr_getOrCreateLabel _).step fun _ _ => (tr_setTerm _).step fun _ _ => Tr.get fun c hc =>
    ((tr_newBlock _).step fun _ _ => tr_freshLabelID.step fun _ _ => tr_setInsertPoint _) c hc

theorem tr_ifStart {E : Env} (v : Val) : Tr E (ifStart v) True E (fun _ => True) :=
  tr_freshLabelID.step fun _ _ => (tr_newBlock _).step fun _ _ => (tr_newBlock _).step fun _ _ =>
    (tr_newBlock _).step fun _ _ => (tr_emit _).step fun _ _ => (tr_setTerm _).step fun _ _ => .pure trivial

theorem tr_whileStart {E : Env} : Tr E whileStart True E (fun _ => True) :=
  tr_freshLabelID.step fun _ _ => (tr_newBlock _).step fun _ _ => (tr_newBlock _).step fun _ _ =>
    (tr_newBlock _).step fun _ _ => (tr_setTerm _).step fun _ _ => (tr_setInsertPoint _).step fun _ _ => .pure trivial

theorem tr_switchStart {E : Env} (n : Nat) : Tr E (switchStart n) True E (fun _ => True) :=
  (tr_newBlock _).step fun _ _ => (tr_newBlock _).step fun _ _ =>
    (tr_newBlock _).step fun _ _ => (tr_setTerm _).step fun _ _ => (tr_setInsertPoint _).step fun _ _ => .pure trivial

theorem tr_switchCases {E : Env} (n : Nat) (cs : Cases) : Tr E (switchCases n cs) True E (fun _ => True) := by
  induction cs with
  | nil => exact .pure trivial
  | cons v vs ih => exact (tr_getOrCreateLabel _).step fun _ _ => ih.step fun _ _ => .pure trivial

theorem tr_switchTerm {E : Env} (n : Nat) (v : Val) (b : Nat) (cs : Cases) :
    Tr E (switchTerm n v b cs) True E (fun _ => True) := by
  unfold switchTerm
  split
  · exact (tr_switchCases _ _).step fun _ _ => tr_setTerm _
  · exact tr_setTerm _

/-- adding a local -/
theorem tr_addLocal {E : Env} (x : Name) (v : Val) :
    Tr E (M.modify fun c => { c with locals := insert x v c.locals }) True { E with locals := x :: E.locals } (fun _ => True) := by
  intro c hc
  refine ⟨fun _ => ⟨_, _, rfl⟩, ?_⟩
  intro a c' h
  simp at h; subst h
  refine ⟨trivial, ⟨hc.vars, hc.funs, ?_, hc.exts, hc.fns, hc.used⟩, trivial⟩
  intro y
  simp only [lookup_insert, List.mem_cons, hc.locals y]
  split
  · rename_i h; simp [h]
  · rename_i h; simp [Ne.symm h]

theorem tr_declareOne {E : Env} (x : Name) (n : W) :
    Tr E (declareOne x n) True { E with locals := x :: E.locals } (fun _ => True) := by
  unfold declareOne
  split
  · exact (tr_emit _).step fun _ _ => (tr_emit _).step fun _ _ => tr_addLocal _ _
  · exact (tr_emit _).step fun _ _ => (tr_emit _).step fun _ _ => (tr_emit _).step fun _ _ => (tr_emit _).step fun _ _ =>
      (tr_emit _).step fun _ _ => tr_addLocal _ _

/-- `Knows` sees the locals as a set -/
theorem Tr.permLocals {α : Type} {E E1 : Env} {f : B α} {W : Prop} {Φ : α → Prop} {l m : List Ident}
    (h : Tr E f W { E1 with locals := l } Φ) (hp : ∀ x, x ∈ l ↔ x ∈ m) : Tr E f W { E1 with locals := m } Φ := by
  intro c hc
  refine ⟨(h c hc).1, fun a c' e => ?_⟩
  obtain ⟨h1, h2, h3⟩ := (h c hc).2 a c' e
  exact ⟨h1, ⟨h2.vars, h2.funs, fun x => by rw [← h2.locals x]; exact (hp x).symm, h2.exts, h2.fns, h2.used⟩, h3⟩

theorem tr_declareAll (ds : List (Name × Option Word)) : ∀ E : Env,
    Tr E (declareAll (ds.map autoSizeOf)) True { E with locals := ds.map (·.1) ++ E.locals } (fun _ => True) := by
  induction ds with
  | nil => exact fun E => .pure trivial
  | cons d ds ih =>
    intro E
    refine (tr_declareOne _ _).step fun _ _ => (ih _).permLocals ?_
    intro x
    simp [autoSizeOf]
    grind

theorem tr_autoCheck (ds : List (Name × Option Word)) : ∀ (E : Env) (seen : List Name),
    Tr E (autoCheck seen ds) ((ds.map (·.1)).Nodup ∧ ∀ d ∈ ds, d.1 ∉ seen ∧ d.1 ∉ E.locals) E (fun _ => True) := by
  induction ds with
  | nil => exact fun E seen => (Tr.pure trivial).iff (by simp)
  | cons d ds ih =>
    intro E seen
    refine Tr.get fun c hc => ?_
    by_cases h : d.1 ∈ seen ∨ (lookup d.1 c.locals).isSome
    · rw [if_pos h]
      refine ((Tr.fail (E1 := E)).iff ?_) c hc
      rw [← hc.locals] at h
      simp
      grind
    · rw [if_neg h]
      refine ((ih E (d.1 :: seen)).iff ?_) c hc
      rw [← hc.locals] at h
      simp
      grind

/-- `extrn` of one name -/
theorem tr_declareExtrn {E : Env} {x : Name} (hx : NameOk x) :
    Tr E (declareExtrn x) (x ∈ E.vars ∨ x ∉ E.funs) (E.afterExtrn x) (fun _ => True) := by
  intro c hc
  have key : ∀ (c1 : CState) (v : Val), c1.funcs = c.funcs → c1.locals = c.locals → c1.functions = c.functions →
      c1.usedAsFunction = c.usedAsFunction → c1.ctx = c.ctx →
      (∀ y, NameOk y → (y ∈ x :: E.vars ↔ globalName y ∈ c1.globals.map GlobalDef.sym)) →
      Knows (E.afterExtrn x) { c1 with ctx := insert x v c1.ctx } := by
    intro c1 v h1 h2 h3 h4 h5 h6
    refine ⟨h6, ?_, ?_, ?_, ?_, ?_⟩
    · simp only [h1]; exact hc.funs
    · simp only [h2]; exact hc.locals
    · intro y
      simp only [lookup_insert, h5]
      simp only [Env.afterExtrn, List.mem_cons, hc.exts y]
      split
      · rename_i h; simp [h]
      · rename_i h; simp [Ne.symm h]
    · simp only [h1, h3]; exact hc.fns
    · simp only [h1, h4]; exact hc.used
  unfold declareExtrn
  have hg := findGlobal_isSome c x
  have hv := hc.vars x hx
  have hf := hc.funs x hx
  cases h : findGlobalByName c x with
  | some g =>
    rw [h] at hg
    have hm : x ∈ E.vars := hv.2 (hg.1 rfl)
    refine ⟨fun _ => ⟨_, _, rfl⟩, ?_⟩
    intro a c' e
    cases e
    refine ⟨.inl hm, key c g.val rfl rfl rfl rfl rfl ?_, trivial⟩
    intro y hy
    rw [← hc.vars y hy]
    simp; intro h; rw [h]; exact hm
  | none =>
    rw [h] at hg
    have hm : x ∉ E.vars := fun hh => by simpa using hg.2 (hv.1 hh)
    dsimp only
    by_cases hcond : findFuncByName c x = none ∧ x ∉ c.usedAsFunction
    · rw [if_pos hcond]
      have hnf : x ∉ E.funs := by rw [hf]; exact findFunc_none hcond.1
      refine ⟨fun _ => ⟨_, _, rfl⟩, ?_⟩
      intro a c' e
      cases e
      refine ⟨.inr hnf, key (newGlobalDef c ⟨globalName x, .word (.int 0), false⟩) _ rfl rfl rfl rfl rfl ?_, trivial⟩
      intro y hy
      have : (globalName y = globalName x) ↔ y = x := ⟨globalName_inj, fun h => by rw [h]⟩
      simp only [newGlobalDef, List.map_append, List.mem_append, List.map_cons, List.map_nil, List.mem_singleton, this,
        List.mem_cons, hc.vars y hy, List.not_mem_nil, or_false]
      exact or_comm
    · rw [if_neg hcond]
      have hmf : x ∈ E.funs := by
        rw [hf]
        by_cases h1 : findFuncByName c x = none
        · have h2 : x ∈ c.usedAsFunction := by
            by_cases h2 : x ∈ c.usedAsFunction
            · exact h2
            · exact absurd ⟨h1, h2⟩ hcond
          exact hc.used x h2
        · exact (findFunc_isSome c x).1 (Option.isSome_iff_ne_none.2 h1)
      exact ⟨fun hw => absurd (hw.resolve_left hm) (by simp [hmf]), fun a c' e => by cases e⟩

theorem tr_genExtrn (xs : List Name) : (∀ x ∈ xs, NameOk x) → ∀ E : Env,
    Tr E (genExtrn xs) (E.ExtrnOk xs) (xs.foldl Env.afterExtrn E) (fun _ => True) := by
  induction xs with
  | nil => exact fun _ E => .pure trivial
  | cons x xs ih =>
    intro hn E
    exact (tr_declareExtrn (hn x (by simp))).bind fun _ _ => ih (fun y hy => hn y (by simp [hy])) _

theorem tr_genSt : ∀ (s : St), s.All NameOk → ∀ (sw : Option Nat) (cs : Cases) (E : Env),
    Tr E (genSt s sw cs) (St.Wf s sw.isSome E) (E.after s) (fun _ => True)
  | .skip, hn, sw, cs, E => .pure trivial
  | .seq s t, hn, sw, cs, E => (tr_genSt s hn.1 sw cs E).bind fun _ _ => tr_genSt t hn.2 sw _ _
  | .expr e, hn, sw, cs, E => (tr_genR e hn E).thenT fun _ _ => .pure trivial
  | .ret none, hn, sw, cs, E => (tr_setTerm _).step fun _ _ => .pure trivial
  | .ret (some e), hn, sw, cs, E => (tr_genR e hn E).thenT fun _ _ => (tr_setTerm _).step fun _ _ => .pure trivial
  | .auto ds, hn, sw, cs, E => by
    refine Tr.iff (W := (ds.map (·.1)).Nodup ∧ ∀ d ∈ ds, d.1 ∉ ([] : List Name) ∧ d.1 ∉ E.locals) ?_ (by simp [St.Wf])
    exact (tr_autoCheck ds E []).thenT fun _ _ => (tr_declareAll ds E).step fun _ _ => .pure trivial
  | .extrn xs, hn, sw, cs, E => (tr_genExtrn xs hn E).thenT fun _ _ => .pure trivial
  | .ifThen c t, hn, sw, cs, E =>
    (tr_genR c hn.1 E).bind fun _ _ => (tr_ifStart _).step fun (_, _, _) _ => (tr_setInsertPoint _).step fun _ _ =>
      (tr_genSt t hn.2 none [] _).thenT fun _ _ => (tr_brIfOpen _).step fun _ _ => (tr_setInsertPoint _).step fun _ _ =>
      (tr_brIfOpen _).step fun _ _ => (tr_setInsertPoint _).step fun _ _ => .pure trivial
  | .ifElse c t e, hn, sw, cs, E =>
    (tr_genR c hn.1 E).bind fun _ _ => (tr_ifStart _).step fun (_, _, _) _ => (tr_setInsertPoint _).step fun _ _ =>
      (tr_genSt t hn.2.1 none [] _).bind fun _ _ => (tr_brIfOpen _).step fun _ _ => (tr_setInsertPoint _).step fun _ _ =>
      (tr_genSt e hn.2.2 none [] _).thenT fun _ _ =>
      (tr_brIfOpen _).step fun _ _ => (tr_setInsertPoint _).step fun _ _ => .pure trivial
  | .while c b, hn, sw, cs, E =>
    tr_whileStart.step fun (_, _, _) _ => (tr_genR c hn.1 E).bind fun _ _ => (tr_emit _).step fun _ _ =>
      (tr_setTerm _).step fun _ _ => (tr_setInsertPoint _).step fun _ _ =>
      (tr_genSt b hn.2 none [] _).thenT fun _ _ =>
      (tr_brIfOpen _).step fun _ _ => (tr_setInsertPoint _).step fun _ _ => .pure trivial
  | .switch e b, hn, sw, cs, E =>
    tr_freshLabelID.step fun n _ => (tr_genR e hn.1 E).bind fun _ _ => (tr_switchStart _).step fun (_, _) _ =>
      (tr_genSt b hn.2 (some n) [] _).thenT fun _ _ => (tr_brIfOpen _).step fun _ _ =>
      (tr_setInsertPoint _).step fun _ _ => (tr_switchTerm _ _ _ _).step fun _ _ =>
      (tr_setInsertPoint _).step fun _ _ => .pure trivial
  | .case v s, hn, none, cs, E => (Tr.fail).iff (by simp [St.Wf])
  | .case v s, hn, some n, cs, E =>
    ((tr_genLabel _).step fun _ _ => tr_genSt s hn (some n) _ E).iff (by simp [St.Wf])
  | .label l s, hn, sw, cs, E => (tr_genLabel _).step fun _ _ => tr_genSt s hn.2 sw _ E
  | .goto l, hn, sw, cs, E => (tr_genGoto _).step fun _ _ => .pure trivial

/-! ### declarations -/

theorem tr_getOrCreateFunc {E : Env} (n : Name) (hn : n = "llvm.va_start".toList ∨ n = "llvm.va_end".toList) :
    Tr E (getOrCreateFunc n) True E (fun _ => True) := by
  intro c hc
  unfold getOrCreateFunc
  split
  · exact ⟨fun _ => ⟨_, _, rfl⟩, fun a c' e => by cases e; exact ⟨trivial, hc, trivial⟩⟩
  · refine ⟨fun _ => ⟨_, _, rfl⟩, fun a c' e => ?_⟩
    cases e
    have hne : ∀ x, globalName x ≠ n := by
      intro x; rcases hn with rfl | rfl
      · exact (globalName_ne_va x).1
      · exact (globalName_ne_va x).2
    refine ⟨trivial, ⟨hc.vars, ?_, hc.locals, hc.exts, ?_, ?_⟩, trivial⟩
    · intro x hx
      rw [hc.funs x hx]
      simp [newFunc, hne x]
    · intro x hx
      have := hc.fns x hx
      simp only [newFunc, List.map_append, List.mem_append]; exact .inl this
    · intro x hx
      have := hc.used x hx
      simp only [newFunc, List.map_append, List.mem_append]; exact .inl this

theorem tr_firstParam {E : Env} (p : Name) : Tr E (firstParam p) True { E with locals := p :: E.locals } (fun _ => True) :=
  (tr_emit _).step fun _ _ => (tr_emit _).step fun _ _ => tr_addLocal _ _

theorem tr_vaParams (v : Val) (ps : List Name) : ∀ E : Env,
    Tr E (vaParams v ps) True { E with locals := ps ++ E.locals } (fun _ => True) := by
  induction ps with
  | nil => exact fun E => .pure trivial
  | cons p ps ih =>
    intro E
    refine (tr_emit _).step fun _ _ => (tr_emit _).step fun _ _ => (tr_emit _).step fun _ _ => (tr_addLocal _ _).step fun _ _ =>
      (ih _).permLocals ?_
    intro x; simp; grind

theorem tr_paramCode (ps : List Name) (E : Env) :
    Tr E (paramCode ps) True { E with locals := ps ++ E.locals } (fun _ => True) := by
  unfold paramCode
  split
  · exact .pure trivial
  · exact tr_firstParam _
  · refine (tr_firstParam _).step fun _ _ => (tr_emit _).step fun _ _ => (tr_emit _).step fun _ _ =>
      (tr_getOrCreateFunc _ (.inl rfl)).step fun _ _ => (tr_emit _).step fun _ _ => (tr_vaParams _ _ _).step fun _ _ =>
      (tr_getOrCreateFunc _ (.inr rfl)).step fun _ _ => ((tr_emit _).step fun _ _ => .pure trivial).permLocals ?_
    intro x; simp; grind

/-- the knowledge at a declaration -/
structure KnowsTop (E : Env) (c : CState) : Prop where
  knows : Knows E c
  locals : E.locals = []
  exts : E.exts = []
  functions : c.functions = []

theorem KnowsTop.init : KnowsTop Env.empty newCompiler :=
  ⟨⟨by simp [Env.empty, newCompiler], by simp [Env.empty, newCompiler], by simp [Env.empty, newCompiler, lookup],
    by simp [Env.empty, newCompiler, lookup], by simp [newCompiler, lookup], by simp [newCompiler]⟩, rfl, rfl, rfl⟩

theorem mem_eraseP_sym (fs : List Func) (s y : Name) (h : y ≠ s) :
    y ∈ (fs.eraseP (fun g => g.sym = s)).map Func.sym ↔ y ∈ fs.map Func.sym := by
  simp only [List.mem_map]
  constructor
  · rintro ⟨f, h1, h2⟩; exact ⟨f, List.mem_of_mem_eraseP h1, h2⟩
  · rintro ⟨f, h1, h2⟩; exact ⟨f, mem_eraseP_of_ne h1 (by simp [h2, h]), h2⟩

theorem mem_eraseP_gsym (fs : List GlobalDef) (s y : Name) (h : y ≠ s) :
    y ∈ (fs.eraseP (fun g => g.sym = s)).map GlobalDef.sym ↔ y ∈ fs.map GlobalDef.sym := by
  simp only [List.mem_map]
  constructor
  · rintro ⟨f, h1, h2⟩; exact ⟨f, List.mem_of_mem_eraseP h1, h2⟩
  · rintro ⟨f, h1, h2⟩; exact ⟨f, mem_eraseP_of_ne h1 (by simp [h2, h]), h2⟩

/-- after `DeclareFunction` and the reset at the start of `StartFunction` -/
theorem knows_entered {E : Env} {c : CState} (hc : KnowsTop E c) {f : Name} (hf : NameOk f) (ps : List Name) :
    Knows ⟨E.vars, f :: E.funs, [], []⟩ (entered (defFunc f ps)
      { c with funcs := c.funcs.eraseP (fun g => g.sym = globalName f) ++ [defFunc f ps]
               functionParams := insert f ps c.functionParams
               functions := insert f (defFunc f ps).val c.functions }) := by
  have key : ∀ y, globalName y ∈ (c.funcs.eraseP (fun g => g.sym = globalName f) ++ [defFunc f ps]).map Func.sym ↔
      y = f ∨ globalName y ∈ c.funcs.map Func.sym := by
    intro y
    simp only [List.map_append, List.mem_append, List.map_cons, List.map_nil, List.mem_singleton]
    by_cases h : y = f
    · subst h; simp [defFunc]
    · have h' : globalName y ≠ globalName f := fun e => h (globalName_inj e)
      rw [mem_eraseP_sym _ _ _ h']
      simp [defFunc, h, h']
  refine ⟨hc.knows.vars, ?_, ?_, ?_, ?_, ?_⟩
  · intro x hx
    simp only [entered, key, List.mem_cons, hc.knows.funs x hx]
  · intro x; simp [entered, lookup]
  · intro x
    have := hc.knows.exts x
    rw [hc.exts] at this
    exact this
  · intro x hx
    simp only [entered, lookup_insert, hc.functions] at hx
    simp only [entered, key]
    split at hx
    · rename_i h; exact .inl h.symm
    · simp [lookup] at hx
  · intro x hx
    simp only [entered, key]
    exact .inr (hc.knows.used x hx)

theorem genIvals_total (vs : List Ival) : ∀ c : CState, ∃ ks c', genIvals vs c = .ok ks c' := by
  induction vs with
  | nil => exact fun c => ⟨_, _, rfl⟩
  | cons v vs ih =>
    intro c
    have : ∃ k c1, genIval v c = .ok k c1 := by
      cases v with
      | int _ => exact ⟨_, _, rfl⟩
      | str s => exact ⟨_, _, rfl⟩
    obtain ⟨k, c1, h1⟩ := this
    obtain ⟨ks, c2, h2⟩ := ih c1
    exact ⟨k :: ks, c2, by simp only [genIvals]; rw [M.bind_ok h1, M.bind_ok h2]; rfl⟩

/-- the parts of the state a declaration of a global does not touch -/
structure SameF (c c' : CState) : Prop where
  funcs : c'.funcs = c.funcs
  locals : c'.locals = c.locals
  ctx : c'.ctx = c.ctx
  functions : c'.functions = c.functions
  used : c'.usedAsFunction = c.usedAsFunction

theorem genIvals_same {vs : List Ival} : ∀ {c c' : CState} {ks : List Const}, genIvals vs c = .ok ks c' →
    SameF c c' ∧ ∀ x, globalName x ∈ c'.globals.map GlobalDef.sym ↔ globalName x ∈ c.globals.map GlobalDef.sym := by
  induction vs with
  | nil => intro c c' ks h; cases h; exact ⟨⟨rfl, rfl, rfl, rfl, rfl⟩, fun _ => Iff.rfl⟩
  | cons v vs ih =>
    intro c c' ks h
    simp only [genIvals] at h
    obind h k c1 h1
    obind h ks' c2 h2
    simp at h; obtain ⟨rfl, rfl⟩ := h
    obtain ⟨a, b⟩ := ih h2
    have : SameF c c1 ∧ ∀ x, globalName x ∈ c1.globals.map GlobalDef.sym ↔ globalName x ∈ c.globals.map GlobalDef.sym := by
      cases v with
      | int _ => cases h1; exact ⟨⟨rfl, rfl, rfl, rfl, rfl⟩, fun _ => Iff.rfl⟩
      | str s =>
        cases h1
        refine ⟨⟨rfl, rfl, rfl, rfl, rfl⟩, fun x => ?_⟩
        have := globalName_ne_str x c.stringID
        simp [newGlobalDef, this]
    obtain ⟨a', b'⟩ := this
    exact ⟨⟨by rw [a.funcs, a'.funcs], by rw [a.locals, a'.locals], by rw [a.ctx, a'.ctx], by rw [a.functions, a'.functions],
      by rw [a.used, a'.used]⟩, fun x => (b x).trans (b' x)⟩

/-- after the declaration of a global named `x` and the clearing of the context -/
theorem knowsTop_global {E : Env} {c c2 : CState} (hc : KnowsTop E c) {x : Name}
    (hf : c2.funcs = c.funcs) (hl : c2.locals = c.locals) (hu : c2.usedAsFunction = c.usedAsFunction)
    (hg : ∀ y, NameOk y → (globalName y ∈ c2.globals.map GlobalDef.sym ↔ y = x ∨ globalName y ∈ c.globals.map GlobalDef.sym)) :
    KnowsTop ⟨x :: E.vars, E.funs, [], []⟩ { c2 with ctx := [], functions := [], functionParams := [] } := by
  refine ⟨⟨?_, ?_, ?_, ?_, ?_, ?_⟩, rfl, rfl, rfl⟩
  · intro y hy; simp only [List.mem_cons, hg y hy, hc.knows.vars y hy]
  · simp only [hf]; exact hc.knows.funs
  · simp only [hl]
    have := hc.knows.locals
    rw [hc.locals] at this; exact this
  · simp [lookup]
  · simp [lookup]
  · simp only [hf, hu]; exact hc.knows.used

/-- One declaration: it is accepted exactly when it obeys the rules. -/
theorem tr_genDecl {E : Env} {c : CState} (hc : KnowsTop E c) {d : Decl} (hn : d.All NameOk) :
    (Decl.Wf E d → ∃ c', (genDecl d >>= fun _ => clearTopLevelContext) c = .ok () c') ∧
    ∀ c', (genDecl d >>= fun _ => clearTopLevelContext) c = .ok () c' → Decl.Wf E d ∧ KnowsTop (E.afterDecl d) c' := by
  have hrm : ∀ x y, y ≠ x → (globalName y ∈ (removeGlobalByName c x).globals.map GlobalDef.sym ↔
      globalName y ∈ c.globals.map GlobalDef.sym) :=
    fun x y h => mem_eraseP_gsym _ _ _ (fun e => h (globalName_inj e))
  cases d with
  | global x vals =>
    constructor
    · intro _
      obtain ⟨ks, c1, h1⟩ := genIvals_total vals (removeGlobalByName c x)
      refine ⟨{ newGlobalDef c1 ⟨globalName x, valsInit ks, false⟩ with ctx := [], functions := [], functionParams := [] }, ?_⟩
      · simp only [genDecl]
        rw [M.bind_apply, M.bind_ok (M.modify_apply _ _), M.bind_ok h1]
        match ks with
        | [] => rfl
        | [k] => rfl
        | k :: k' :: ks => rfl
    · intro c' h
      obind h u c1 h1
      obtain ⟨ks, c2, h2, rfl⟩ := genDecl_global h1
      simp [clearTopLevelContext] at h; subst h
      obtain ⟨a, b⟩ := genIvals_same h2
      refine ⟨trivial, ?_⟩
      have := knowsTop_global (x := x) (c2 := newGlobalDef c2 ⟨globalName x, valsInit ks, false⟩) hc a.funcs a.locals a.used ?_
      · exact this
      · intro y hy
        simp only [newGlobalDef, List.map_append, List.mem_append, b, List.map_cons, List.map_nil, List.mem_singleton]
        by_cases h : y = x
        · subst h; simp
        · rw [hrm x y h]
          have : globalName y ≠ globalName x := fun e => h (globalName_inj e)
          simp [h, this]
  | vector x n vals =>
    constructor
    · intro _
      obtain ⟨ks, c1, h1⟩ := genIvals_total vals (removeGlobalByName c x)
      obtain ⟨c2, h2⟩ : ∃ c2, declareGlobalArray x (if n = 0 then BitVec.ofNat 64 ks.length else n) ks c1 = .ok () c2 :=
        ⟨_, rfl⟩
      refine ⟨{ c2 with ctx := [], functions := [], functionParams := [] }, ?_⟩
      simp only [genDecl]
      rw [M.bind_apply, M.bind_ok (M.modify_apply _ _), M.bind_ok h1, h2]
      rfl
    · intro c' h
      obind h u c1 h1
      obtain ⟨ks, c2, c3, g, h2, h3, rfl⟩ := genDecl_vector h1
      simp [clearTopLevelContext] at h; subst h
      obtain ⟨a, b⟩ := genIvals_same h2
      refine ⟨trivial, ?_⟩
      have hb : ∀ y, NameOk y → (globalName y ∈ c3.globals.map GlobalDef.sym ↔ globalName y ∈ c2.globals.map GlobalDef.sym) := by
        intro y hy
        cases h3 with
        | separate h4 h5 h6 h7 =>
          have := globalName_ne_data hy x
          rw [h6]; simp [newGlobalDef, this]
        | inline m h4 h5 h6 h7 => rw [h6]
      have hs : c3.funcs = c2.funcs ∧ c3.locals = c2.locals ∧ c3.usedAsFunction = c2.usedAsFunction ∧ g.sym = globalName x := by
        cases h3 with
        | separate h4 h5 h6 h7 => rw [h6, h7]; exact ⟨rfl, rfl, rfl, rfl⟩
        | inline m h4 h5 h6 h7 => rw [h6, h7]; exact ⟨rfl, rfl, rfl, rfl⟩
      have := knowsTop_global (x := x) (c2 := newGlobalDef c3 g) hc (hs.1.trans a.funcs) (hs.2.1.trans a.locals)
        (hs.2.2.1.trans a.used) ?_
      · exact this
      · intro y hy
        simp only [newGlobalDef, List.map_append, List.mem_append, hb y hy, b, List.map_cons, List.map_nil, List.mem_singleton,
          hs.2.2.2]
        by_cases h : y = x
        · subst h; simp
        · rw [hrm x y h]
          have : globalName y ≠ globalName x := fun e => h (globalName_inj e)
          simp [h, this]
  | func f ps b =>
    have hk := knows_entered hc hn.1 ps
    have hp := tr_paramCode ps ⟨E.vars, f :: E.funs, [], []⟩
    rw [show (ps ++ ([] : List Name)) = ps by simp] at hp
    have hb := hp.step fun _ _ => tr_genSt b hn.2.2 none [] _
    obtain ⟨h1, h2⟩ := hb _ hk
    constructor
    · intro hw
      obtain ⟨cs, c3, e⟩ := h1 hw
      obind e u c2 h3
      obtain ⟨c4, h4⟩ : ∃ c4, endFunction c3 = .ok () c4 := ⟨_, endFunction_eq c3⟩
      refine ⟨{ c4 with ctx := [], functions := [], functionParams := [] }, ?_⟩
      simp only [genDecl]
      rw [M.bind_apply, M.bind_ok (declareFunction_eq f ps c), M.bind_apply, startFunction_eq,
        startParams_declared hc.functions (declareFunction_eq f ps c), h3]
      simp only
      rw [M.bind_ok e, h4]
      rfl
    · intro c' h
      obind h u c1 e1
      obtain ⟨bs, r, rfl⟩ := genDecl_func hc.functions e1
      have hr : (paramCode ps >>= fun _ => genSt b none []) (entered (defFunc f ps)
          { c with funcs := c.funcs.eraseP (fun g => g.sym = globalName f) ++ [defFunc f ps]
                   functionParams := insert f ps c.functionParams
                   functions := insert f (defFunc f ps).val c.functions }) = .ok r.cs r.c3 := by
        have hd := r.decl
        rw [declareFunction_eq] at hd
        have he := r.entry
        simp only [R.ok.injEq, true_and] at hd
        rw [← hd] at he
        rw [M.bind_ok he, r.body]
      obtain ⟨w, k, _⟩ := h2 _ _ hr
      refine ⟨w, ?_⟩
      simp [clearTopLevelContext] at h; subst h
      have hm : ∀ (fs : List Func) (s : Name) (bs : List Block),
          (fs.map fun g => if g.sym = s then { g with blocks := bs } else g).map Func.sym = fs.map Func.sym :=
        fun fs s bs => map_sym_eq bs s fs
      refine ⟨⟨k.vars, ?_, ?_, ?_, ?_, ?_⟩, rfl, rfl, rfl⟩
      · intro x hx
        simp only [hm]; exact k.funs x hx
      · simp [lookup, Env.afterDecl]
      · simp [lookup, Env.afterDecl]
      · simp [lookup]
      · simp only [hm]; exact k.used

/-- **Acceptance of trees.** -/
theorem genProg_accepts {p : Program} (hn : ∀ d ∈ p, d.All NameOk) : ∀ {E : Env} {c : CState}, KnowsTop E c →
    ((∃ c', genProg p c = .ok () c') ↔ Program.Wf E p) := by
  induction p with
  | nil => intro E c _; exact ⟨fun _ => trivial, fun _ => ⟨c, rfl⟩⟩
  | cons d p ih =>
    intro E c hc
    obtain ⟨h1, h2⟩ := tr_genDecl hc (hn d (by simp))
    have hp : genProg (d :: p) c = ((genDecl d >>= fun _ => clearTopLevelContext) >>= fun _ => genProg p) c := by
      simp only [genProg, M.bind_apply]
      cases genDecl d c <;> rfl
    rw [hp]
    constructor
    · rintro ⟨c', h⟩
      obind h u c1 e1
      obtain ⟨w, k⟩ := h2 _ e1
      exact ⟨w, (ih (fun x hx => hn x (by simp [hx])) k).1 ⟨_, h⟩⟩
    · rintro ⟨w1, w2⟩
      obtain ⟨c1, e1⟩ := h1 w1
      obtain ⟨_, k⟩ := h2 _ e1
      obtain ⟨c', e2⟩ := (ih (fun x hx => hn x (by simp [hx])) k).2 w2
      exact ⟨c', by rw [M.bind_ok e1, e2]⟩

end Blang
