import Verif.Proofs.ProgInv
import Verif.Proofs.Scope
import Verif.Proofs.StaticSt
import Verif.Proofs.Terminated
import Verif.Proofs.Effective
import Verif.Spec.Apart
/-
The names of parameters and `auto` variables do not matter for the code, if the callees keep theirs.

`put` replaces what depends on those names in the state: the table of local variables, the functions (with the names of their parameters),
and the table of parameters.  `Free` operations do not look at these.  `Rel` relates the states of the two runs.
-/
namespace Blang.Apart
open Blang Spec

/-- the state with another table of locals, other functions, another table of parameters -/
def put (c : CState) (l : List (Name × Val)) (f : List Func) (q : List (Name × List Name)) : CState :=
  { c with locals := l, funcs := f, functionParams := q }

/-- does not depend on locals, functions and parameters, nor changes them -/
def Free {α : Type} (f : B α) : Prop := ∀ c l fs q, f (put c l fs q) = (f c).mapS fun d => put d l fs q

variable {α β : Type}

theorem Free.pure (a : α) : Free (pure a : B α) := fun _ _ _ _ => rfl
theorem Free.fail {s : String} : Free (bfail s : B α) := fun _ _ _ _ => rfl
theorem Free.bind {f : B α} {g : α → B β} (hf : Free f) (hg : ∀ a, Free (g a)) : Free (f >>= g) := by
  intro c l fs q
  rw [M.bind_apply, M.bind_apply, hf c l fs q]
  cases f c with
  | ok a c' => exact hg a c' l fs q
  | err e => rfl
theorem Free.ite {p : Prop} [Decidable p] {f g : B α} (hf : Free f) (hg : Free g) : Free (if p then f else g) := by
  split
  · exact hf
  · exact hg
theorem Free.get {f : CState → B α} (hf : ∀ c l fs q, f (put c l fs q) = f c) (hb : ∀ c, Free (f c)) : Free (M.get >>= f) := by
  intro c l fs q
  show f (put c l fs q) (put c l fs q) = (f c c).mapS _
  rw [hf c]
  exact hb c c l fs q
theorem Free.modify {f : CState → CState} (h : ∀ c l fs q, f (put c l fs q) = put (f c) l fs q) : Free (M.modify f) := by
  intro c l fs q
  show R.ok _ _ = R.ok _ _
  rw [h c]
theorem Free.emit (i : Inst) : Free (emit i) := fun _ _ _ _ => rfl
theorem Free.setTerm (t : Term) : Free (setTerm t) := fun _ _ _ _ => rfl
theorem Free.newBlock (n : Name) : Free (newBlock n) := fun _ _ _ _ => rfl
theorem Free.setInsertPoint (n : Nat) : Free (setInsertPoint n) := fun _ _ _ _ => rfl
theorem Free.getInsertBlock : Free getInsertBlock := fun _ _ _ _ => rfl
theorem Free.freshLabelID : Free freshLabelID := fun _ _ _ _ => rfl
theorem Free.getOrCreateLabel (n : Name) : Free (getOrCreateLabel n) := by
  intro c l fs q
  show (match lookup n c.labels with | some b => _ | none => _) = R.mapS _ (match lookup n c.labels with | some b => _ | none => _)
  cases lookup n c.labels <;> rfl
theorem Free.createStringConstant (s : List Char) : Free (createStringConstant s) := fun _ _ _ _ => rfl
theorem Free.rval (v : LV) : Free (rval v) := Free.ite (Free.emit _) (Free.pure _)
theorem Free.cmpOp (p : Pred) (x y : Val) : Free (cmpOp p x y) := Free.bind (Free.emit _) fun _ => Free.emit _
theorem Free.genOp (o : Op) (x y : Val) : Free (genOp o x y) := by
  cases o
  · exact Free.emit _
  · exact Free.cmpOp _ _ _
theorem Free.needLval (v : LV) : Free (needLval v) := Free.ite (Free.pure _) Free.fail
theorem Free.genCall (f : Val) (as : List Val) : Free (genCall f as) := by
  unfold Blang.genCall
  split
  · exact Free.ite (Free.bind (Free.emit _) fun _ => Free.emit _) (Free.emit _)
  · exact Free.bind (Free.emit _) fun _ => Free.emit _
theorem Free.genStr (s : List Char) : Free (genStr s) :=
  Free.bind (Free.createStringConstant s) fun _ => Free.bind (Free.emit _) fun _ => Free.emit _
theorem Free.genPostfix (o : BinOp) (v : Val) : Free (genPostfix o v) :=
  Free.bind (Free.emit _) fun _ => Free.bind (Free.emit _) fun _ => Free.bind (Free.emit _) fun _ => Free.pure _
theorem Free.genPrefix (o : BinOp) (v : Val) : Free (genPrefix o v) :=
  Free.bind (Free.emit _) fun _ => Free.bind (Free.emit _) fun _ => Free.bind (Free.emit _) fun _ => Free.pure _
theorem Free.genNot (v : LV) : Free (genNot v) := Free.bind (Free.rval _) fun _ => Free.cmpOp _ _ _
theorem Free.genNeg (v : LV) : Free (genNeg v) := Free.bind (Free.rval _) fun _ => Free.emit _
theorem Free.genDeref (v : LV) : Free (genDeref v) := Free.bind (Free.rval _) fun _ => Free.emit _
theorem Free.genAssign (o : Option Op) (a b : Val) : Free (genAssign o a b) := by
  cases o with
  | none => exact Free.bind (Free.emit _) fun _ => Free.pure _
  | some o =>
    exact Free.bind (Free.emit _) fun _ => Free.bind (Free.genOp _ _ _) fun _ => Free.bind (Free.emit _) fun _ => Free.pure _
theorem Free.brIfOpen (b : Nat) : Free (brIfOpen b) :=
  Free.get (fun _ _ _ _ => rfl) fun _ => Free.ite (Free.setTerm _) (Free.pure _)
theorem Free.genLabel (l : Name) : Free (genLabel l) :=
  Free.bind (Free.getOrCreateLabel _) fun _ => Free.bind (Free.brIfOpen _) fun _ => Free.setInsertPoint _
theorem Free.genGoto (l : Name) : Free (genGoto l) :=
  Free.bind (Free.getOrCreateLabel _) fun _ => Free.bind (Free.setTerm _) fun _ => Free.get (fun _ _ _ _ => rfl) fun _ =>
    Free.bind (Free.newBlock _) fun _ => Free.bind Free.freshLabelID fun _ => Free.setInsertPoint _
theorem Free.condStart (v : Val) : Free (condStart v) :=
  Free.bind Free.freshLabelID fun _ => Free.bind (Free.newBlock _) fun _ => Free.bind (Free.newBlock _) fun _ =>
    Free.bind (Free.newBlock _) fun _ => Free.bind (Free.emit _) fun _ => Free.bind (Free.setTerm _) fun _ => Free.pure _
theorem Free.ifStart (v : Val) : Free (ifStart v) :=
  Free.bind Free.freshLabelID fun _ => Free.bind (Free.newBlock _) fun _ => Free.bind (Free.newBlock _) fun _ =>
    Free.bind (Free.newBlock _) fun _ => Free.bind (Free.emit _) fun _ => Free.bind (Free.setTerm _) fun _ => Free.pure _
theorem Free.whileStart : Free whileStart :=
  Free.bind Free.freshLabelID fun _ => Free.bind (Free.newBlock _) fun _ => Free.bind (Free.newBlock _) fun _ =>
    Free.bind (Free.newBlock _) fun _ => Free.bind (Free.setTerm _) fun _ => Free.bind (Free.setInsertPoint _) fun _ => Free.pure _
theorem Free.switchStart (n : Nat) : Free (switchStart n) :=
  Free.bind (Free.newBlock _) fun _ => Free.bind (Free.newBlock _) fun _ =>
    Free.bind (Free.newBlock _) fun _ => Free.bind (Free.setTerm _) fun _ => Free.bind (Free.setInsertPoint _) fun _ => Free.pure _
theorem Free.switchCases (n : Nat) : ∀ cs : Cases, Free (switchCases n cs)
  | [] => Free.pure _
  | _ :: cs => Free.bind (Free.getOrCreateLabel _) fun _ => Free.bind (Free.switchCases n cs) fun _ => Free.pure _
theorem Free.switchTerm (n : Nat) (v : Val) (b : Nat) (cs : Cases) : Free (switchTerm n v b cs) :=
  Free.ite (Free.bind (Free.switchCases _ _) fun _ => Free.setTerm _) (Free.setTerm _)
theorem Free.genIval (v : Ival) : Free (genIval v) := by
  cases v with
  | int => exact Free.pure _
  | str => exact Free.bind (Free.createStringConstant _) fun _ => Free.pure _
theorem Free.genIvals : ∀ vs : List Ival, Free (genIvals vs)
  | [] => Free.pure _
  | v :: vs => Free.bind (Free.genIval v) fun _ => Free.bind (Free.genIvals vs) fun _ => Free.pure _

/-- a function without the names of its parameters -/
def strip (f : Func) : Func := { f with params := f.params.map fun _ => [] }

theorem strip_sym {f g : Func} (h : strip f = strip g) : f.sym = g.sym := congrArg (·.sym) h
theorem strip_blocks {f g : Func} (h : strip f = strip g) : f.blocks = g.blocks := congrArg (·.blocks) h
theorem strip_val {f g : Func} (h : strip f = strip g) : f.val = g.val := by
  have h1 := congrArg (fun f => f.params.length) h
  simp only [strip, List.length_map] at h1
  have h2 : f.variadic = g.variadic := congrArg (·.variadic) h
  unfold Func.val
  rw [strip_sym h, h1, h2]

theorem find_strip {P : Func → Bool} (hP : ∀ f g, strip f = strip g → P f = P g) :
    ∀ {fs gs : List Func}, fs.map strip = gs.map strip →
      (fs.find? P = none ∧ gs.find? P = none) ∨ ∃ f g, fs.find? P = some f ∧ gs.find? P = some g ∧ strip f = strip g
  | [], [], _ => .inl ⟨rfl, rfl⟩
  | [], _ :: _, h => by cases h
  | _ :: _, [], h => by cases h
  | f :: fs, g :: gs, h => by
    simp only [List.map_cons, List.cons.injEq] at h
    rw [List.find?_cons, List.find?_cons, ← hP f g h.1]
    cases P f with
    | true => exact .inr ⟨f, g, rfl, rfl, h.1⟩
    | false => exact find_strip hP h.2

theorem erase_strip {P : Func → Bool} (hP : ∀ f g, strip f = strip g → P f = P g) :
    ∀ {fs gs : List Func}, fs.map strip = gs.map strip → (fs.eraseP P).map strip = (gs.eraseP P).map strip
  | [], [], _ => rfl
  | [], _ :: _, h => by cases h
  | _ :: _, [], h => by cases h
  | f :: fs, g :: gs, h => by
    simp only [List.map_cons, List.cons.injEq] at h
    rw [List.eraseP_cons, List.eraseP_cons, ← hP f g h.1]
    cases P f with
    | true => exact h.2
    | false => simp only [cond_false, List.map_cons, h.1, erase_strip hP h.2]

theorem bySym {n : Name} (f g : Func) (h : strip f = strip g) : (decide (f.sym = n)) = (decide (g.sym = n)) := by
  rw [strip_sym h]

/-- the same except for locals, functions and parameters; the functions differ in the names of their parameters only -/
structure Base (c c' : CState) : Prop where
  rest : c' = put c c'.locals c'.funcs c'.functionParams
  funcs : c.funcs.map strip = c'.funcs.map strip

/-- `r` gives names in `N` different names, and either the old or one that is not in `N` -/
structure Renaming (N : List Ident) (r : Ident → Ident) : Prop where
  inj : ∀ x ∈ N, ∀ y ∈ N, r x = r y → x = y
  new : ∀ x ∈ N, r x ∈ N → r x = x

/-- the tables of locals when the names in `ls` are declared, and renamed by `r` -/
structure Names (N : List Ident) (r : Ident → Ident) (ls : List Ident) (l l' : List (Name × Val)) : Prop where
  within : ∀ x ∈ N, x ∈ ls → ∃ v, lookup x l = some v ∧ lookup (r x) l' = some v
  beyond : ∀ x ∈ N, x ∉ ls → lookup x l = none ∧ lookup x l' = none ∧ lookup (r x) l' = none

/-- the states of the two runs -/
structure Rel (N : List Ident) (r : Ident → Ident) (ls : List Ident) (c c' : CState) : Prop where
  base : Base c c'
  names : Names N r ls c.locals c'.locals

theorem Rel.congr {N ls ls' : List Ident} {r : Ident → Ident} {c c' : CState} (h : Rel N r ls c c') (e : ∀ x, x ∈ ls ↔ x ∈ ls') :
    Rel N r ls' c c' := by
  refine ⟨h.base, fun x hx h1 => h.names.within x hx ((e x).2 h1), fun x hx h1 => h.names.beyond x hx fun h2 => h1 ((e x).1 h2)⟩

theorem Names.insert {N ls : List Ident} {r : Ident → Ident} (hr : Renaming N r) {l l' : List (Name × Val)} (h : Names N r ls l l')
    {x : Ident} (hx : x ∈ N) (v : Val) : Names N r (x :: ls) (insert x v l) (insert (r x) v l') := by
  refine ⟨fun y hy h1 => ?_, fun y hy h1 => ?_⟩
  · rw [lookup_insert, lookup_insert]
    by_cases e : x = y
    · subst e; exact ⟨v, by simp, by simp⟩
    · rw [if_neg e, if_neg fun e1 => e (hr.inj _ hx _ hy e1)]
      refine h.within y hy ?_
      rcases List.mem_cons.1 h1 with h1 | h1
      · exact absurd h1.symm e
      · exact h1
  · rw [List.mem_cons, not_or] at h1
    have e : x ≠ y := fun e => h1.1 e.symm
    have h2 := h.beyond y hy h1.2
    refine ⟨by rw [lookup_insert_ne e]; exact h2.1, ?_, ?_⟩
    · rw [lookup_insert_ne]
      · exact h2.2.1
      · intro e1
        have := hr.new x hx (by rw [e1]; exact hy)
        rw [e1] at this
        exact e this.symm
    · rw [lookup_insert_ne fun e1 => e (hr.inj _ hx _ hy e1)]
      exact h2.2.2

/-- what the first does, the second does with the same result; afterwards `ls'` are declared -/
def Lift (N : List Ident) (r : Ident → Ident) (ls ls' : List Ident) (f f' : B α) : Prop :=
  ∀ c c', Rel N r ls c c' → ∀ a d, f c = .ok a d → ∃ d', f' c' = .ok a d' ∧ Rel N r ls' d d'

variable {N ls ls1 ls2 : List Ident} {r : Ident → Ident}

theorem Lift.bind {f f' : B α} {g g' : α → B β} (hf : Lift N r ls ls1 f f') (hg : ∀ a, Lift N r ls1 ls2 (g a) (g' a)) :
    Lift N r ls ls2 (f >>= g) (f' >>= g') := by
  intro c c' h b d hb
  rw [M.bind_apply] at hb
  cases e : f c with
  | err x => rw [e] at hb; cases hb
  | ok a c1 =>
    rw [e] at hb
    obtain ⟨c1', e', h1⟩ := hf c c' h a c1 e
    obtain ⟨d', e2, h2⟩ := hg a c1 c1' h1 b d hb
    exact ⟨d', by rw [M.bind_apply, e']; exact e2, h2⟩

theorem Lift.fail {s s' : String} : Lift N r ls ls1 (bfail s : B α) (bfail s') := by
  intro c c' _ a d h; cases h

theorem Free.base {f : B α} (hf : Free f) {c c' : CState} (h : Base c c') {a : α} {d : CState} (e : f c = .ok a d) :
    ∃ d', f c' = .ok a d' ∧ Base d d' ∧ d.locals = c.locals ∧ d.funcs = c.funcs ∧ d.functionParams = c.functionParams ∧
      d'.locals = c'.locals ∧ d'.funcs = c'.funcs ∧ d'.functionParams = c'.functionParams := by
  have h0 := hf c c.locals c.funcs c.functionParams
  rw [show put c c.locals c.funcs c.functionParams = c from rfl, e] at h0
  have hd : d = put d c.locals c.funcs c.functionParams := by
    simp only [R.mapS, R.ok.injEq, true_and] at h0
    exact h0
  have h1 := hf c c'.locals c'.funcs c'.functionParams
  rw [← h.rest, e] at h1
  refine ⟨_, h1, ⟨rfl, ?_⟩, ?_, ?_, ?_, rfl, rfl, rfl⟩
  · rw [hd]; exact h.funcs
  · rw [hd]; rfl
  · rw [hd]; rfl
  · rw [hd]; rfl

theorem Free.lift {f : B α} (hf : Free f) : Lift N r ls ls f f := by
  intro c c' h a d e
  obtain ⟨d', h1, h2, h3, _, _, h4, _, _⟩ := hf.base h.base e
  exact ⟨d', h1, h2, by rw [h3, h4]; exact h.names⟩

/-- a function or `extrn` variable that is found -/
theorem Base.find {c c' : CState} (h : Base c c') (x : Name) :
    (findFuncByName c x = none ∧ findFuncByName c' x = none) ∨
    ∃ f g, findFuncByName c x = some f ∧ findFuncByName c' x = some g ∧ strip f = strip g :=
  find_strip bySym h.funcs

theorem Base.fields {c c' : CState} (h : Base c c') : c'.ctx = c.ctx ∧ c'.functions = c.functions ∧ c'.globals = c.globals ∧
    c'.usedAsFunction = c.usedAsFunction ∧ c'.curSym = c.curSym ∧ c'.blocks = c.blocks ∧ curTerm c' = curTerm c := by
  rw [h.rest]; exact ⟨rfl, rfl, rfl, rfl, rfl, rfl, rfl⟩

theorem Lift.getOrDeclareFunction (x : Name) : Lift N r ls ls (getOrDeclareFunction x) (getOrDeclareFunction x) := by
  intro c c' h a d e
  obtain ⟨e1, e2, _⟩ := h.base.fields
  unfold Blang.getOrDeclareFunction at e ⊢
  rw [e1, e2]
  cases h1 : lookup x c.functions with
  | some v => rw [h1] at e; cases e; exact ⟨c', rfl, h⟩
  | none =>
    rw [h1] at e
    dsimp only at e ⊢
    cases h2 : lookup x c.ctx with
    | some v => rw [h2] at e; cases e; exact ⟨c', rfl, h⟩
    | none =>
      rw [h2] at e
      cases e
      refine ⟨_, rfl, ⟨?_, ?_⟩, h.names⟩
      · rw [h.base.rest]; rfl
      · show (List.eraseP _ c.funcs ++ [_]).map strip = (List.eraseP _ c'.funcs ++ [_]).map strip
        rw [List.map_append, List.map_append, erase_strip bySym h.base.funcs]

theorem Lift.genCallee (x : Name) : Lift N r ls ls (genCallee x) (genCallee x) := by
  intro c c' h a d e
  unfold Blang.genCallee at e ⊢
  rw [M.bind_ok (M.get_apply _)] at e ⊢
  obtain ⟨e1, _⟩ := h.base.fields
  rcases h.base.find x with ⟨h1, h2⟩ | ⟨f, g, h1, h2, h3⟩
  · rw [h1] at e
    rw [h2, e1]
    dsimp only at e ⊢
    cases h4 : lookup x c.ctx with
    | some v => rw [h4] at e; cases e; exact ⟨c', rfl, h⟩
    | none =>
      rw [h4] at e
      dsimp only at e ⊢
      refine Lift.bind (Lift.getOrDeclareFunction x) (fun o => ?_) c c' h a d e
      cases o with
      | none => exact Lift.fail
      | some fn => exact (Free.pure _).lift
  · rw [h1] at e
    rw [h2]
    cases e
    rw [strip_val h3]
    exact ⟨c', rfl, h⟩

theorem Lift.genVar {x : Name} (hx : x ∈ N) : Lift N r ls ls (genVar x) (genVar (among r ls x)) := by
  intro c c' h a d e
  by_cases hm : x ∈ ls
  · obtain ⟨v, h1, h2⟩ := h.names.within x hx hm
    rw [show among r ls x = r x from if_pos hm]
    unfold Blang.genVar at e ⊢
    have g1 : getAddress x c = .ok (some v) c := by
      unfold getAddress; rw [M.bind_ok (M.get_apply _), h1]; rfl
    have g2 : getAddress (r x) c' = .ok (some v) c' := by
      unfold getAddress; rw [M.bind_ok (M.get_apply _), h2]; rfl
    rw [M.bind_ok g1] at e
    rw [M.bind_ok g2]
    cases e
    exact ⟨c', rfl, h⟩
  · obtain ⟨h1, h2, _⟩ := h.names.beyond x hx hm
    rw [show among r ls x = x from if_neg hm]
    unfold Blang.genVar at e ⊢
    have ha : ∀ o d, getAddress x c = .ok o d → ∃ d', getAddress x c' = .ok o d' ∧ Rel N r ls d d' := by
      intro o d e
      unfold getAddress at e ⊢
      rw [M.bind_ok (M.get_apply _), h1] at e
      rw [M.bind_ok (M.get_apply _), h2, h.base.fields.1]
      dsimp only at e ⊢
      exact Free.lift (by
        split
        · exact (Free.emit _).bind fun _ => Free.pure _
        · exact (Free.emit _).bind fun _ => Free.pure _
        · exact Free.pure _
        · exact Free.pure _) c c' h o d e
    rw [M.bind_apply] at e
    cases e1 : getAddress x c with
    | err y => rw [e1] at e; cases e
    | ok o c1 =>
      rw [e1] at e
      obtain ⟨c1', e1', h3⟩ := ha o c1 e1
      rw [M.bind_ok e1']
      dsimp only at e
      cases o with
      | some v => cases e; exact ⟨c1', rfl, h3⟩
      | none =>
        dsimp only at e ⊢
        rw [M.bind_ok (M.get_apply _)] at e ⊢
        rcases h3.base.find x with ⟨f1, f2⟩ | ⟨f, g, f1, f2, f3⟩
        · rw [f1] at e
          rw [f2]
          refine Lift.bind (Lift.getOrDeclareFunction x) (fun o => ?_) c1 c1' h3 a d e
          cases o with
          | none => exact Lift.fail
          | some fn => exact ((Free.emit _).bind fun _ => Free.pure _).lift
        · rw [f1] at e
          rw [f2]
          dsimp only at e ⊢
          rw [← strip_val f3]
          exact ((Free.emit _).bind fun _ => Free.pure _).lift c1 c1' h3 a d e

mutual
theorem lift_genL : ∀ e : Ex, (∀ x ∈ e.mentions, x ∈ N) → Lift N r ls ls (genL e) (genL (e.revar (among r ls)))
  | .num v, _ => by rw [Ex.revar, genL]; exact (Free.pure _).lift
  | .str s, _ => by rw [Ex.revar, genL]; exact ((Free.genStr _).bind fun _ => Free.pure _).lift
  | .var x, h => by rw [Ex.revar, genL, genL]; exact Lift.genVar (h x (by simp [Ex.mentions]))
  | .paren e, h => by
    rw [Ex.revar, genL, genL]
    exact (lift_genL e h).bind fun _ => ((Free.rval _).bind fun _ => Free.pure _).lift
  | .index a i, h => by
    rw [Ex.mentions] at h
    rw [Ex.revar, genL, genL]
    exact (lift_genL a fun x hx => h x (by simp [hx])).bind fun _ => (Free.rval _).lift.bind fun _ => (Free.emit _).lift.bind fun _ =>
      (lift_genL i fun x hx => h x (by simp [hx])).bind fun _ => ((Free.rval _).bind fun _ => (Free.emit _).bind fun _ => Free.pure _).lift
  | .callName f args, h => by
    rw [Ex.revar, genL, genL]
    exact (Lift.genCallee f).bind fun _ => (Free.rval _).lift.bind fun _ =>
      (lift_genArgs args h).bind fun _ => ((Free.genCall _ _).bind fun _ => Free.pure _).lift
  | .call f args, h => by
    rw [Ex.mentions] at h
    rw [Ex.revar, genL, genL]
    exact (lift_genL f fun x hx => h x (by simp [hx])).bind fun _ => (Free.rval _).lift.bind fun _ =>
      (lift_genArgs args fun x hx => h x (by simp [hx])).bind fun _ => ((Free.genCall _ _).bind fun _ => Free.pure _).lift
  | .post d e, h => by
    rw [Ex.revar, genL, genL]
    exact (lift_genL e h).bind fun _ => ((Free.needLval _).bind fun _ => (Free.genPostfix _ _).bind fun _ => Free.pure _).lift
  | .pre d e, h => by
    rw [Ex.revar, genL, genL]
    exact (lift_genL e h).bind fun _ => ((Free.needLval _).bind fun _ => (Free.genPrefix _ _).bind fun _ => Free.pure _).lift
  | .not e, h => by
    rw [Ex.revar, genL, genL]
    exact (lift_genL e h).bind fun _ => ((Free.genNot _).bind fun _ => Free.pure _).lift
  | .neg e, h => by
    rw [Ex.revar, genL, genL]
    exact (lift_genL e h).bind fun _ => ((Free.genNeg _).bind fun _ => Free.pure _).lift
  | .deref e, h => by
    rw [Ex.revar, genL, genL]
    exact (lift_genL e h).bind fun _ => ((Free.genDeref _).bind fun _ => Free.pure _).lift
  | .addr e, h => by
    rw [Ex.revar, genL, genL]
    exact (lift_genL e h).bind fun _ => ((Free.needLval _).bind fun _ => (Free.emit _).bind fun _ => Free.pure _).lift
  | .bin o l m, h => by
    rw [Ex.mentions] at h
    rw [Ex.revar, genL, genL]
    exact (lift_genL l fun x hx => h x (by simp [hx])).bind fun _ => (Free.rval _).lift.bind fun _ =>
      (lift_genL m fun x hx => h x (by simp [hx])).bind fun _ => ((Free.rval _).bind fun _ => (Free.genOp _ _ _).bind fun _ => Free.pure _).lift
  | .cond c t e, h => by
    rw [Ex.mentions] at h
    rw [Ex.revar, genL, genL]
    refine (lift_genL c fun x hx => h x (by simp [hx])).bind fun _ => (Free.rval _).lift.bind fun _ => (Free.condStart _).lift.bind fun q => ?_
    obtain ⟨q1, q2, q3⟩ := q
    exact (Free.setInsertPoint _).lift.bind fun _ =>
      (lift_genL t fun x hx => h x (by simp [hx])).bind fun _ =>
      ((Free.rval _).lift.bind fun _ => Free.getInsertBlock.lift.bind fun _ => (Free.setTerm _).lift.bind fun _ => (Free.setInsertPoint _).lift.bind fun _ =>
      (lift_genL e fun x hx => h x (by simp [hx])).bind fun _ =>
      ((Free.rval _).bind fun _ => Free.getInsertBlock.bind fun _ => (Free.setTerm _).bind fun _ => (Free.setInsertPoint _).bind fun _ =>
        (Free.emit _).bind fun _ => Free.pure _).lift)
  | .assign o l m, h => by
    rw [Ex.mentions] at h
    rw [Ex.revar, genL, genL]
    exact (lift_genL l fun x hx => h x (by simp [hx])).bind fun _ => (Free.needLval _).lift.bind fun _ =>
      (lift_genL m fun x hx => h x (by simp [hx])).bind fun _ => ((Free.rval _).bind fun _ => (Free.genAssign _ _ _).bind fun _ => Free.pure _).lift
theorem lift_genArgs : ∀ es : List Ex, (∀ x ∈ Ex.mentionsArgs es, x ∈ N) → Lift N r ls ls (genArgs es) (genArgs (Ex.revarArgs (among r ls) es))
  | [], _ => by rw [Ex.revarArgs]; exact (Free.pure []).lift
  | e :: es, h => by
    rw [Ex.mentionsArgs] at h
    rw [Ex.revarArgs, genArgs, genArgs]
    exact (lift_genL e fun x hx => h x (by simp [hx])).bind fun _ => (Free.rval _).lift.bind fun _ =>
      (lift_genArgs es fun x hx => h x (by simp [hx])).bind fun _ => (Free.pure _).lift
end

theorem lift_genR (e : Ex) (h : ∀ x ∈ e.mentions, x ∈ N) : Lift N r ls ls (genR e) (genR (e.revar (among r ls))) :=
  (lift_genL e h).bind fun _ => (Free.rval _).lift

theorem Lift.insert (hr : Renaming N r) {x : Name} (hx : x ∈ N) (v : Val) :
    Lift N r ls (x :: ls) (M.modify fun c => { c with locals := insert x v c.locals })
      (M.modify fun c => { c with locals := insert (r x) v c.locals }) := by
  intro c c' h a d e
  cases e
  refine ⟨_, rfl, ⟨?_, h.base.funcs⟩, h.names.insert hr hx v⟩
  rw [h.base.rest]; rfl

theorem Lift.declareOne (hr : Renaming N r) {x : Name} (hx : x ∈ N) (n : W) : Lift N r ls (x :: ls) (declareOne x n) (declareOne (r x) n) := by
  unfold Blang.declareOne
  split
  · exact (Free.emit _).lift.bind fun _ => (Free.emit _).lift.bind fun _ => Lift.insert hr hx _
  · exact (Free.emit _).lift.bind fun _ => (Free.emit _).lift.bind fun _ => (Free.emit _).lift.bind fun _ => (Free.emit _).lift.bind fun _ =>
      (Free.emit _).lift.bind fun _ => Lift.insert hr hx _

theorem Lift.congr {f f' : B α} (h : Lift N r ls ls1 f f') (e : ∀ x, x ∈ ls1 ↔ x ∈ ls2) : Lift N r ls ls2 f f' := by
  intro c c' hc a d hd
  obtain ⟨d', h1, h2⟩ := h c c' hc a d hd
  exact ⟨d', h1, h2.congr e⟩

theorem Lift.declareAll (hr : Renaming N r) : ∀ (ds : List (Name × Option Word)) (ls : List Ident), (∀ d ∈ ds, d.1 ∈ N) →
    Lift N r ls (ds.map (·.1) ++ ls) (declareAll (ds.map autoSizeOf)) (declareAll ((ds.map fun d => (r d.1, d.2)).map autoSizeOf))
  | [], _, _ => (Free.pure _).lift
  | d :: ds, ls, h => by
    have h1 := (Lift.declareOne (ls := ls) hr (h d (by simp)) (d.2.getD (-1))).bind fun _ : Unit =>
      Lift.declareAll hr ds (d.1 :: ls) fun x hx => h x (by simp [hx])
    refine Lift.congr h1 fun x => ?_
    simp only [List.map_cons, List.cons_append, List.mem_append, List.mem_cons]
    grind

theorem Lift.autoCheck (hr : Renaming N r) : ∀ (ds : List (Name × Option Word)) (seen seen' : List Name), (∀ d ∈ ds, d.1 ∈ N) →
    (∀ x ∈ seen', ∃ y ∈ seen, y ∈ N ∧ x = r y) → Lift N r ls ls (autoCheck seen ds) (autoCheck seen' (ds.map fun d => (r d.1, d.2)))
  | [], _, _, _, _ => (Free.pure _).lift
  | d :: ds, seen, seen', h, hs => by
    intro c c' hc a d' e
    have hd := h d (by simp)
    rw [List.map_cons]
    unfold Blang.autoCheck at e ⊢
    rw [M.bind_ok (M.get_apply _)] at e ⊢
    split at e
    · cases e
    · rename_i hn
      rw [not_or] at hn
      rw [if_neg]
      · refine Lift.autoCheck hr ds (d.1 :: seen) (r d.1 :: seen') (fun x hx => h x (by simp [hx])) ?_ c c' hc a d' e
        intro x hx
        rcases List.mem_cons.1 hx with rfl | hx
        · exact ⟨d.1, by simp, hd, rfl⟩
        · obtain ⟨y, h1, h2, h3⟩ := hs x hx
          exact ⟨y, by simp [h1], h2, h3⟩
      · rw [not_or]
        constructor
        · intro h1
          obtain ⟨y, h2, h3, h4⟩ := hs _ h1
          rw [hr.inj _ hd _ h3 h4] at hn
          exact hn.1 h2
        · by_cases hm : d.1 ∈ ls
          · obtain ⟨v, h1, _⟩ := hc.names.within _ hd hm
            rw [h1] at hn
            exact absurd rfl hn.2
          · rw [(hc.names.beyond _ hd hm).2.2]
            simp

theorem Lift.declareExtrn (x : Name) : Lift N r ls ls (declareExtrn x) (declareExtrn x) := by
  intro c c' h a d e
  obtain ⟨e1, e2, e3, e4, _⟩ := h.base.fields
  have hg : findGlobalByName c' x = findGlobalByName c x := by unfold findGlobalByName; rw [e3]
  unfold Blang.declareExtrn at e ⊢
  rw [hg, e4]
  cases h1 : findGlobalByName c x with
  | some g =>
    rw [h1] at e
    cases e
    refine ⟨_, rfl, ⟨?_, h.base.funcs⟩, h.names⟩
    rw [h.base.rest]; rfl
  | none =>
    rw [h1] at e
    dsimp only at e ⊢
    split at e
    · rename_i hn
      rw [if_pos]
      · cases e
        refine ⟨_, rfl, ⟨?_, h.base.funcs⟩, h.names⟩
        rw [h.base.rest]; rfl
      · rcases h.base.find x with ⟨f1, f2⟩ | ⟨f, g, f1, f2, f3⟩
        · exact ⟨f2, hn.2⟩
        · rw [f1] at hn; cases hn.1
    · cases e

theorem Lift.genExtrn : ∀ xs : List Name, Lift N r ls ls (genExtrn xs) (genExtrn xs)
  | [] => (Free.pure _).lift
  | x :: xs => (Lift.declareExtrn x).bind fun _ => Lift.genExtrn xs

theorem lift_genSt (hr : Renaming N r) : ∀ (s : St) (ls : List Ident) (sw : Option Nat) (cs : Cases), (∀ x ∈ s.mentions, x ∈ N) →
    (∀ x ∈ s.autos, x ∈ N) → Lift N r ls (s.autos ++ ls) (genSt s sw cs) (genSt (s.revar r ls) sw cs)
  | .skip, _, _, _, _, _ => (Free.pure _).lift
  | .expr e, ls, _, _, h, _ => (lift_genR e h).bind fun _ => (Free.pure _).lift
  | .ret none, _, _, _, _, _ => ((Free.setTerm _).bind fun _ => Free.pure _).lift
  | .ret (some e), ls, _, _, h, _ => (lift_genR e h).bind fun _ => ((Free.setTerm _).bind fun _ => Free.pure _).lift
  | .auto ds, ls, _, _, _, h => by
    have hd : ∀ d ∈ ds, d.1 ∈ N := fun d hd => h d.1 (by rw [St.autos]; exact List.mem_map.2 ⟨d, hd, rfl⟩)
    exact (Lift.autoCheck hr ds [] [] hd (by simp)).bind fun _ => (Lift.declareAll hr ds ls hd).bind fun _ => (Free.pure _).lift
  | .extrn xs, _, _, _, _, _ => (Lift.genExtrn xs).bind fun _ => (Free.pure _).lift
  | .seq s t, ls, sw, cs, h, h' => by
    rw [St.mentions] at h
    rw [St.autos] at h'
    have := (lift_genSt hr s ls sw cs (fun x hx => h x (by simp [hx])) (fun x hx => h' x (by simp [hx]))).bind fun cs =>
      lift_genSt hr t (s.autos ++ ls) sw cs (fun x hx => h x (by simp [hx])) (fun x hx => h' x (by simp [hx]))
    refine Lift.congr this fun x => ?_
    rw [St.autos]
    simp only [List.mem_append]
    grind
  | .ifThen c t, ls, sw, cs, h, h' => by
    rw [St.mentions] at h
    rw [St.autos] at h'
    refine (lift_genR c fun x hx => h x (by simp [hx])).bind fun _ => (Free.ifStart _).lift.bind fun q => ?_
    obtain ⟨q1, q2, q3⟩ := q
    exact (Free.setInsertPoint _).lift.bind fun _ => (lift_genSt hr t ls none [] (fun x hx => h x (by simp [hx])) h').bind fun _ =>
      ((Free.brIfOpen _).bind fun _ => (Free.setInsertPoint _).bind fun _ => (Free.brIfOpen _).bind fun _ => (Free.setInsertPoint _).bind fun _ => Free.pure _).lift
  | .ifElse c t e, ls, sw, cs, h, h' => by
    rw [St.mentions] at h
    rw [St.autos] at h'
    refine (lift_genR c fun x hx => h x (by simp [hx])).bind fun _ => (Free.ifStart _).lift.bind fun q => ?_
    obtain ⟨q1, q2, q3⟩ := q
    have := fun (_ : Unit) => (lift_genSt hr t ls none [] (fun x hx => h x (by simp [hx])) (fun x hx => h' x (by simp [hx]))).bind fun _ =>
      (Free.brIfOpen q3).lift.bind fun _ => (Free.setInsertPoint q2).lift.bind fun _ =>
      (lift_genSt hr e (t.autos ++ ls) none [] (fun x hx => h x (by simp [hx])) (fun x hx => h' x (by simp [hx]))).bind fun _ =>
      ((Free.brIfOpen q3).bind fun _ => (Free.setInsertPoint q3).bind fun _ => Free.pure cs).lift
    refine Lift.congr ((Free.setInsertPoint q1).lift.bind this) fun x => ?_
    rw [St.autos]
    simp only [List.mem_append]
    grind
  | .while c b, ls, sw, cs, h, h' => by
    rw [St.mentions] at h
    rw [St.autos] at h'
    refine Free.whileStart.lift.bind fun q => ?_
    obtain ⟨q1, q2, q3⟩ := q
    exact (lift_genR c fun x hx => h x (by simp [hx])).bind fun _ => (Free.emit _).lift.bind fun _ => (Free.setTerm _).lift.bind fun _ =>
      (Free.setInsertPoint _).lift.bind fun _ => (lift_genSt hr b ls none [] (fun x hx => h x (by simp [hx])) h').bind fun _ =>
      ((Free.brIfOpen _).bind fun _ => (Free.setInsertPoint _).bind fun _ => Free.pure _).lift
  | .switch e b, ls, sw, cs, h, h' => by
    rw [St.mentions] at h
    rw [St.autos] at h'
    refine Free.freshLabelID.lift.bind fun id => (lift_genR e fun x hx => h x (by simp [hx])).bind fun _ => (Free.switchStart _).lift.bind fun q => ?_
    obtain ⟨q1, q2⟩ := q
    exact (lift_genSt hr b ls (some id) [] (fun x hx => h x (by simp [hx])) h').bind fun _ =>
      ((Free.brIfOpen _).bind fun _ => (Free.setInsertPoint _).bind fun _ => (Free.switchTerm _ _ _ _).bind fun _ => (Free.setInsertPoint _).bind fun _ =>
        Free.pure _).lift
  | .case v s, ls, sw, cs, h, h' => by
    cases sw with
    | none => exact Lift.fail
    | some id => exact (Free.genLabel _).lift.bind fun _ => lift_genSt hr s ls (some id) _ h h'
  | .label l s, ls, sw, cs, h, h' => (Free.genLabel _).lift.bind fun _ => lift_genSt hr s ls sw _ h h'
  | .goto l, _, _, _, _, _ => ((Free.genGoto l).bind fun _ => Free.pure _).lift

theorem Lift.getOrCreateFunc (n : Name) : Lift N r ls ls (getOrCreateFunc n) (getOrCreateFunc n) := by
  intro c c' h a d e
  unfold Blang.getOrCreateFunc at e ⊢
  rcases find_strip (P := fun f => decide (f.sym = n)) bySym h.base.funcs with ⟨h1, h2⟩ | ⟨f, g, h1, h2, h3⟩
  · rw [h1] at e
    rw [h2]
    cases e
    refine ⟨_, rfl, ⟨?_, ?_⟩, h.names⟩
    · rw [h.base.rest]; rfl
    · show (c.funcs ++ [_]).map strip = (c'.funcs ++ [_]).map strip
      rw [List.map_append, List.map_append, h.base.funcs]
  · rw [h1] at e
    rw [h2]
    cases e
    exact ⟨c', by rw [strip_val h3], h⟩

theorem Lift.firstParam (hr : Renaming N r) {x : Name} (hx : x ∈ N) : Lift N r ls (x :: ls) (firstParam x) (firstParam (r x)) :=
  (Free.emit _).lift.bind fun _ => (Free.emit _).lift.bind fun _ => Lift.insert hr hx _

theorem Lift.vaParams (hr : Renaming N r) (v : Val) : ∀ (ps ls : List Name), (∀ x ∈ ps, x ∈ N) →
    Lift N r ls (ps ++ ls) (vaParams v ps) (vaParams v (ps.map r))
  | [], _, _ => (Free.pure _).lift
  | p :: ps, ls, h => by
    have := (Free.emit (.alloca .i64)).lift.bind fun a => (Free.emit (.vaarg v)).lift.bind fun b => (Free.emit (.store b a)).lift.bind fun _ =>
      (Lift.insert (ls := ls) hr (h p (by simp)) a).bind fun _ => Lift.vaParams hr v ps (p :: ls) fun x hx => h x (by simp [hx])
    refine Lift.congr this fun x => ?_
    simp only [List.cons_append, List.mem_append, List.mem_cons]
    grind

/-- storing the parameters -/
def storeParams (ps : List Name) : B Unit :=
  match ps with
  | [] => pure ()
  | [p] => firstParam p
  | p :: ps => do
    firstParam p
    let vaArray ← emit (.alloca (.bytes 48))
    let vaListPtr ← emit (.gepField (.bytes 48) vaArray 0)
    let vaStart ← getOrCreateFunc "llvm.va_start".toList
    let _ ← emit (.call vaStart [vaListPtr])
    vaParams vaListPtr ps
    let vaEnd ← getOrCreateFunc "llvm.va_end".toList
    let _ ← emit (.call vaEnd [vaListPtr])

theorem Lift.storeParams (hr : Renaming N r) : ∀ (ps : List Name), (∀ x ∈ ps, x ∈ N) → Lift N r [] ps (storeParams ps) (storeParams (ps.map r))
  | [], _ => (Free.pure _).lift
  | [p], h => Lift.firstParam hr (h p (by simp))
  | p :: q :: ps, h => by
    have := (Lift.firstParam (ls := []) hr (h p (by simp))).bind fun _ => (Free.emit (.alloca (.bytes 48))).lift.bind fun a =>
      (Free.emit (.gepField (.bytes 48) a 0)).lift.bind fun l => (Lift.getOrCreateFunc "llvm.va_start".toList).bind fun s =>
      (Free.emit (.call s [l])).lift.bind fun _ => (Lift.vaParams hr l (q :: ps) [p] fun x hx => h x (List.mem_cons_of_mem _ hx)).bind fun _ =>
      (Lift.getOrCreateFunc "llvm.va_end".toList).bind fun e => ((Free.emit (.call e [l])).bind fun _ => Free.pure ()).lift
    refine Lift.congr this fun x => ?_
    simp only [List.cons_append, List.mem_append, List.mem_cons]
    grind

theorem startFunction_eq {fn : Func} {c : CState} {ps : List Name} (h : startParams c.functions c.functionParams fn.val = ps) :
    startFunction fn c = storeParams ps { c with curSym := fn.sym, locals := [], labels := [], blocks := [⟨"entry".toList, [], none⟩], cur := 0 } := by
  subst h
  rfl

/-- what holds between declarations -/
structure Top (c c' : CState) : Prop where
  base : Base c c'
  clean : c.functions = [] ∧ c.functionParams = [] ∧ c'.functionParams = []

theorem clear_top {c c' : CState} (h : Base c c') {u : Unit} {d : CState} (e : clearTopLevelContext c = .ok u d) :
    ∃ d', clearTopLevelContext c' = .ok u d' ∧ Top d d' := by
  cases e
  refine ⟨_, rfl, ⟨?_, h.funcs⟩, rfl, rfl, rfl⟩
  rw [h.rest]; rfl

theorem declareFunction_base {c c' : CState} (h : Top c c') {f : Name} {ps ps' : List Name} (hl : ps'.length = ps.length) {fn : Func} {d : CState}
    (e : declareFunction f ps c = .ok fn d) : ∃ fn' d', declareFunction f ps' c' = .ok fn' d' ∧ Base d d' ∧ strip fn = strip fn' ∧
      startParams d.functions d.functionParams fn.val = ps ∧ startParams d'.functions d'.functionParams fn'.val = ps' := by
  have hs := startParams_declared h.clean.1 e
  cases e' : declareFunction f ps' c' with
  | err x => cases e'
  | ok fn' d' =>
    have hs' := startParams_declared (by rw [h.base.fields.2.1]; exact h.clean.1) e'
    refine ⟨fn', d', rfl, ?_⟩
    have key : Base d d' ∧ strip fn = strip fn' := by
      unfold declareFunction at e e'
      simp only [R.ok.injEq] at e e'
      obtain ⟨rfl, rfl⟩ := e
      obtain ⟨rfl, rfl⟩ := e'
      have hfs : ∀ g g' : Func, strip g = strip g' → ((c.funcs.eraseP fun g => g.sym = globalName f) ++ [g]).map strip =
          ((c'.funcs.eraseP fun g => g.sym = globalName f) ++ [g']).map strip := by
        intro g g' hg
        rw [List.map_append, List.map_append, erase_strip bySym h.base.funcs, List.map_cons, List.map_cons, hg]
      cases ps with
      | nil =>
        cases ps' with
        | cons _ _ => cases hl
        | nil => exact ⟨⟨by rw [h.base.rest]; rfl, hfs _ _ rfl⟩, rfl⟩
      | cons p ps =>
        cases ps' with
        | nil => cases hl
        | cons p' ps' => exact ⟨⟨by rw [h.base.rest]; rfl, hfs ⟨globalName f, [p], true, []⟩ ⟨globalName f, [p'], true, []⟩ rfl⟩, rfl⟩
    exact ⟨key.1, key.2, hs, hs'⟩

theorem close_strip {n : Name} {bs : List Block} : ∀ {fs gs : List Func}, fs.map strip = gs.map strip →
    (fs.map fun f => if f.sym = n then { f with blocks := bs } else f).map strip =
    (gs.map fun f => if f.sym = n then { f with blocks := bs } else f).map strip
  | [], [], _ => rfl
  | [], _ :: _, h => by cases h
  | _ :: _, [], h => by cases h
  | f :: fs, g :: gs, h => by
    simp only [List.map_cons, List.cons.injEq] at h ⊢
    refine ⟨?_, close_strip h.2⟩
    rw [strip_sym h.1]
    have h3 := h.1
    split
    · unfold strip at h3 ⊢
      simp only [Func.mk.injEq] at h3 ⊢
      simp [h3.1, h3.2.1, h3.2.2.1]
    · exact h.1

theorem length_flatten_of_mem {x : Ident} : ∀ {xs : List Ident}, x ∈ xs → x.length ≤ xs.flatten.length
  | y :: ys, h => by
    rw [List.flatten_cons, List.length_append]
    rcases List.mem_cons.1 h with rfl | h
    · omega
    · have := length_flatten_of_mem h; omega

/-- new names are longer than the names in the function -/
theorem ownName_long {ps : List Ident} {b : St} {x : Ident} (h : x ∈ b.callees) : ∀ y ∈ namesIn ps b, y.length < (ownName ps b x).length := by
  intro y hy
  have := length_flatten_of_mem hy
  rw [ownName, if_pos h, List.length_append, List.length_replicate]
  omega

theorem ownName_renaming (ps : List Ident) (b : St) : Renaming (namesIn ps b) (ownName ps b) := by
  constructor
  · intro x hx y hy e
    by_cases h1 : x ∈ b.callees
    · by_cases h2 : y ∈ b.callees
      · rw [ownName, ownName, if_pos h1, if_pos h2] at e
        exact List.append_cancel_right e
      · have := ownName_long h1 y hy
        rw [e, ownName, if_neg h2] at this
        omega
    · by_cases h2 : y ∈ b.callees
      · have := ownName_long h2 x hx
        rw [← e, ownName, if_neg h1] at this
        omega
      · rw [ownName, ownName, if_neg h1, if_neg h2] at e
        exact e
  · intro x hx h
    by_cases h1 : x ∈ b.callees
    · have := ownName_long h1 _ h
      omega
    · rw [ownName, if_neg h1]

theorem endFunction_base {c c' : CState} (h : Base c c') {u : Unit} {d : CState} (e : endFunction c = .ok u d) :
    ∃ d', endFunction c' = .ok u d' ∧ Base d d' := by
  have hc : Free closeLast := Free.get (fun _ _ _ _ => rfl) fun _ => Free.ite (Free.setTerm _) (Free.pure _)
  unfold endFunction at e ⊢
  rw [M.bind_apply] at e ⊢
  cases e1 : closeLast c with
  | err x => rw [e1] at e; cases e
  | ok a c1 =>
    rw [e1] at e
    obtain ⟨c1', e2, h1, _⟩ := hc.base h e1
    rw [e2]
    cases e
    refine ⟨_, rfl, ?_, ?_⟩
    · rw [h1.rest]; rfl
    · obtain ⟨_, _, _, _, f1, f2, _⟩ := h1.fields
      dsimp only
      rw [f1, f2]
      exact close_strip h1.funcs

theorem genDecl_apart {c c' : CState} (h : Top c c') (dl : Decl) {u : Unit} {d : CState} (e : genDecl dl c = .ok u d) :
    ∃ d', genDecl dl.apart c' = .ok u d' ∧ Base d d' := by
  cases dl with
  | global x vs =>
    have hf : Free (genDecl (.global x vs)) := by
      refine Free.bind (Free.modify fun _ _ _ _ => rfl) fun _ => Free.bind (Free.genIvals vs) fun cs => ?_
      unfold declareVals
      split
      · exact Free.modify fun _ _ _ _ => rfl
      · exact Free.modify fun _ _ _ _ => rfl
      · exact Free.modify fun _ _ _ _ => rfl
    obtain ⟨d', h1, h2, _⟩ := hf.base h.base e
    exact ⟨d', h1, h2⟩
  | vector x n vs =>
    have hf : Free (genDecl (.vector x n vs)) := by
      refine Free.bind (Free.modify fun _ _ _ _ => rfl) fun _ => Free.bind (Free.genIvals vs) fun cs => ?_
      refine Free.modify fun c l f q => ?_
      repeat' split
      all_goals (dsimp only; split <;> rfl)
    obtain ⟨d', h1, h2, _⟩ := hf.base h.base e
    exact ⟨d', h1, h2⟩
  | func f ps b =>
    have hr := ownName_renaming ps b
    rw [Decl.apart]
    unfold genDecl at e ⊢
    dsimp only at e ⊢
    obind e fn c1 e1
    obtain ⟨fn', c1', g1, h1, h2, h3, h4⟩ := declareFunction_base h (ps' := ps.map (ownName ps b)) (by simp) e1
    rw [M.bind_ok g1]
    obind e u1 c2 e2
    rw [startFunction_eq h3] at e2
    obtain ⟨c2', g2, h5⟩ := Lift.storeParams hr ps (fun x hx => by simp [namesIn, hx])
      { c1 with curSym := fn.sym, locals := [], labels := [], blocks := [⟨"entry".toList, [], none⟩], cur := 0 }
      { c1' with curSym := fn'.sym, locals := [], labels := [], blocks := [⟨"entry".toList, [], none⟩], cur := 0 } ⟨⟨by
        rw [h1.rest, strip_sym h2]; rfl, h1.funcs⟩, by
        constructor
        · intro x _ hx; cases hx
        · intro x _ _; exact ⟨rfl, rfl, rfl⟩⟩ _ _ e2
    rw [← startFunction_eq h4] at g2
    rw [M.bind_ok g2]
    obind e cs c3 e3
    obtain ⟨c3', g3, h6⟩ := lift_genSt hr b ps none [] (fun x hx => by simp [namesIn, hx]) (fun x hx => by simp [namesIn, hx]) _ _ h5 _ _ e3
    rw [M.bind_ok g3]
    exact endFunction_base h6.base e

theorem genProg_apart : ∀ (p : Program) {c c' : CState} (_ : Top c c') {u : Unit} {d : CState} (_ : genProg p c = .ok u d),
    ∃ d', genProg p.apart c' = .ok u d' ∧ Base d d'
  | [], c, c', h, u, d, e => by cases e; exact ⟨c', rfl, h.base⟩
  | dl :: p, c, c', h, u, d, e => by
    unfold genProg at e
    obind e u1 c1 e1
    obtain ⟨c1', g1, h1⟩ := genDecl_apart h dl e1
    obind e u2 c2 e2
    obtain ⟨c2', g2, h2⟩ := clear_top h1 e2
    obtain ⟨d', g3, h3⟩ := genProg_apart p h2 e
    refine ⟨d', ?_, h3⟩
    show genProg (dl.apart :: Program.apart p) c' = _
    unfold genProg
    rw [M.bind_ok g1, M.bind_ok g2]
    exact g3

end Blang.Apart
