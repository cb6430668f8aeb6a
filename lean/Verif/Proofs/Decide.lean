import Verif.Proofs.RefParse
import Verif.Spec.Runs
/-
The conditions on programs can be decided (for examples).
-/
namespace Blang.Spec

instance Ex.decLvalue (E : Env) : (e : Ex) → Decidable (e.Lvalue E)
  | .var x => inferInstanceAs (Decidable (E.Var x))
  | .index _ _ | .deref _ | .pre _ _ => .isTrue trivial
  | .num _ | .str _ | .paren _ | .callName _ _ | .call _ _ | .post _ _ | .not _ | .neg _ | .addr _ | .bin _ _ _ | .cond _ _ _ | .assign _ _ _ => .isFalse id

mutual
def Ex.decWf (E : Env) : (e : Ex) → Decidable (e.Wf E)
  | .num _ | .str _ | .var _ => .isTrue trivial
  | .paren e | .not e | .neg e | .deref e => e.decWf E
  | .post _ e | .pre _ e | .addr e => have := e.decWf E; inferInstanceAs (Decidable (e.Wf E ∧ e.Lvalue E))
  | .index a i => have := a.decWf E; have := i.decWf E; inferInstanceAs (Decidable (a.Wf E ∧ i.Wf E))
  | .callName _ as => Ex.decWfArgs E as
  | .call f as => have := f.decWf E; have := Ex.decWfArgs E as; inferInstanceAs (Decidable (f.Wf E ∧ Ex.WfArgs E as))
  | .bin _ l r => have := l.decWf E; have := r.decWf E; inferInstanceAs (Decidable (l.Wf E ∧ r.Wf E))
  | .cond c t e => have := c.decWf E; have := t.decWf E; have := e.decWf E; inferInstanceAs (Decidable (c.Wf E ∧ t.Wf E ∧ e.Wf E))
  | .assign _ l r => have := l.decWf E; have := r.decWf E; inferInstanceAs (Decidable (l.Wf E ∧ l.Lvalue E ∧ r.Wf E))

def Ex.decWfArgs (E : Env) : (es : List Ex) → Decidable (Ex.WfArgs E es)
  | [] => .isTrue trivial
  | e :: es => have := e.decWf E; have := Ex.decWfArgs E es; inferInstanceAs (Decidable (e.Wf E ∧ Ex.WfArgs E es))
end

instance (E : Env) (e : Ex) : Decidable (e.Wf E) := e.decWf E

def Env.decExtrnOk : (E : Env) → (xs : List Ident) → Decidable (E.ExtrnOk xs)
  | _, [] => .isTrue trivial
  | E, x :: xs => have := (E.afterExtrn x).decExtrnOk xs; inferInstanceAs (Decidable ((x ∈ E.vars ∨ x ∉ E.funs) ∧ (E.afterExtrn x).ExtrnOk xs))

def St.decScoped : (s : St) → (E : Env) → Decidable (s.Scoped E)
  | .skip, _ | .ret none, _ | .goto _, _ => .isTrue trivial
  | .seq s t, E => have := s.decScoped E; have := t.decScoped (E.after s); inferInstanceAs (Decidable (s.Scoped E ∧ t.Scoped (E.after s)))
  | .expr e, E => inferInstanceAs (Decidable (e.Wf E))
  | .ret (some e), E => inferInstanceAs (Decidable (e.Wf E))
  | .auto ds, E => inferInstanceAs (Decidable ((ds.map (·.1)).Nodup ∧ ∀ d ∈ ds, d.1 ∉ E.locals))
  | .extrn xs, E => E.decExtrnOk xs
  | .ifThen c t, E => have := t.decScoped (E.afterEx c); inferInstanceAs (Decidable (c.Wf E ∧ t.Scoped (E.afterEx c)))
  | .ifElse c t e, E => have := t.decScoped (E.afterEx c); have := e.decScoped ((E.afterEx c).after t)
    inferInstanceAs (Decidable (c.Wf E ∧ t.Scoped (E.afterEx c) ∧ e.Scoped ((E.afterEx c).after t)))
  | .while c t, E => have := t.decScoped (E.afterEx c); inferInstanceAs (Decidable (c.Wf E ∧ t.Scoped (E.afterEx c)))
  | .switch c t, E => have := t.decScoped (E.afterEx c); inferInstanceAs (Decidable (c.Wf E ∧ t.Scoped (E.afterEx c)))
  | .case _ s, E => s.decScoped E
  | .label _ s, E => s.decScoped E

def St.decCasesOk : (sw : Bool) → (s : St) → Decidable (s.CasesOk sw)
  | sw, .case _ s => have := s.decCasesOk sw; inferInstanceAs (Decidable (sw = true ∧ s.CasesOk sw))
  | sw, .seq s t => have := s.decCasesOk sw; have := t.decCasesOk sw; inferInstanceAs (Decidable (s.CasesOk sw ∧ t.CasesOk sw))
  | sw, .label _ s => s.decCasesOk sw
  | _, .switch _ b => b.decCasesOk true
  | _, .ifThen _ t => t.decCasesOk false
  | _, .ifElse _ t e => have := t.decCasesOk false; have := e.decCasesOk false; inferInstanceAs (Decidable (t.CasesOk false ∧ e.CasesOk false))
  | _, .while _ b => b.decCasesOk false
  | _, .skip | _, .expr _ | _, .ret _ | _, .auto _ | _, .extrn _ | _, .goto _ => .isTrue trivial

instance (E : Env) : (d : Decl) → Decidable (d.Scoped E)
  | .global _ _ | .vector _ _ _ => .isTrue trivial
  | .func f ps b => b.decScoped (E.enter f ps)

def Program.decScoped : (E : Env) → (p : Program) → Decidable (Program.Scoped E p)
  | _, [] => .isTrue trivial
  | E, d :: p => have := Program.decScoped (E.afterDecl d) p; inferInstanceAs (Decidable (d.Scoped E ∧ Program.Scoped (E.afterDecl d) p))

instance (E : Env) (p : Program) : Decidable (Program.Scoped E p) := Program.decScoped E p

instance : (d : Decl) → Decidable d.CasesOk
  | .global _ _ | .vector _ _ _ => .isTrue trivial
  | .func _ _ b => b.decCasesOk false

def Ex.decEndsVar (V : Ident → Prop) [DecidablePred V] (e : Ex) : Decidable (e.EndsVar V) :=
  match h : e.last with
  | none => .isTrue (by intro x hx; rw [h] at hx; cases hx)
  | some x => if hv : V x then .isTrue (by intro y hy; rw [h] at hy; cases hy; exact hv) else .isFalse fun hc => hv (hc x h)

instance (V : Ident → Prop) [DecidablePred V] (e : Ex) : Decidable (e.EndsVar V) := e.decEndsVar V

def Ex.isVar : (e : Ex) → Decidable (∀ x, e ≠ .var x)
  | .var x => .isFalse fun h => h x rfl
  | .num _ | .str _ | .paren _ | .index _ _ | .callName _ _ | .call _ _ | .post _ _ | .pre _ _ | .not _ | .neg _ | .deref _ | .addr _ | .bin _ _ _
  | .cond _ _ _ | .assign _ _ _ => .isTrue (by simp)

instance (e : Ex) : Decidable (∀ x, e ≠ .var x) := e.isVar

mutual
def Ex.decClear (V : Ident → Prop) [DecidablePred V] : (e : Ex) → Decidable (e.Clear V)
  | .num _ | .str _ | .var _ => .isTrue trivial
  | .paren e | .post _ e | .pre _ e | .not e | .neg e | .deref e | .addr e => e.decClear V
  | .index a i => have := a.decClear V; have := i.decClear V; inferInstanceAs (Decidable (a.Clear V ∧ i.Clear V))
  | .callName _ as => Ex.decClearArgs V as
  | .call f as => have := f.decClear V; have := Ex.decClearArgs V as; inferInstanceAs (Decidable (f.Clear V ∧ Ex.ClearArgs V as))
  | .bin o l r => have := l.decClear V; have := r.decClear V
    inferInstanceAs (Decidable ((o = .eq → l.EndsVar V) ∧ l.Clear V ∧ r.Clear V))
  | .cond c t e => have := c.decClear V; have := t.decClear V; have := e.decClear V; inferInstanceAs (Decidable (c.Clear V ∧ t.Clear V ∧ e.Clear V))
  | .assign _ l r => have := l.decClear V; have := r.decClear V
    inferInstanceAs (Decidable (((∀ x, l ≠ .var x) → l.EndsVar V) ∧ l.Clear V ∧ r.Clear V))

def Ex.decClearArgs (V : Ident → Prop) [DecidablePred V] : (es : List Ex) → Decidable (Ex.ClearArgs V es)
  | [] => .isTrue trivial
  | e :: es => have := e.decClear V; have := Ex.decClearArgs V es; inferInstanceAs (Decidable (e.Clear V ∧ Ex.ClearArgs V es))
end

instance (E : Env) : DecidablePred E.Var := fun x => inferInstanceAs (Decidable (E.Var x))
instance (V : Ident → Prop) [DecidablePred V] (e : Ex) : Decidable (e.Clear V) := e.decClear V

def St.decClear : (s : St) → (E : Env) → Decidable (s.Clear E)
  | .skip, _ | .ret none, _ | .goto _, _ | .auto _, _ | .extrn _, _ => .isTrue trivial
  | .seq s t, E => have := s.decClear E; have := t.decClear (E.after s); inferInstanceAs (Decidable (s.Clear E ∧ t.Clear (E.after s)))
  | .expr e, E => inferInstanceAs (Decidable (e.Clear E.Var))
  | .ret (some e), E => inferInstanceAs (Decidable (e.Clear E.Var))
  | .ifThen c t, E => have := t.decClear (E.afterEx c); inferInstanceAs (Decidable (c.Clear E.Var ∧ t.Clear (E.afterEx c)))
  | .ifElse c t e, E => have := t.decClear (E.afterEx c); have := e.decClear ((E.afterEx c).after t)
    inferInstanceAs (Decidable (c.Clear E.Var ∧ t.Clear (E.afterEx c) ∧ e.Clear ((E.afterEx c).after t)))
  | .while c t, E => have := t.decClear (E.afterEx c); inferInstanceAs (Decidable (c.Clear E.Var ∧ t.Clear (E.afterEx c)))
  | .switch c t, E => have := t.decClear (E.afterEx c); inferInstanceAs (Decidable (c.Clear E.Var ∧ t.Clear (E.afterEx c)))
  | .case _ s, E => s.decClear E
  | .label _ s, E => s.decClear E

instance (E : Env) : (d : Decl) → Decidable (d.Clear E)
  | .global _ _ | .vector _ _ _ => .isTrue trivial
  | .func f ps b => b.decClear (E.enter f ps)

def Program.decClear : (E : Env) → (p : Program) → Decidable (Program.ClearIn E p)
  | _, [] => .isTrue trivial
  | E, d :: p => have := Program.decClear (E.afterDecl d) p; inferInstanceAs (Decidable (d.Clear E ∧ Program.ClearIn (E.afterDecl d) p))

instance (p : Program) : Decidable p.Clear := Program.decClear Env.empty p

def St.decDistinct : (s : St) → Decidable s.Distinct
  | .seq s t => have := s.decDistinct; have := t.decDistinct; inferInstanceAs (Decidable (s.Distinct ∧ t.Distinct))
  | .ifThen _ t => t.decDistinct
  | .ifElse _ t e => have := t.decDistinct; have := e.decDistinct; inferInstanceAs (Decidable (t.Distinct ∧ e.Distinct))
  | .while _ b => b.decDistinct
  | .switch _ b => have := b.decDistinct; inferInstanceAs (Decidable (b.cases.Nodup ∧ b.Distinct))
  | .case _ s | .label _ s => s.decDistinct
  | .skip | .expr _ | .ret _ | .auto _ | .extrn _ | .goto _ => .isTrue trivial

instance (s : St) : Decidable s.Distinct := s.decDistinct

instance (ps : List Ident) (b : St) : Decidable (Regular ps b) :=
  decidable_of_iff ((b.exit true).isSome ∧ b.labels.Nodup ∧ b.Distinct ∧ (∀ f ∈ b.callees, f ∉ ps ∧ f ∉ b.autos) ∧ (-1 : Word) ∉ b.sizes)
    ⟨fun h => ⟨h.1, h.2.1, h.2.2.1, h.2.2.2.1, fun n hn e => h.2.2.2.2 (e ▸ hn)⟩, fun h => ⟨h.exit, h.labels, h.cases, h.callees, fun hn => h.sizes _ hn rfl⟩⟩

/-- `Regular` for the declaration of a function -/
def Decl.Regular : Decl → Prop
  | .func _ ps b => Spec.Regular ps b
  | _ => True

instance : (d : Decl) → Decidable d.Regular
  | .func _ ps b => inferInstanceAs (Decidable (Spec.Regular ps b))
  | .global _ _ | .vector _ _ _ => .isTrue trivial

instance (p : Program) : Decidable p.Tame :=
  decidable_of_iff ((∀ d ∈ p, d.Regular) ∧ ∀ x ∈ p.place.env.vars, x ∉ p.place.env.funs)
    ⟨fun h => ⟨fun f ps b hm => h.1 _ hm, h.2⟩, fun h => ⟨fun d hd => by cases d <;> first | trivial | exact h.1 _ _ _ hd, h.2⟩⟩

end Blang.Spec
