import Verif.Spec.Names
/-
Static rules of B programs: which names denote what, what may be assigned, where `case` may stand,
and which declarations clash.  Nothing here depends on the compiler.
-/
namespace Blang.Spec

/-- What is known at a point of the text. -/
structure Env where
  /-- names of global variables defined or mentioned in an `extrn` so far -/
  vars : List Ident
  /-- names defined or used as functions so far -/
  funs : List Ident
  /-- parameters and `auto` variables of the current function so far -/
  locals : List Ident
  /-- names in the `extrn`s of the current function so far -/
  exts : List Ident

/-- nothing known -/
def Env.empty : Env := ⟨[], [], [], []⟩

/-- `x` denotes a variable: a local of this function or a global made visible by `extrn` in this
function. -/
def Env.Var (E : Env) (x : Ident) : Prop := x ∈ E.locals ∨ x ∈ E.exts

instance (E : Env) (x : Ident) : Decidable (E.Var x) := inferInstanceAs (Decidable (_ ∨ _))

mutual
/-- names that the expression uses as functions -/
def Ex.uses (E : Env) : Ex → List Ident
  | .num _ | .str _ => []
  | .var x => if E.Var x then [] else [x]
  | .paren e | .post _ e | .pre _ e | .not e | .neg e | .deref e | .addr e => e.uses E
  | .index a i => a.uses E ++ i.uses E
  | .callName f as => (if f ∈ E.exts then [] else [f]) ++ Ex.usesArgs E as
  | .call f as => f.uses E ++ Ex.usesArgs E as
  | .bin _ l r | .assign _ l r => l.uses E ++ r.uses E
  | .cond c t e => c.uses E ++ (t.uses E ++ e.uses E)

def Ex.usesArgs (E : Env) : List Ex → List Ident
  | [] => []
  | e :: es => e.uses E ++ Ex.usesArgs E es
end

/-- the expression designates a cell of memory -/
def Ex.Lvalue (E : Env) : Ex → Prop
  | .var x => E.Var x
  | .index _ _ | .deref _ | .pre _ _ => True
  | _ => False

mutual
/-- Only lvalues are assigned, incremented, decremented or have their address taken. -/
def Ex.Wf (E : Env) : Ex → Prop
  | .num _ | .str _ | .var _ => True
  | .paren e | .not e | .neg e | .deref e => e.Wf E
  | .post _ e | .pre _ e | .addr e => e.Wf E ∧ e.Lvalue E
  | .index a i => a.Wf E ∧ i.Wf E
  | .callName _ as => Ex.WfArgs E as
  | .call f as => f.Wf E ∧ Ex.WfArgs E as
  | .bin _ l r => l.Wf E ∧ r.Wf E
  | .cond c t e => c.Wf E ∧ t.Wf E ∧ e.Wf E
  | .assign _ l r => l.Wf E ∧ l.Lvalue E ∧ r.Wf E

def Ex.WfArgs (E : Env) : List Ex → Prop
  | [] => True
  | e :: es => e.Wf E ∧ Ex.WfArgs E es
end

/-- after an expression -/
def Env.afterEx (E : Env) (e : Ex) : Env := { E with funs := e.uses E ++ E.funs }

/-- after `extrn x` -/
def Env.afterExtrn (E : Env) (x : Ident) : Env := { E with vars := x :: E.vars, exts := x :: E.exts }

/-- after a statement; declarations count from their place to the end of the function -/
def Env.after (E : Env) : St → Env
  | .skip => E
  | .seq s t => (E.after s).after t
  | .expr e => E.afterEx e
  | .ret none => E
  | .ret (some e) => E.afterEx e
  | .auto ds => { E with locals := ds.map (·.1) ++ E.locals }
  | .extrn xs => xs.foldl Env.afterExtrn E
  | .ifThen c t => (E.afterEx c).after t
  | .ifElse c t e => ((E.afterEx c).after t).after e
  | .while c b => (E.afterEx c).after b
  | .switch e b => (E.afterEx e).after b
  | .case _ s => E.after s
  | .label _ s => E.after s
  | .goto _ => E

/-- names of an `extrn` do not already stand for functions (only) -/
def Env.ExtrnOk : Env → List Ident → Prop
  | _, [] => True
  | E, x :: xs => (x ∈ E.vars ∨ x ∉ E.funs) ∧ (E.afterExtrn x).ExtrnOk xs

/-- The statement obeys the rules on names and lvalues. -/
def St.Scoped : St → Env → Prop
  | .skip, _ => True
  | .seq s t, E => s.Scoped E ∧ t.Scoped (E.after s)
  | .expr e, E => e.Wf E
  | .ret none, _ => True
  | .ret (some e), E => e.Wf E
  | .auto ds, E => (ds.map (·.1)).Nodup ∧ ∀ d ∈ ds, d.1 ∉ E.locals
  | .extrn xs, E => E.ExtrnOk xs
  | .ifThen c t, E => c.Wf E ∧ t.Scoped (E.afterEx c)
  | .ifElse c t e, E => c.Wf E ∧ t.Scoped (E.afterEx c) ∧ e.Scoped ((E.afterEx c).after t)
  | .while c b, E => c.Wf E ∧ b.Scoped (E.afterEx c)
  | .switch e b, E => e.Wf E ∧ b.Scoped (E.afterEx e)
  | .case _ s, E => s.Scoped E
  | .label _ s, E => s.Scoped E
  | .goto _, _ => True

/-- Every `case` lies in the body of a `switch` without an `if` or `while` in between; `sw`: the
statement itself lies so. -/
def St.CasesOk : Bool → St → Prop
  | sw, .case _ s => sw = true ∧ s.CasesOk sw
  | sw, .seq s t => s.CasesOk sw ∧ t.CasesOk sw
  | sw, .label _ s => s.CasesOk sw
  | _, .switch _ b => b.CasesOk true
  | _, .ifThen _ t => t.CasesOk false
  | _, .ifElse _ t e => t.CasesOk false ∧ e.CasesOk false
  | _, .while _ b => b.CasesOk false
  | _, _ => True

/-- `auto` names of a statement, in the order of the text -/
def St.autos : St → List Ident
  | .auto ds => ds.map (·.1)
  | .seq s t => s.autos ++ t.autos
  | .ifThen _ t => t.autos
  | .ifElse _ t e => t.autos ++ e.autos
  | .while _ b | .switch _ b => b.autos
  | .case _ s | .label _ s => s.autos
  | _ => []

/-- names in `extrn` statements, in the order of the text -/
def St.extrns : St → List Ident
  | .extrn xs => xs
  | .seq s t => s.extrns ++ t.extrns
  | .ifThen _ t => t.extrns
  | .ifElse _ t e => t.extrns ++ e.extrns
  | .while _ b | .switch _ b => b.extrns
  | .case _ s | .label _ s => s.extrns
  | _ => []

mutual
/-- operands of assignments (left), `++`, `--` and `&` in an expression -/
def Ex.targets : Ex → List Ex
  | .num _ | .str _ | .var _ => []
  | .paren e | .not e | .neg e | .deref e => e.targets
  | .post _ e | .pre _ e | .addr e => e :: e.targets
  | .index a i => a.targets ++ i.targets
  | .callName _ as => Ex.targetsArgs as
  | .call f as => f.targets ++ Ex.targetsArgs as
  | .bin _ l r => l.targets ++ r.targets
  | .cond c t e => c.targets ++ t.targets ++ e.targets
  | .assign _ l r => l :: l.targets ++ r.targets

def Ex.targetsArgs : List Ex → List Ex
  | [] => []
  | e :: es => e.targets ++ Ex.targetsArgs es
end

/-- operands of assignments (left), `++`, `--` and `&` in a statement -/
def St.targets : St → List Ex
  | .expr e | .ret (some e) => e.targets
  | .seq s t => s.targets ++ t.targets
  | .ifThen c t => c.targets ++ t.targets
  | .ifElse c t e => c.targets ++ t.targets ++ e.targets
  | .while c b | .switch c b => c.targets ++ b.targets
  | .case _ s | .label _ s => s.targets
  | _ => []

/-- what a function body starts with: its parameters; nothing of other functions -/
def Env.enter (E : Env) (f : Ident) (params : List Ident) : Env :=
  ⟨E.vars, f :: E.funs, params, []⟩

/-- after a declaration; locals and `extrn`s end with the function -/
def Env.afterDecl (E : Env) : Decl → Env
  | .global x _ | .vector x _ _ => ⟨x :: E.vars, E.funs, [], []⟩
  | .func f ps b => ⟨((E.enter f ps).after b).vars, ((E.enter f ps).after b).funs, [], []⟩

def Decl.Scoped (E : Env) : Decl → Prop
  | .global _ _ | .vector _ _ _ => True
  | .func f ps b => b.Scoped (E.enter f ps)

/-- The program obeys the rules on names and lvalues. -/
def Program.Scoped : Env → Program → Prop
  | _, [] => True
  | E, d :: p => d.Scoped E ∧ Program.Scoped (E.afterDecl d) p

def Decl.CasesOk : Decl → Prop
  | .global _ _ | .vector _ _ _ => True
  | .func _ _ b => b.CasesOk false

end Blang.Spec
