import Verif.Spec.Runs
/-
What the compiler makes of a parameter or `auto` variable that is called by its name.

The name of a callee is looked up among the functions and the `extrn` variables only: `f(a){ return(a(1)); }` calls the function `a`,
whatever the parameter `a` holds.  `Program.apart` is the program in which these two meanings are written with different names: each
parameter or `auto` variable whose name is called somewhere in the function gets a name of its own, where it is declared and where its value
or address is used, while the callees keep the old name.  Nothing here depends on the compiler.
-/
namespace Blang.Spec

mutual
/-- the names in an expression that stand for a value or a cell -/
def Ex.mentions : Ex → List Ident
  | .num _ | .str _ => []
  | .var x => [x]
  | .paren e | .post _ e | .pre _ e | .not e | .neg e | .deref e | .addr e => e.mentions
  | .index a i => a.mentions ++ i.mentions
  | .callName _ as => Ex.mentionsArgs as
  | .call f as => f.mentions ++ Ex.mentionsArgs as
  | .bin _ l r | .assign _ l r => l.mentions ++ r.mentions
  | .cond c t e => c.mentions ++ (t.mentions ++ e.mentions)
def Ex.mentionsArgs : List Ex → List Ident
  | [] => []
  | e :: es => e.mentions ++ Ex.mentionsArgs es
end

/-- the names in a statement that stand for a value or a cell -/
def St.mentions : St → List Ident
  | .expr e | .ret (some e) => e.mentions
  | .seq s t => s.mentions ++ t.mentions
  | .ifThen c t => c.mentions ++ t.mentions
  | .ifElse c t e => c.mentions ++ (t.mentions ++ e.mentions)
  | .while c b | .switch c b => c.mentions ++ b.mentions
  | .case _ s | .label _ s => s.mentions
  | .skip | .ret none | .auto _ | .extrn _ | .goto _ => []

mutual
/-- the expression with other names for its values and cells; the callees keep theirs -/
def Ex.revar (r : Ident → Ident) : Ex → Ex
  | .num v => .num v
  | .str s => .str s
  | .var x => .var (r x)
  | .paren e => .paren (e.revar r)
  | .index a i => .index (a.revar r) (i.revar r)
  | .callName f as => .callName f (Ex.revarArgs r as)
  | .call f as => .call (f.revar r) (Ex.revarArgs r as)
  | .post d e => .post d (e.revar r)
  | .pre d e => .pre d (e.revar r)
  | .not e => .not (e.revar r)
  | .neg e => .neg (e.revar r)
  | .deref e => .deref (e.revar r)
  | .addr e => .addr (e.revar r)
  | .bin o l m => .bin o (l.revar r) (m.revar r)
  | .cond c t e => .cond (c.revar r) (t.revar r) (e.revar r)
  | .assign o l m => .assign o (l.revar r) (m.revar r)
def Ex.revarArgs (r : Ident → Ident) : List Ex → List Ex
  | [] => []
  | e :: es => e.revar r :: Ex.revarArgs r es
end

/-- the new name, for the names in `ls` -/
def among (r : Ident → Ident) (ls : List Ident) (x : Ident) : Ident := if x ∈ ls then r x else x

/-- The statement with other names for parameters and `auto` variables; `ls` are those declared so far. -/
def St.revar (r : Ident → Ident) : St → List Ident → St
  | .skip, _ => .skip
  | .expr e, ls => .expr (e.revar (among r ls))
  | .ret none, _ => .ret none
  | .ret (some e), ls => .ret (some (e.revar (among r ls)))
  | .auto ds, _ => .auto (ds.map fun d => (r d.1, d.2))
  | .extrn xs, _ => .extrn xs
  | .seq s t, ls => .seq (s.revar r ls) (t.revar r (s.autos ++ ls))
  | .ifThen c t, ls => .ifThen (c.revar (among r ls)) (t.revar r ls)
  | .ifElse c t e, ls => .ifElse (c.revar (among r ls)) (t.revar r ls) (e.revar r (t.autos ++ ls))
  | .while c b, ls => .while (c.revar (among r ls)) (b.revar r ls)
  | .switch e b, ls => .switch (e.revar (among r ls)) (b.revar r ls)
  | .case v s, ls => .case v (s.revar r ls)
  | .label l s, ls => .label l (s.revar r ls)
  | .goto l, _ => .goto l

/-- the names in a function with the parameters `ps` and the body `b` -/
def namesIn (ps : List Ident) (b : St) : List Ident := ps ++ (b.autos ++ (b.callees ++ b.mentions))

/-- the new name of a parameter or `auto` variable: if it is called somewhere, the old one with so many underscores behind it that the
result is longer than every name in the function -/
def ownName (ps : List Ident) (b : St) (x : Ident) : Ident :=
  if x ∈ b.callees then x ++ List.replicate ((namesIn ps b).flatten.length + 1) '_' else x

/-- the declaration with the new names -/
def Decl.apart : Decl → Decl
  | .func f ps b => .func f (ps.map (ownName ps b)) (b.revar (ownName ps b) ps)
  | d => d

/-- the program in which no parameter or `auto` variable has the name of a callee -/
def Program.apart (p : Program) : Program := p.map Decl.apart

/-- The conditions on a function body: those of `Regular` except that any name may be called. -/
structure Orderly (b : St) : Prop where
  /-- nothing follows a `return` in the same line of control -/
  exit : (b.exit true).isSome
  /-- no label is defined twice -/
  labels : b.labels.Nodup
  /-- no switch has two equal cases -/
  cases : b.Distinct
  /-- no `auto` vector has the size 2^64 - 1 -/
  sizes : ∀ n ∈ b.sizes, n ≠ -1

/-- the conditions on a program: those of `Program.Tame` except that any name may be called -/
def Program.Orderly (p : Program) : Prop :=
  (∀ f ps b, Decl.func f ps b ∈ p → Spec.Orderly b) ∧ ∀ x ∈ p.place.env.vars, x ∉ p.place.env.funs

/-- The modules are the same, except perhaps for the names of parameters. -/
def Module.Twin (m m' : Module) : Prop :=
  m.globals = m'.globals ∧
  m.funcs.map (fun f => (f.sym, f.params.length, f.variadic, f.blocks)) = m'.funcs.map (fun f => (f.sym, f.params.length, f.variadic, f.blocks))

end Blang.Spec
