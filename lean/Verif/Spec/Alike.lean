import Verif.Spec.Target
/-
Programs that differ in what should not matter: the order of the definitions, the names of local variables and labels, the names of functions and
variables, where the string literals are.
-/
namespace Blang.Spec

/-- a way to rename: different names stay different, and every name can be obtained -/
structure Renaming where
  to : Ident → Ident
  back : Ident → Ident
  back_to : ∀ x, back (to x) = x
  to_back : ∀ x, to (back x) = x

def Renaming.inverse (r : Renaming) : Renaming := ⟨r.back, r.to, r.to_back, r.back_to⟩

/-- nothing is renamed -/
def Renaming.none : Renaming := ⟨id, id, fun _ => rfl, fun _ => rfl⟩

/-- two names are exchanged -/
def Renaming.swap (x y : Ident) : Renaming where
  to z := if z = x then y else if z = y then x else z
  back z := if z = x then y else if z = y then x else z
  back_to z := by grind
  to_back z := by grind

mutual
/-- the expression with all names replaced -/
def Ex.rename (r : Ident → Ident) : Ex → Ex
  | .num v => .num v
  | .str s => .str s
  | .var x => .var (r x)
  | .paren e => .paren (e.rename r)
  | .index a i => .index (a.rename r) (i.rename r)
  | .callName f as => .callName (r f) (Ex.renameArgs r as)
  | .call f as => .call (f.rename r) (Ex.renameArgs r as)
  | .post d e => .post d (e.rename r)
  | .pre d e => .pre d (e.rename r)
  | .not e => .not (e.rename r)
  | .neg e => .neg (e.rename r)
  | .deref e => .deref (e.rename r)
  | .addr e => .addr (e.rename r)
  | .bin o x y => .bin o (x.rename r) (y.rename r)
  | .cond c t e => .cond (c.rename r) (t.rename r) (e.rename r)
  | .assign o x y => .assign o (x.rename r) (y.rename r)

def Ex.renameArgs (r : Ident → Ident) : List Ex → List Ex
  | [] => []
  | e :: es => e.rename r :: Ex.renameArgs r es
end

/-- the statement with all names replaced: variables and functions according to `r`, labels according to `l` -/
def St.rename (r l : Ident → Ident) : St → St
  | .skip => .skip
  | .seq s t => .seq (s.rename r l) (t.rename r l)
  | .expr e => .expr (e.rename r)
  | .ret e => .ret (e.map (Ex.rename r))
  | .auto ds => .auto (ds.map fun d => (r d.1, d.2))
  | .extrn xs => .extrn (xs.map r)
  | .ifThen c t => .ifThen (c.rename r) (t.rename r l)
  | .ifElse c t e => .ifElse (c.rename r) (t.rename r l) (e.rename r l)
  | .while c b => .while (c.rename r) (b.rename r l)
  | .switch e b => .switch (e.rename r) (b.rename r l)
  | .case v s => .case v (s.rename r l)
  | .label m s => .label (l m) (s.rename r l)
  | .goto m => .goto (l m)

mutual
/-- the names in an expression -/
def Ex.names : Ex → List Ident
  | .num _ | .str _ => []
  | .var x => [x]
  | .paren e | .post _ e | .pre _ e | .not e | .neg e | .deref e | .addr e => e.names
  | .index a i => a.names ++ i.names
  | .callName f as => f :: Ex.namesArgs as
  | .call f as => f.names ++ Ex.namesArgs as
  | .bin _ x y | .assign _ x y => x.names ++ y.names
  | .cond c t e => c.names ++ (t.names ++ e.names)

def Ex.namesArgs : List Ex → List Ident
  | [] => []
  | e :: es => e.names ++ Ex.namesArgs es
end

/-- the names in an expression that do not denote local variables -/
def Ex.globals (E : Env) (e : Ex) : List Ident := e.names.filter (· ∉ E.locals)

/-- the names in a statement that do not denote local variables where they stand -/
def St.globals (E : Env) : St → List Ident
  | .seq s t => s.globals E ++ t.globals (E.after s)
  | .expr e | .ret (some e) => e.globals E
  | .ifThen c t => c.globals E ++ t.globals (E.afterEx c)
  | .ifElse c t e => c.globals E ++ (t.globals (E.afterEx c) ++ e.globals ((E.afterEx c).after t))
  | .while c b => c.globals E ++ b.globals (E.afterEx c)
  | .switch e b => e.globals E ++ b.globals (E.afterEx e)
  | .case _ s | .label _ s => s.globals E
  | _ => []

/-- Every function of `p` is in `q`, perhaps elsewhere in the text and with other names for variables, functions and labels; names of globals
(placed by `g` for `p` and by `g'` for `q`) refer to the same places, and the string literals of the function (placed by `l` and `l'`) are at the same
places. -/
def Program.Within (p q : Program) (g g' : Ident → Word) (l l' : Nat → Word) : Prop :=
  ∀ f ps b P, p.Defines f ps b P → ∃ (r t : Renaming) (f' : Ident) (Q : Place),
    q.Defines f' (ps.map r.to) (b.rename r.to t.to) Q ∧ g' f' = g f ∧ (∀ x ∈ b.globals P.env, g' (r.to x) = g x) ∧
    ∀ i < b.strings.length, l' (Q.lits + i) = l (P.lits + i)

/-- `p` and `q` are the same program but for order and names. -/
def Program.Alike (p q : Program) (g g' : Ident → Word) (l l' : Nat → Word) : Prop := p.Within q g g' l l' ∧ q.Within p g' g l' l

/-- `q` is `p` with other names: each function with its own renaming `r` of variables and functions and `t` of labels, such that names of globals
(placed by `g` for `p` and by `g'` for `q`) refer to the same places -/
inductive Program.Renamed (g g' : Ident → Word) : Program → Program → Prop where
  | nil : Program.Renamed g g' [] []
  | global {x y : Ident} {vals p q} : g' y = g x → Program.Renamed g g' p q → Program.Renamed g g' (.global x vals :: p) (.global y vals :: q)
  | vector {x y : Ident} {n vals p q} : g' y = g x → Program.Renamed g g' p q → Program.Renamed g g' (.vector x n vals :: p) (.vector y n vals :: q)
  | func {f f' : Ident} {ps b p q} (r t : Renaming) : g' f' = g f → (∀ x ∈ b.globals (Env.empty.enter f ps), g' (r.to x) = g x) →
      Program.Renamed g g' p q → Program.Renamed g g' (.func f ps b :: p) (.func f' (ps.map r.to) (b.rename r.to t.to) :: q)

/-- the functions that the program defines -/
def Program.defined (p : Program) : List Ident := p.filterMap fun | .func f _ _ => some f | _ => none

/-- the number of string literals in some declarations -/
def Program.literals (p : Program) : Nat := (p.flatMap Decl.strings).length

/-- The string literals of `p` are those of `q` in another order: the `n`-th of `q` is the `φ n`-th of `p`, declaration by declaration. -/
def Program.Renumbered (p q : Program) (φ : Nat → Nat) : Prop :=
  ∀ pre' d post', q = pre' ++ d :: post' → ∃ pre post, p = pre ++ d :: post ∧ ∀ i < d.strings.length, φ (Program.literals pre' + i) = Program.literals pre + i

/-- the same machine with the symbols in other places -/
abbrev IRMachine.placed (M : IRMachine) (addr : List Char → Word) : IRMachine := { M with addr := addr }

end Blang.Spec
