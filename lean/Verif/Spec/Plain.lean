import Verif.Spec.Scope
/-
Redundant punctuation: parentheses around expressions, braces around statements, empty statements, an `else` with nothing behind it.
-/
namespace Blang.Spec

mutual
/-- the expression without any parentheses: what is grouped how is in the tree anyway -/
def Ex.bare : Ex → Ex
  | .num v => .num v
  | .str s => .str s
  | .var x => .var x
  | .paren e => e.bare
  | .index a i => .index a.bare i.bare
  | .callName f as => .callName f (Ex.bareArgs as)
  | .call f as => .call f.bare (Ex.bareArgs as)
  | .post d e => .post d e.bare
  | .pre d e => .pre d e.bare
  | .not e => .not e.bare
  | .neg e => .neg e.bare
  | .deref e => .deref e.bare
  | .addr e => .addr e.bare
  | .bin o x y => .bin o x.bare y.bare
  | .cond c t e => .cond c.bare t.bare e.bare
  | .assign o x y => .assign o x.bare y.bare

def Ex.bareArgs : List Ex → List Ex
  | [] => []
  | e :: es => e.bare :: Ex.bareArgs es
end

/-- Two expressions that differ in parentheses only.  (Operands of assignments, `++`, `--` and `&` are not in parentheses in B:
`(x) = 1` is not an expression.) -/
def Ex.Same (e e' : Ex) : Prop :=
  e.bare = e'.bare ∧ (∀ t ∈ e.targets, ∀ u, t ≠ .paren u) ∧ ∀ t ∈ e'.targets, ∀ u, t ≠ .paren u

/-- Two statements that differ only in parentheses, in braces, in empty statements, in an `else` that is followed by the empty statement, in
`return;` for `return(0);` and in how names are distributed over `extrn` and `auto` statements. -/
inductive St.Same : St → St → Prop where
  | refl (s : St) : Same s s
  | symm {s t : St} : Same s t → Same t s
  | trans {s t u : St} : Same s t → Same t u → Same s u
  /-- statements in the same surroundings -/
  | seq {s s' t t' : St} : Same s s' → Same t t' → Same (.seq s t) (.seq s' t')
  | expr {e e' : Ex} : e.Same e' → Same (.expr e) (.expr e')
  | ret {e e' : Ex} : e.Same e' → Same (.ret (some e)) (.ret (some e'))
  | ifThen {c c' : Ex} {t t' : St} : c.Same c' → Same t t' → Same (.ifThen c t) (.ifThen c' t')
  | ifElse {c c' : Ex} {t t' e e' : St} : c.Same c' → Same t t' → Same e e' → Same (.ifElse c t e) (.ifElse c' t' e')
  | while {c c' : Ex} {b b' : St} : c.Same c' → Same b b' → Same (.while c b) (.while c' b')
  | switch {c c' : Ex} {b b' : St} : c.Same c' → Same b b' → Same (.switch c b) (.switch c' b')
  | case {v : Word} {s s' : St} : Same s s' → Same (.case v s) (.case v s')
  | label {l : Ident} {s s' : St} : Same s s' → Same (.label l s) (.label l s')
  /-- `; s` and `s` -/
  | emptyBefore (s : St) : Same (.seq .skip s) s
  /-- `{ s }` and `s` -/
  | braces (s : St) : Same (.seq s .skip) s
  /-- `{ s t } u` and `s t u` -/
  | nested (s t u : St) : Same (.seq (.seq s t) u) (.seq s (.seq t u))
  /-- `if(c) t else ;` and `if(c) t` -/
  | emptyElse (c : Ex) (t : St) : Same (.ifElse c t .skip) (.ifThen c t)
  /-- `l: ; s` and `l: s` -/
  | labelled (l : Ident) (s : St) : Same (.seq (.label l .skip) s) (.label l s)
  /-- `case v: ; s` and `case v: s` -/
  | inCase (v : Word) (s : St) : Same (.seq (.case v .skip) s) (.case v s)
  /-- `return(0);` and `return;` -/
  | return0 : Same (.ret (some (.num 0))) (.ret none)
  /-- `extrn x; extrn y;` and `extrn x, y;` -/
  | extrns (xs ys : List Ident) : Same (.seq (.extrn xs) (.extrn ys)) (.extrn (xs ++ ys))
  /-- `auto x; auto y;` and `auto x, y;` -/
  | autos (ds es : List (Ident × Option Word)) : Same (.seq (.auto ds) (.auto es)) (.auto (ds ++ es))

/-- the same declaration but for punctuation in the body of a function -/
inductive Decl.Same : Decl → Decl → Prop where
  | refl (d : Decl) : Decl.Same d d
  | func {f : Ident} {ps : List Ident} {b b' : St} : b.Same b' → Decl.Same (.func f ps b) (.func f ps b')

/-- the same program but for punctuation in the bodies of functions -/
inductive Program.Same : Program → Program → Prop where
  | nil : Program.Same [] []
  | cons {d d' : Decl} {p p' : Program} : d.Same d' → Program.Same p p' → Program.Same (d :: p) (d' :: p')

end Blang.Spec
