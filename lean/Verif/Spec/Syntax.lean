/-
Abstract syntax of B programs.  Nothing here depends on the compiler.
-/
namespace Blang.Spec

abbrev Word := BitVec 64

/-- Binary operators. -/
inductive Bop where
  | mul | div | mod
  | add | sub
  | shl | shr
  | lt | le | gt | ge
  | eq | ne
  | band
  | bor
deriving DecidableEq, Repr

/-- Spelling of a binary operator; the compound assignment operator is `=` followed by it. -/
def Bop.text : Bop → List Char
  | .mul => ['*'] | .div => ['/'] | .mod => ['%']
  | .add => ['+'] | .sub => ['-']
  | .shl => ['<', '<'] | .shr => ['>', '>']
  | .lt => ['<'] | .le => ['<', '='] | .gt => ['>'] | .ge => ['>', '=']
  | .eq => ['=', '='] | .ne => ['!', '=']
  | .band => ['&'] | .bor => ['|']

/-- Direction of `++` and `--`. -/
inductive Dir where
  | inc | dec
deriving DecidableEq, Repr

def Dir.text : Dir → List Char
  | .inc => ['+', '+']
  | .dec => ['-', '-']

/-- Expressions. -/
inductive Ex where
  /-- integer literal or character constant -/
  | num (v : Word)
  /-- string literal, given by its character values -/
  | str (s : List Nat)
  /-- name, not directly called -/
  | var (x : List Char)
  /-- parenthesised expression -/
  | paren (e : Ex)
  /-- `a[i]` -/
  | index (a i : Ex)
  /-- `f(args)` where the function is given by a name -/
  | callName (f : List Char) (args : List Ex)
  /-- `f(args)` where the function is any other expression -/
  | call (f : Ex) (args : List Ex)
  /-- `e++`, `e--` -/
  | post (d : Dir) (e : Ex)
  /-- `++e`, `--e` -/
  | pre (d : Dir) (e : Ex)
  | not (e : Ex)
  | neg (e : Ex)
  /-- `*e` -/
  | deref (e : Ex)
  /-- `&e` -/
  | addr (e : Ex)
  | bin (o : Bop) (l r : Ex)
  /-- `c ? t : e` -/
  | cond (c t e : Ex)
  /-- `l = r` and `l =op r` -/
  | assign (o : Option Bop) (l r : Ex)

/-- Statements. A block `{ s1 ... sn }` is `seq s1 (... (seq sn skip))`. -/
inductive St where
  | skip
  | seq (s t : St)
  | expr (e : Ex)
  /-- `return;` and `return(e);` -/
  | ret (e : Option Ex)
  /-- `auto`: names, with a size for vectors -/
  | auto (ds : List (List Char × Option Word))
  | extrn (xs : List (List Char))
  | ifThen (c : Ex) (t : St)
  | ifElse (c : Ex) (t e : St)
  | while (c : Ex) (b : St)
  | switch (e : Ex) (b : St)
  | case (v : Word) (s : St)
  | label (l : List Char) (s : St)
  | goto (l : List Char)

/-- Initial values of globals. -/
inductive Ival where
  | int (v : Word)
  | str (s : List Nat)

/-- Top-level declarations. -/
inductive Decl where
  | global (x : List Char) (vals : List Ival)
  | vector (x : List Char) (size : Word) (vals : List Ival)
  | func (f : List Char) (params : List (List Char)) (body : St)

abbrev Program := List Decl

end Blang.Spec
