import Verif.Spec.Names
import Verif.Model.IR
/-
Vocabulary for statements about emitted modules.  Only the data types of `Model/IR.lean` are used.
-/
namespace Blang.Spec

/-- The symbol of a B name: `main` keeps its name, every other name gets the prefix `b.`. -/
def symbolOf (x : Ident) : List Char := if x = ['m', 'a', 'i', 'n'] then x else 'b' :: '.' :: x

/-- variables declared by a declaration -/
def Decl.var? : Decl → Option Ident
  | .global x _ => some x
  | .vector x _ _ => some x
  | .func _ _ _ => none

/-- functions defined by a declaration -/
def Decl.fun? : Decl → Option Ident
  | .func f _ _ => some f
  | _ => none

/-- bytes of a string literal in memory: its characters and a 0 -/
def cString (vs : List Nat) : List (BitVec 8) := vs.map (BitVec.ofNat 8) ++ [0]

/-- UTF-8 encoding of a code point below 256 -/
def utf8Code (v : Nat) : List Nat := if v < 128 then [v] else [192 + v / 64, 128 + v % 64]

/-- number of words that the compiler reserves for `x[n] v1, ..., vk;` -/
def vecSize (n : Word) (k : Nat) : Nat := if n = 0 then max k 1 else n.toNat

/-- The words a global consists of. -/
def wordsOf : GInit → Option (List Const)
  | .word k => some [k]
  | .arr n ks => if n = ks.length then some ks else none
  | .zero n => some (List.replicate n (.int 0))
  | .bytes _ => none

/-- `g` is the only global of its name. -/
def Sole (gs : List GlobalDef) (g : GlobalDef) : Prop := gs.filter (fun g' => g'.sym = g.sym) = [g]

/-- The constant `k` is the initial value `v` in a module with the globals `gs`: the number, or the
address of the first byte of a constant that contains the string (ASCII characters as they are, others in UTF-8). -/
inductive HasValue (gs : List GlobalDef) : Ival → Const → Prop where
  | int {v : Word} : HasValue gs (.int v) (.int v)
  | str {vs : List Nat} {g : GlobalDef} : Sole gs g → g.priv = true →
      ((∀ v ∈ vs, v < 256) → g.init = .bytes (cString (vs.flatMap utf8Code))) → HasValue gs (.str vs) (.addr g.sym g.init.ty 0)

/-- The constants are the initial values, in order. -/
inductive HaveValues (gs : List GlobalDef) : List Ival → List Const → Prop where
  | nil : HaveValues gs [] []
  | cons {v : Ival} {vs : List Ival} {k : Const} {ks : List Const} : HasValue gs v k → HaveValues gs vs ks →
      HaveValues gs (v :: vs) (k :: ks)

/-- The constant `k` is the address of the words `ws` in a module with the globals `gs`. -/
def PointsTo (gs : List GlobalDef) (k : Const) (ws : List Const) : Prop :=
  ∃ g, Sole gs g ∧ g.priv = false ∧ ∃ i all, k = .addr g.sym g.init.ty i ∧ wordsOf g.init = some all ∧ ws = all.drop i

end Blang.Spec
