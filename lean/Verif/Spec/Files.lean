import Verif.Spec.Runs
/-
A program spread over several files: each file is compiled to a module of its own and the modules
are linked.
-/
namespace Blang.Spec

/-- The machine as the code of one file sees it: string constants (`.str.0`, `.str.1`, ...) are private to the
file, all other symbols are shared between the files. -/
abbrev IRMachine.file (M : IRMachine) (lits : List Char → Word) : IRMachine :=
  { M with addr := fun s => if s.head? = some '.' then lits s else M.addr s }

/-- one of the linked files -/
structure File where
  text : List Char
  tree : Program
  code : Module
  /-- where its string constants were placed -/
  lits : List Char → Word

/-- the program that the files together are: one after the other -/
def wholeProgram (fs : List File) : Program := fs.flatMap File.tree

/-- Calls in the linked modules with the external functions `X`, at most `n` deep. -/
def LinkedCall (fs : List File) (M : IRMachine) (X : Calls M.World) : Nat → Calls M.World
  | 0 => X
  | n + 1 => fun a args σ v σ' => X a args σ v σ' ∨
      ∃ F ∈ fs, ∃ f ∈ F.code.funcs, f.blocks ≠ [] ∧ a = M.addr f.sym ∧
        CodeRun (M.file F.lits) (LinkedCall fs M X n) f.blocks args σ v σ'

/-- The functions are loaded properly: the external functions `X` have at most one outcome and are not
confused with the functions of the files, which have different addresses and are defined in one
file each. -/
structure LoadedFiles (fs : List File) (M : IRMachine) (X : Calls M.World) : Prop where
  functional : ∀ a args σ v1 σ1 v2 σ2, X a args σ v1 σ1 → X a args σ v2 σ2 → v1 = v2 ∧ σ1 = σ2
  external : ∀ F ∈ fs, ∀ f ∈ F.code.funcs, f.blocks ≠ [] → ∀ args σ v σ', ¬ X (M.addr f.sym) args σ v σ'
  apart : ∀ F ∈ fs, ∀ G ∈ fs, ∀ f ∈ F.code.funcs, ∀ g ∈ G.code.funcs, f.blocks ≠ [] → g.blocks ≠ [] →
    M.addr f.sym = M.addr g.sym → F = G ∧ f.sym = g.sym

/-- Calling the B function `f` in the linked modules returns `v` and leaves the store `σ'`; if they are
loaded properly, there is no other outcome. -/
def LinkedDoes (fs : List File) (M : IRMachine) (X : Calls M.World) (f : Ident) (args : List Word) (σ : Store M.World) (v : Word)
    (σ' : Store M.World) : Prop :=
  (∃ n, LinkedCall fs M X n (M.addr (symbolOf f)) args σ v σ') ∧
  (LoadedFiles fs M X → ∀ n v1 σ1, LinkedCall fs M X n (M.addr (symbolOf f)) args σ v1 σ1 → v1 = v ∧ σ1 = σ')

/-- `lits` says where the string literals of the whole program are, numbered through; this is where the
files have theirs, the first of which are preceded by `k` literals of earlier files.  (Numbers beyond the
last literal of a file do not occur in its code.) -/
def LitsAt (lits : List Char → Word) : Nat → List File → Prop
  | _, [] => True
  | k, F :: fs => (∀ n, F.lits (strSym n) = lits (strSym (k + n))) ∧
      LitsAt lits (k + (F.tree.flatMap Decl.strings).length) fs

/-- The module defines the symbol `s` for the linker: as a variable or as a function with a body. -/
def Module.DefinesSym (m : Module) (s : List Char) : Prop :=
  (∃ g ∈ m.globals, g.priv = false ∧ g.sym = s) ∨ ∃ F ∈ m.funcs, F.blocks ≠ [] ∧ F.sym = s

/-- names that a declaration defines -/
def Decl.defines : Decl → List Ident
  | .global x _ => [x]
  | .vector x _ _ => [x]
  | .func f _ _ => [f]

/-- names that a declaration declares `extrn` -/
def Decl.extrns : Decl → List Ident
  | .func _ _ b => b.extrns
  | _ => []

/-- the vector whose words are placed in a block of their own: one of more than one word, without initial values -/
def Decl.block? : Decl → Option Ident
  | .vector x n [] => if 1 < n.toInt then some x else none
  | _ => none

end Blang.Spec
