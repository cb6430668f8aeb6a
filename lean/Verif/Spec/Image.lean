import Verif.Spec.Files
/-
What memory contains when a program starts: for the system, which loads the module, and for the B programmer.
-/
namespace Blang.Spec

/-- the words `vs` stand at `a`, one after the other -/
def WordsAt (mem : Mem) (a : Word) (vs : List Word) : Prop :=
  ∀ i (h : i < vs.length), loadW mem (a + 8 * BitVec.ofNat 64 i) = vs[i]

/-- the bytes `bs` stand at `a`, one after the other -/
def BytesAt (mem : Mem) (a : Word) (bs : List Byte) : Prop :=
  ∀ i (h : i < bs.length), mem (a + BitVec.ofNat 64 i) = bs[i]

/-- the value of a constant when the symbols are placed at `addr` -/
def Const.value (addr : List Char → Word) : Const → Word
  | .int n => n
  | .addr s ty i => addr s + BitVec.ofNat 64 (elemSize ty * i)

/-- The system has put the data of the module into memory: each global holds its initial value. -/
def Module.DataIn (m : Module) (addr : List Char → Word) (mem : Mem) : Prop :=
  ∀ g ∈ m.globals,
    (∀ bs, g.init = .bytes bs → BytesAt mem (addr g.sym) bs) ∧
    (∀ ks, wordsOf g.init = some ks → WordsAt mem (addr g.sym) (ks.map (Const.value addr)))

/-- The bytes at `a` are those of a string: its characters (ASCII as they are, others in UTF-8) and a 0. -/
def StringAt (mem : Mem) (a : Word) (vs : List Nat) : Prop :=
  (∀ v ∈ vs, v < 256) → BytesAt mem a (cString (vs.flatMap utf8Code))

/-- the word `w` is the initial value: the number, or the address of the string -/
def Ival.Holds (mem : Mem) (w : Word) : Ival → Prop
  | .int v => w = v
  | .str vs => StringAt mem w vs

/-- the words at `a` are the initial values, in order -/
def ValuesAt (mem : Mem) (a : Word) (vs : List Ival) : Prop :=
  ∀ i (h : i < vs.length), vs[i].Holds mem (loadW mem (a + 8 * BitVec.ofNat 64 i))

/-- Memory is as the program says, before anything is executed. -/
structure Program.Initial (p : Program) (M : BMachine) (mem : Mem) : Prop where
  /-- `x v1, ..., vk;` (the last declaration of `x`): the values stand at `x`, in order; 0 if there are none -/
  scalar : ∀ pre x vals post, p = pre ++ .global x vals :: post → (∀ d ∈ post, d.var? ≠ some x) →
    ValuesAt mem (M.global x) vals ∧ (vals = [] → loadW mem (M.global x) = 0)
  /-- `x[n] v1, ..., vk;` (the only declaration of `x`): `x` is the address of its words, which are the values
  and then 0 (`vecSize`: the size written, else as many words as there are values) -/
  vector : ∀ pre x n vals post, p = pre ++ .vector x n vals :: post → (∀ d ∈ pre ++ post, d.var? ≠ some x) →
    n.toNat < 2 ^ 63 → vals.length < 2 ^ 63 →
    ValuesAt mem (loadW mem (M.global x)) (vals.take (vecSize n vals.length)) ∧
    ∀ i, vals.length ≤ i → i < vecSize n vals.length → loadW mem (loadW mem (M.global x) + 8 * BitVec.ofNat 64 i) = 0
  /-- a variable that is only mentioned in an `extrn` is 0 -/
  mentioned : ∀ x, (∃ d ∈ p, x ∈ d.extrns) → (∀ d ∈ p, d.var? ≠ some x) → loadW mem (M.global x) = 0
  /-- the n-th string literal of the program is in its place -/
  literal : ∀ n vs, (p.flatMap Decl.strings)[n]? = some vs → StringAt mem (M.literal n) vs

end Blang.Spec
