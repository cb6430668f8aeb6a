import Verif.Spec.Paths
/-
Static single assignment: what LLVM's verifier demands of registers, branches and phi instructions.
-/
namespace Blang.Spec

/-- the registers assigned in the code, in order -/
def assigned (bs : List Block) : List Nat := bs.flatMap fun B => B.insts.map (·.1)

/-- the operand that a phi instruction takes on the way from block `i` -/
def PhiFrom (i : Nat) (v : Val) : Inst → Prop
  | .phi x b y b' => (b = i ∧ v = x) ∨ (b' = i ∧ v = y)
  | _ => False

def Inst.isPhi : Inst → Prop
  | .phi _ _ _ _ => True
  | _ => False

/-- Every path that reaches a use of the register `a` has computed it.  A phi instruction uses its
operands at the ends of the blocks they belong to. -/
def Dominated (bs : List Block) (a : Nat) : Prop :=
  ∀ done i k B, Path bs done i k → bs[i]? = some B →
    (∀ r inst, B.insts[k]? = some (r, inst) → ¬ Inst.isPhi inst → .reg a ∈ Inst.operands inst → a ∈ done) ∧
    (∀ t, k = B.insts.length → B.term = some t → .reg a ∈ Term.operands t → a ∈ done) ∧
    (∀ B', B' ∈ bs → ∀ r inst, (r, inst) ∈ B'.insts → k = B.insts.length → PhiFrom i (.reg a) inst → a ∈ done)

/-- block `i` can jump to block `j` -/
def Edge (bs : List Block) (i j : Nat) : Prop := ∃ B t, bs[i]? = some B ∧ B.term = some t ∧ j ∈ Term.targets t

/-- The branches and phi instructions of the code are in order: every branch leads to a block other than
the first; a phi instruction is the first of its block, which can be reached from exactly the two
different blocks that it names. -/
structure FlowOk (bs : List Block) : Prop where
  targets : ∀ i j, Edge bs i j → 0 < j ∧ j < bs.length
  phis : ∀ i B k r x b y b', bs[i]? = some B → B.insts[k]? = some (r, .phi x b y b') →
    k = 0 ∧ b ≠ b' ∧ ∀ j, Edge bs j i ↔ j = b ∨ j = b'

end Blang.Spec
