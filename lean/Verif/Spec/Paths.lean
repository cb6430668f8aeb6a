import Verif.Model.IR
import Verif.Spec.Names
/-
Paths through the emitted code, and the registers that hold addresses of local variables.
-/
namespace Blang.Spec

/-- the operands of an instruction -/
def Inst.operands : Inst → List Val
  | .alloca _ => []
  | .load v | .zext v | .inttoptr v | .inttofn v _ | .ptrtoint v | .gepField _ v _ | .bitcast v | .vaarg v => [v]
  | .store v w | .bin _ v w | .icmp _ v w | .gepWord v w | .phi v _ w _ => [v, w]
  | .call f as => f :: as

/-- the operands of a terminator -/
def Term.operands : Term → List Val
  | .ret v | .condbr v _ _ | .switch v _ _ => [v]
  | .br _ => []

/-- the blocks a terminator can jump to -/
def Term.targets : Term → List Nat
  | .ret _ => []
  | .br b => [b]
  | .condbr _ t e => [t, e]
  | .switch _ d cs => d :: cs.map (·.2)

/-- `Path bs done i k`: some path through the blocks `bs` from the start of the first block leads to
the instruction number `k` of block `i`, and the instructions with the results `done` are on it. -/
inductive Path (bs : List Block) : List Nat → Nat → Nat → Prop where
  | start : Path bs [] 0 0
  | step {done : List Nat} {i k r : Nat} {inst : Inst} {B : Block} : Path bs done i k → bs[i]? = some B → B.insts[k]? = some (r, inst) →
      Path bs (r :: done) i (k + 1)
  | jump {done : List Nat} {i j : Nat} {B : Block} {t : Term} : Path bs done i B.insts.length → bs[i]? = some B → B.term = some t →
      j ∈ Term.targets t → Path bs done j 0

/-- the instruction reserves memory in the frame of the function, or computes an address in such memory -/
def Inst.makesLocal : Inst → Prop
  | .alloca _ => True
  | .gepField _ (.reg _) _ => True
  | _ => False

/-- `a` is the address of a local variable: the result of such an instruction -/
def LocalAddr (bs : List Block) (a : Nat) : Prop := ∃ B ∈ bs, ∃ i, (a, i) ∈ B.insts ∧ Inst.makesLocal i

/-- Whenever a path reaches a use of the register `a`, it has computed it. -/
def ComputedBeforeUse (bs : List Block) (a : Nat) : Prop :=
  ∀ (done : List Nat) (i k : Nat) (B : Block), Path bs done i k → bs[i]? = some B →
    (∀ r inst, B.insts[k]? = some (r, inst) → .reg a ∈ Inst.operands inst → a ∈ done) ∧
    (∀ t, k = B.insts.length → B.term = some t → .reg a ∈ Term.operands t → a ∈ done)

/-- the statement consists of declarations -/
def St.Declares : St → Prop
  | .auto _ | .extrn _ | .skip => True
  | .seq s t => s.Declares ∧ t.Declares
  | _ => False

/-- names declared by `auto` in a statement -/
def St.hasAuto : St → Prop
  | .auto _ => True
  | .seq s t | .ifElse _ s t => s.hasAuto ∨ t.hasAuto
  | .ifThen _ s | .while _ s | .switch _ s | .case _ s | .label _ s => s.hasAuto
  | _ => False

/-- All `auto` statements are among the declarations at the beginning. -/
def St.AutosFirst : St → Prop
  | .seq s t => (s.Declares ∧ t.AutosFirst) ∨ (s.AutosFirst ∧ ¬ t.hasAuto)
  | s => s.Declares ∨ ¬ s.hasAuto

end Blang.Spec
