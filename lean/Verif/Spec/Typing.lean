import Verif.Model.IR
/-
The types of the emitted code: what llir's constructors and LLVM demand of the operands of each
instruction.
-/
namespace Blang.Spec

/-- Types of operands: `i64`, `i1`, no value, pointer to an object, `i8*`, pointer to a function returning
`i64` with `fixed` parameters of type `i64` and possibly more arguments (`variadic`). -/
inductive IRTy where
  | word
  | bit
  | void
  | ptr (t : Ty)
  | bytePtr
  | code (fixed : Nat) (variadic : Bool)
deriving DecidableEq, Repr

/-- the intrinsics `llvm.va_start` and `llvm.va_end`: `void (i8*)` -/
def isIntrinsic (s : List Char) : Bool := s = "llvm.va_start".toList || s = "llvm.va_end".toList

/-- pointer to the elements of an array -/
def elemPtr : Ty → IRTy
  | .bytes _ => .bytePtr
  | _ => .ptr .i64

/-- type of the result of an instruction -/
def Inst.result : Inst → IRTy
  | .alloca t => .ptr t
  | .load _ | .bin _ _ _ | .zext _ | .ptrtoint _ | .vaarg _ | .phi _ _ _ _ => .word
  | .store _ _ => .void
  | .icmp _ _ _ => .bit
  | .inttoptr _ | .gepWord _ _ => .ptr .i64
  | .inttofn _ k => .code k (k ≠ 0)
  | .gepField t _ _ => elemPtr t
  | .bitcast _ => .code 1 true
  | .call (.func s _ _) _ => if isIntrinsic s then .void else .word
  | .call _ _ => .word

/-- `r` is the result of an instruction of type `t` in the code `bs`. -/
def RegType (bs : List Block) (r : Nat) (t : IRTy) : Prop := ∃ B ∈ bs, ∃ i, (r, i) ∈ B.insts ∧ Inst.result i = t

/-- the operand has the type; `S` gives the types of registers -/
def ValType (S : Nat → IRTy → Prop) : Val → IRTy → Prop
  | .const _, t | .param, t => t = .word
  | .reg r, t => S r t
  | .glob _ ty, t => t = .ptr ty
  | .func _ v n, t => t = .code n v

/-- The operands of the instruction have the types that it demands. -/
def Inst.Typed (S : Nat → IRTy → Prop) : Inst → Prop
  | .alloca _ => True
  | .load v => ∃ t, ValType S v (.ptr t)
  | .store v w => ValType S v .word ∧ ValType S w (.ptr .i64)
  | .bin _ v w | .icmp _ v w | .phi v _ w _ => ValType S v .word ∧ ValType S w .word
  | .zext v => ValType S v .bit
  | .inttoptr v | .inttofn v _ => ValType S v .word
  | .ptrtoint v => (∃ t, ValType S v (.ptr t)) ∨ ValType S v .bytePtr ∨ ∃ k b, ValType S v (.code k b)
  | .gepField t v _ => ValType S v (.ptr t) ∧ t ≠ .i64
  | .gepWord v w => ValType S v (.ptr .i64) ∧ ValType S w .word
  | .bitcast v => ∃ k b, ValType S v (.code k b)
  | .call (.func s v n) as => if isIntrinsic s then ∃ a, as = [a] ∧ ValType S a .bytePtr else
      (∃ k b, ValType S (.func s v n) (.code k b)) ∧ ∀ a ∈ as, ValType S a .word
  | .call f as => (∃ k b, ValType S f (.code k b)) ∧ ∀ a ∈ as, ValType S a .word
  | .vaarg v => ValType S v .bytePtr

/-- The operands of the terminator have the types that it demands. -/
def Term.Typed (S : Nat → IRTy → Prop) : Term → Prop
  | .ret v | .switch v _ _ => ValType S v .word
  | .br _ => True
  | .condbr v _ _ => ValType S v .bit

/-- Every instruction and terminator of the code is well typed. -/
def CodeTyped (bs : List Block) : Prop :=
  ∀ B ∈ bs, (∀ p ∈ B.insts, Inst.Typed (RegType bs) p.2) ∧ ∀ t, B.term = some t → Term.Typed (RegType bs) t

end Blang.Spec
