import Verif.Spec.Machine
import Verif.Model.IR
/-
The meaning of the emitted code: the fragment of LLVM IR that the compiler uses.

Simplifications.  Pointers and `i1` values are words (an `i1` is 0 or 1).  Memory is flat: any
address can be read and written.  The remaining arguments of a variadic call are a list that
`va_start`, `va_arg` and `va_end` act on; the memory of the `va_list` is not touched.  Operations
that LLVM leaves undefined or that give poison (division by 0, overflow of division, shifts by 64 or
more) have no result, nor has a register that was not assigned.  All functions take words and return
a word; which of the parameters are "fixed" does not matter for passing them.
-/
namespace Blang.Spec

structure IRMachine where
  /-- the rest of the world -/
  World : Type
  /-- `alloca` of that many bytes -/
  alloc : World → Nat → Word × World
  /-- the world after the return of a function, given that at its start and that at its end -/
  leave : World → World → World
  /-- where a global or function is -/
  addr : List Char → Word

/-- State of a running function: block, number of instructions of it already executed, the block from
which it was entered, registers, unread arguments of the `va_list`, store. -/
structure Cfg (World : Type) where
  blk : Nat
  pc : Nat
  prev : Nat
  regs : Nat → Option Word
  va : List Word
  st : Store World

/-- two-operand instructions -/
def BinOp.sem (x y : Word) : BinOp → Option Word
  | .add => some (x + y)
  | .sub => some (x - y)
  | .mul => some (x * y)
  | .sdiv => if y = 0 ∨ x = BitVec.intMin 64 ∧ y = -1 then none else some (x.sdiv y)
  | .srem => if y = 0 ∨ x = BitVec.intMin 64 ∧ y = -1 then none else some (x.srem y)
  | .and => some (x &&& y)
  | .or => some (x ||| y)
  | .shl => if y.toNat < 64 then some (x <<< y.toNat) else none
  | .ashr => if y.toNat < 64 then some (x.sshiftRight y.toNat) else none

/-- comparisons -/
def Pred.sem (x y : Word) : Pred → Bool
  | .eq => x == y
  | .ne => x != y
  | .slt => x.slt y
  | .sle => x.sle y
  | .sgt => y.slt x
  | .sge => y.sle x

/-- size of the elements of an array type -/
def elemSize : Ty → Nat
  | .i64 => 8
  | .arr _ => 8
  | .bytes _ => 1

section
variable (M : IRMachine) (R : Calls M.World)

/-- the value of an operand; `args` are the arguments of the function -/
def valSem (args : List Word) (regs : Nat → Option Word) : Val → Option Word
  | .const n => some n
  | .reg r => regs r
  | .glob s _ => some (M.addr s)
  | .func s _ _ => some (M.addr s)
  | .param => args.head?

/-- The instruction, executed in `g`, yields the result `r`, the unread arguments `va` and the store
`st`.  Instructions without result yield 0. -/
def Inst.Sem (args : List Word) (g : Cfg M.World) (r : Word) (va : List Word) (st : Store M.World) : Inst → Prop
  | .alloca ty => r = (M.alloc g.st.world ty.size).1 ∧ st = ⟨g.st.mem, (M.alloc g.st.world ty.size).2⟩ ∧ va = g.va
  | .load src => (∃ a, valSem M args g.regs src = some a ∧ r = loadW g.st.mem a) ∧ st = g.st ∧ va = g.va
  | .store src dst => (∃ v a, valSem M args g.regs src = some v ∧ valSem M args g.regs dst = some a ∧ st = g.st.store a v) ∧
      r = 0 ∧ va = g.va
  | .bin o x y => (∃ v w, valSem M args g.regs x = some v ∧ valSem M args g.regs y = some w ∧ BinOp.sem v w o = some r) ∧
      st = g.st ∧ va = g.va
  | .icmp p x y => (∃ v w, valSem M args g.regs x = some v ∧ valSem M args g.regs y = some w ∧
      r = if Pred.sem v w p then 1 else 0) ∧ st = g.st ∧ va = g.va
  | .zext x => valSem M args g.regs x = some r ∧ st = g.st ∧ va = g.va
  | .inttoptr x => valSem M args g.regs x = some r ∧ st = g.st ∧ va = g.va
  | .inttofn x _ => valSem M args g.regs x = some r ∧ st = g.st ∧ va = g.va
  | .ptrtoint x => valSem M args g.regs x = some r ∧ st = g.st ∧ va = g.va
  | .gepField ty b i => (∃ a, valSem M args g.regs b = some a ∧ r = a + BitVec.ofNat 64 (elemSize ty * i)) ∧ st = g.st ∧ va = g.va
  | .gepWord b i => (∃ a v, valSem M args g.regs b = some a ∧ valSem M args g.regs i = some v ∧ r = a + 8 * v) ∧
      st = g.st ∧ va = g.va
  | .bitcast f => valSem M args g.regs f = some r ∧ st = g.st ∧ va = g.va
  | .call f xs =>
    match f with
    | .func s _ _ =>
      if s = "llvm.va_start".toList then r = 0 ∧ st = g.st ∧ va = args.drop 1
      else if s = "llvm.va_end".toList then r = 0 ∧ st = g.st ∧ va = g.va
      else (∃ vs, xs.mapM (valSem M args g.regs) = some vs ∧ R (M.addr s) vs g.st r st) ∧ va = g.va
    | f => (∃ a vs, valSem M args g.regs f = some a ∧ xs.mapM (valSem M args g.regs) = some vs ∧ R a vs g.st r st) ∧ va = g.va
  | .vaarg _ => g.va = r :: va ∧ st = g.st
  | .phi v1 b1 v2 b2 => (if g.prev = b1 then valSem M args g.regs v1 = some r
      else g.prev = b2 ∧ valSem M args g.regs v2 = some r) ∧ st = g.st ∧ va = g.va

/-- entering a block -/
def Cfg.jump {World : Type} (g : Cfg World) (b : Nat) : Cfg World := { g with blk := b, pc := 0, prev := g.blk }

/-- after an instruction with result number `i` -/
def Cfg.next {World : Type} (g : Cfg World) (i : Nat) (r : Word) (va : List Word) (st : Store World) : Cfg World :=
  { g with pc := g.pc + 1, regs := fun j => if j = i then some r else g.regs j, va := va, st := st }

/-- where a terminator leads -/
def Term.Goes (args : List Word) (g : Cfg M.World) (b : Nat) : Term → Prop
  | .ret _ => False
  | .br l => b = l
  | .condbr c t e => ∃ v, valSem M args g.regs c = some v ∧ b = if v ≠ 0 then t else e
  | .switch x d cs => ∃ v, valSem M args g.regs x = some v ∧ b = ((cs.find? fun p => p.1 = v).map (·.2)).getD d

/-- One step in a function with the blocks `bs` called with `args`. -/
inductive IRStep (bs : List Block) (args : List Word) : Cfg M.World → Cfg M.World → Prop where
  | inst {g b i inst r va st} : bs[g.blk]? = some b → b.insts[g.pc]? = some (i, inst) →
      Inst.Sem M R args g r va st inst → IRStep bs args g (g.next i r va st)
  | term {g b t l} : bs[g.blk]? = some b → g.pc = b.insts.length → b.term = some t → Term.Goes M args g l t →
      IRStep bs args g (g.jump l)

/-- any number of steps -/
inductive IRSteps (bs : List Block) (args : List Word) : Cfg M.World → Cfg M.World → Prop where
  | refl {g} : IRSteps bs args g g
  | head {g g1 g2} : IRStep M R bs args g g1 → IRSteps bs args g1 g2 → IRSteps bs args g g2

/-- the function returns `v` now -/
def Returns (bs : List Block) (args : List Word) (g : Cfg M.World) (v : Word) : Prop :=
  ∃ b x, bs[g.blk]? = some b ∧ g.pc = b.insts.length ∧ b.term = some (.ret x) ∧ valSem M args g.regs x = some v

/-- the start of a function: its first block -/
def Cfg.start {World : Type} (σ : Store World) : Cfg World := ⟨0, 0, 0, fun _ => none, [], σ⟩

/-- The function with the blocks `bs` called with `args` returns `v`. -/
def CodeRun (bs : List Block) (args : List Word) (σ : Store M.World) (v : Word) (σ' : Store M.World) : Prop :=
  ∃ g, IRSteps M R bs args (.start σ) g ∧ Returns M bs args g v ∧ σ' = ⟨g.st.mem, M.leave σ.world g.st.world⟩
end

/-- Calls in a module with the external functions `X`, at most `n` deep. -/
def Module.Call (m : Module) (M : IRMachine) (X : Calls M.World) : Nat → Calls M.World
  | 0 => X
  | n + 1 => fun a args σ v σ' => X a args σ v σ' ∨
      ∃ f ∈ m.funcs, f.blocks ≠ [] ∧ a = M.addr f.sym ∧ CodeRun M (Module.Call m M X n) f.blocks args σ v σ'

end Blang.Spec
