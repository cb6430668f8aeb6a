import Verif.Spec.Machine
import Verif.Spec.Scope
/-
The meaning of B programs, independent of the compiler.

Values are 64-bit words.  Expressions are evaluated from left to right.  Undefined operations
(division by 0, overflow of division, shifts by 64 or more, reading a variable whose declaration has
not been executed) have no result.
-/
namespace Blang.Spec

/-- What B leaves to the implementation: where things are. -/
structure BMachine where
  /-- the rest of the world -/
  World : Type
  /-- a new cell for a variable -/
  cell : World → Word × World
  /-- a new vector of that many words: the cell of the variable and the address of the words -/
  vec : World → Nat → Word × Word × World
  /-- cells for that many parameters -/
  params : World → Nat → List Word × World
  /-- the world after the return of a function, given that at its start and that at its end -/
  leave : World → World → World
  /-- where a global variable or function is -/
  global : Ident → Word
  /-- where the n-th string literal of the program is -/
  literal : Nat → Word

/-- truth values -/
def truth (p : Prop) [Decidable p] : Word := if p then 1 else 0

/-- Binary operators, by their meaning on integers: two's complement, wrapping around. -/
def Bop.sem (x y : Word) : Bop → Option Word
  | .mul => some (BitVec.ofInt 64 (x.toInt * y.toInt))
  | .div => if y.toInt = 0 ∨ x.toInt = -2 ^ 63 ∧ y.toInt = -1 then none else some (BitVec.ofInt 64 (x.toInt.tdiv y.toInt))
  | .mod => if y.toInt = 0 ∨ x.toInt = -2 ^ 63 ∧ y.toInt = -1 then none else some (BitVec.ofInt 64 (x.toInt.tmod y.toInt))
  | .add => some (BitVec.ofInt 64 (x.toInt + y.toInt))
  | .sub => some (BitVec.ofInt 64 (x.toInt - y.toInt))
  | .shl => if y.toNat < 64 then some (BitVec.ofInt 64 (x.toInt * 2 ^ y.toNat)) else none
  | .shr => if y.toNat < 64 then some (BitVec.ofInt 64 (x.toInt / 2 ^ y.toNat)) else none
  | .lt => some (truth (x.toInt < y.toInt))
  | .le => some (truth (x.toInt ≤ y.toInt))
  | .gt => some (truth (x.toInt > y.toInt))
  | .ge => some (truth (x.toInt ≥ y.toInt))
  | .eq => some (truth (x = y))
  | .ne => some (truth (x ≠ y))
  | .band => some (x &&& y)
  | .bor => some (x ||| y)

/-- `++` and `--` -/
def Dir.sem (x : Word) : Dir → Word
  | .inc => BitVec.ofInt 64 (x.toInt + 1)
  | .dec => BitVec.ofInt 64 (x.toInt - 1)

/-- What an expression yields: a cell of memory (lvalue) or just a value. -/
inductive Res where
  | cell (a : Word)
  | val (v : Word)

/-- the value: a cell is read -/
def Res.value (m : Mem) : Res → Word
  | .cell a => loadW m a
  | .val v => v

/-- cells of the local variables whose declaration has been executed -/
abbrev Frame := Ident → Option Word

section
variable (M : BMachine) (R : Calls M.World)

/-- What a name denotes: the local variable, else the global variable made visible by `extrn`, else
the function. -/
def nameRes (E : Env) (ρ : Frame) (x : Ident) : Option Res :=
  if x ∈ E.locals then (ρ x).map .cell
  else if x ∈ E.exts then some (.cell (M.global x))
  else some (.val (M.global x))

mutual
/-- `e.Eval M R E ρ n s r s'`: evaluated with the names meaning `E`, the locals at `ρ` and the store
`s`, the expression yields `r` and the store `s'`; `n` string literals precede it in the program. -/
def Ex.Eval (E : Env) (ρ : Frame) : Ex → Nat → Store M.World → Res → Store M.World → Prop
  | .num v, _, s, r, s' => r = .val v ∧ s' = s
  | .str _, n, s, r, s' => r = .val (M.literal n) ∧ s' = s
  | .var x, _, s, r, s' => nameRes M E ρ x = some r ∧ s' = s
  | .paren e, n, s, r, s' => ∃ d, e.Eval E ρ n s d s' ∧ r = .val (d.value s'.mem)
  | .index a i, n, s, r, s' => ∃ d1 s1 d2, a.Eval E ρ n s d1 s1 ∧ i.Eval E ρ (n + a.strings.length) s1 d2 s' ∧
      r = .cell (d1.value s1.mem + 8 * d2.value s'.mem)
  | .callName f as, n, s, r, s' => ∃ d vs s1 v, nameRes M E ρ f = some d ∧ Ex.EvalArgs E ρ as n s vs s1 ∧
      R (d.value s.mem) vs s1 v s' ∧ r = .val v
  | .call f as, n, s, r, s' => ∃ d s1 vs s2 v, f.Eval E ρ n s d s1 ∧
      Ex.EvalArgs E ρ as (n + f.strings.length) s1 vs s2 ∧ R (d.value s1.mem) vs s2 v s' ∧ r = .val v
  | .post d e, n, s, r, s' => ∃ a s1, e.Eval E ρ n s (.cell a) s1 ∧
      s' = s1.store a (d.sem (loadW s1.mem a)) ∧ r = .val (loadW s1.mem a)
  | .pre d e, n, s, r, s' => ∃ a s1, e.Eval E ρ n s (.cell a) s1 ∧
      s' = s1.store a (d.sem (loadW s1.mem a)) ∧ r = .cell a
  | .not e, n, s, r, s' => ∃ d, e.Eval E ρ n s d s' ∧ r = .val (truth (d.value s'.mem = 0))
  | .neg e, n, s, r, s' => ∃ d, e.Eval E ρ n s d s' ∧ r = .val (BitVec.ofInt 64 (-(d.value s'.mem).toInt))
  | .deref e, n, s, r, s' => ∃ d, e.Eval E ρ n s d s' ∧ r = .cell (d.value s'.mem)
  | .addr e, n, s, r, s' => ∃ a, e.Eval E ρ n s (.cell a) s' ∧ r = .val a
  | .bin o x y, n, s, r, s' => ∃ d1 s1 d2 v, x.Eval E ρ n s d1 s1 ∧ y.Eval E ρ (n + x.strings.length) s1 d2 s' ∧
      o.sem (d1.value s1.mem) (d2.value s'.mem) = some v ∧ r = .val v
  | .cond c t e, n, s, r, s' => ∃ d s1 d', c.Eval E ρ n s d s1 ∧ r = .val (d'.value s'.mem) ∧
      if d.value s1.mem ≠ 0 then t.Eval E ρ (n + c.strings.length) s1 d' s'
      else e.Eval E ρ (n + c.strings.length + t.strings.length) s1 d' s'
  | .assign none x y, n, s, r, s' => ∃ a s1 d s2, x.Eval E ρ n s (.cell a) s1 ∧
      y.Eval E ρ (n + x.strings.length) s1 d s2 ∧ s' = s2.store a (d.value s2.mem) ∧ r = .val (d.value s2.mem)
  | .assign (some o) x y, n, s, r, s' => ∃ a s1 d s2 v, x.Eval E ρ n s (.cell a) s1 ∧
      y.Eval E ρ (n + x.strings.length) s1 d s2 ∧ o.sem (loadW s2.mem a) (d.value s2.mem) = some v ∧
      s' = s2.store a v ∧ r = .val v

/-- arguments of a call, left to right -/
def Ex.EvalArgs (E : Env) (ρ : Frame) : List Ex → Nat → Store M.World → List Word → Store M.World → Prop
  | [], _, s, vs, s' => vs = [] ∧ s' = s
  | e :: es, n, s, vs, s' => ∃ d s1 ws, e.Eval E ρ n s d s1 ∧
      Ex.EvalArgs E ρ es (n + e.strings.length) s1 ws s' ∧ vs = d.value s1.mem :: ws
end

/-- a place in the program: what is known there, and how many string literals precede it -/
structure Place where
  env : Env
  lits : Nat

/-- the place after an expression -/
def Place.afterEx (P : Place) (e : Ex) : Place := ⟨P.env.afterEx e, P.lits + e.strings.length⟩

/-- the place after a statement -/
def Place.after (P : Place) (s : St) : Place := ⟨P.env.after s, P.lits + s.strings.length⟩

/-- the value of an expression at a place -/
def Ex.Value (e : Ex) (P : Place) (ρ : Frame) (s : Store M.World) (v : Word) (s' : Store M.World) : Prop :=
  ∃ d, e.Eval M R P.env ρ P.lits s d s' ∧ v = d.value s'.mem

/-- What remains to be done after a statement. -/
inductive Cont where
  /-- the end of the function -/
  | stop
  /-- go on with `t`, which stands at `P` -/
  | seq (P : Place) (t : St) (k : Cont)
  /-- end of the body of the loop `while(c) b` at `P` -/
  | loop (P : Place) (c : Ex) (b : St) (k : Cont)

/-- Where in `s` (standing at `P`, followed by `k`) the case `v` is.  Cases of inner switches are not
searched, and `if` and `while` contain no cases. -/
def findCase (v : Word) : St → Place → Cont → Option (Place × St × Cont)
  | .case w s, P, k => if w = v then some (P, s, k) else findCase v s P k
  | .seq s t, P, k => (findCase v s P (.seq (P.after s) t k)).or (findCase v t (P.after s) k)
  | .label _ s, P, k => findCase v s P k
  | _, _, _ => none

/-- Where in `s` (standing at `P`, followed by `k`) the label `l` is. -/
def findLabel (l : Ident) : St → Place → Cont → Option (Place × St × Cont)
  | .label m s, P, k => if m = l then some (P, s, k) else findLabel l s P k
  | .case _ s, P, k => findLabel l s P k
  | .seq s t, P, k => (findLabel l s P (.seq (P.after s) t k)).or (findLabel l t (P.after s) k)
  | .ifThen c t, P, k => findLabel l t (P.afterEx c) k
  | .ifElse c t e, P, k => (findLabel l t (P.afterEx c) k).or (findLabel l e ((P.afterEx c).after t) k)
  | .while c b, P, k => findLabel l b (P.afterEx c) (.loop P c b k)
  | .switch e b, P, k => findLabel l b (P.afterEx e) k
  | _, _, _ => none

/-- a frame with one more variable -/
def Frame.bind (ρ : Frame) (x : Ident) (a : Word) : Frame := fun y => if y = x then some a else ρ y

/-- the declarations of an `auto` statement, one after the other: a variable is a new cell with value
0; a vector is a new cell with the address of its words (at least one) -/
def declare : List (Ident × Option Word) → Frame → Store M.World → Frame × Store M.World
  | [], ρ, s => (ρ, s)
  | (x, none) :: ds, ρ, s =>
    let (a, w) := M.cell s.world
    declare ds (ρ.bind x a) ((Store.mk s.mem w).store a 0)
  | (x, some n) :: ds, ρ, s =>
    let (a, d, w) := M.vec s.world (if n = 0 then 1 else n.toNat)
    declare ds (ρ.bind x a) ((Store.mk s.mem w).store a d)

/-- States of a running function: about to execute a statement, or finished with a result. -/
inductive BState (World : Type) where
  | run (P : Place) (s : St) (k : Cont) (ρ : Frame) (σ : Store World)
  | done (v : Word) (σ : Store World)

/-- One step of the execution of a function with body `body` standing at `P0`. -/
inductive BStep (P0 : Place) (body : St) : BState M.World → BState M.World → Prop where
  | endFun {P ρ σ} : BStep P0 body (.run P .skip .stop ρ σ) (.done 0 σ)
  | endSeq {P Q t k ρ σ} : BStep P0 body (.run P .skip (.seq Q t k) ρ σ) (.run Q t k ρ σ)
  | endLoop {P Q c b k ρ σ} : BStep P0 body (.run P .skip (.loop Q c b k) ρ σ) (.run Q (.while c b) k ρ σ)
  | seq {P s t k ρ σ} : BStep P0 body (.run P (.seq s t) k ρ σ) (.run P s (.seq (P.after s) t k) ρ σ)
  | expr {P e k ρ σ v σ'} : e.Value M R P ρ σ v σ' → BStep P0 body (.run P (.expr e) k ρ σ) (.run P .skip k ρ σ')
  | ret0 {P k ρ σ} : BStep P0 body (.run P (.ret none) k ρ σ) (.done 0 σ)
  | ret {P e k ρ σ v σ'} : e.Value M R P ρ σ v σ' → BStep P0 body (.run P (.ret (some e)) k ρ σ) (.done v σ')
  | auto {P ds k ρ σ} : BStep P0 body (.run P (.auto ds) k ρ σ)
      (.run P .skip k (declare M ds ρ σ).1 (declare M ds ρ σ).2)
  | extrn {P xs k ρ σ} : BStep P0 body (.run P (.extrn xs) k ρ σ) (.run P .skip k ρ σ)
  | ifTrue {P c t k ρ σ v σ'} : c.Value M R P ρ σ v σ' → v ≠ 0 →
      BStep P0 body (.run P (.ifThen c t) k ρ σ) (.run (P.afterEx c) t k ρ σ')
  | ifFalse {P c t k ρ σ v σ'} : c.Value M R P ρ σ v σ' → v = 0 →
      BStep P0 body (.run P (.ifThen c t) k ρ σ) (.run P .skip k ρ σ')
  | elseTrue {P c t e k ρ σ v σ'} : c.Value M R P ρ σ v σ' → v ≠ 0 →
      BStep P0 body (.run P (.ifElse c t e) k ρ σ) (.run (P.afterEx c) t k ρ σ')
  | elseFalse {P c t e k ρ σ v σ'} : c.Value M R P ρ σ v σ' → v = 0 →
      BStep P0 body (.run P (.ifElse c t e) k ρ σ) (.run ((P.afterEx c).after t) e k ρ σ')
  | whileTrue {P c b k ρ σ v σ'} : c.Value M R P ρ σ v σ' → v ≠ 0 →
      BStep P0 body (.run P (.while c b) k ρ σ) (.run (P.afterEx c) b (.loop P c b k) ρ σ')
  | whileFalse {P c b k ρ σ v σ'} : c.Value M R P ρ σ v σ' → v = 0 →
      BStep P0 body (.run P (.while c b) k ρ σ) (.run P .skip k ρ σ')
  | switchCase {P e b k ρ σ v σ' Q s k'} : e.Value M R P ρ σ v σ' → findCase v b (P.afterEx e) k = some (Q, s, k') →
      BStep P0 body (.run P (.switch e b) k ρ σ) (.run Q s k' ρ σ')
  | switchNone {P e b k ρ σ v σ'} : e.Value M R P ρ σ v σ' → findCase v b (P.afterEx e) k = none →
      BStep P0 body (.run P (.switch e b) k ρ σ) (.run P .skip k ρ σ')
  | case {P v s k ρ σ} : BStep P0 body (.run P (.case v s) k ρ σ) (.run P s k ρ σ)
  | label {P l s k ρ σ} : BStep P0 body (.run P (.label l s) k ρ σ) (.run P s k ρ σ)
  | goto {P l k ρ σ Q s k'} : findLabel l body P0 .stop = some (Q, s, k') →
      BStep P0 body (.run P (.goto l) k ρ σ) (.run Q s k' ρ σ)

/-- any number of steps -/
inductive BSteps (P0 : Place) (body : St) : BState M.World → BState M.World → Prop where
  | refl {x} : BSteps P0 body x x
  | head {x y z} : BStep M R P0 body x y → BSteps P0 body y z → BSteps P0 body x z

/-- the parameters in their cells -/
def bindParams : List Ident → List Word → Frame → Frame
  | p :: ps, a :: as, ρ => bindParams ps as (ρ.bind p a)
  | _, _, ρ => ρ

/-- the arguments stored in the cells of the parameters -/
def storeArgs : List Word → List Word → Mem → Mem
  | a :: as, v :: vs, m => storeArgs as vs (storeW m a v)
  | _, _, m => m

/-- The function with parameters `ps` and body `body`, standing at `P`, called with `args`, returns
`v`.  There must be an argument for every parameter. -/
def FunRun (P : Place) (ps : List Ident) (body : St) (args : List Word) (σ : Store M.World) (v : Word)
    (σ' : Store M.World) : Prop :=
  ps.length ≤ args.length ∧ ∃ σ1 : Store M.World,
    BSteps M R P body
      (.run P body .stop (bindParams ps (M.params σ.world ps.length).1 fun _ => none)
        ⟨storeArgs (M.params σ.world ps.length).1 args σ.mem, (M.params σ.world ps.length).2⟩)
      (.done v σ1) ∧
    σ' = ⟨σ1.mem, M.leave σ.world σ1.world⟩
end

/-- the place after some declarations -/
def Program.place (p : Program) : Place := ⟨p.foldl Env.afterDecl Env.empty, (p.flatMap Decl.strings).length⟩

/-- `body` is the body of the function `f` of the program and stands at `P`: its last definition. -/
def Program.Defines (p : Program) (f : Ident) (ps : List Ident) (body : St) (P : Place) : Prop :=
  ∃ pre post, p = pre ++ Decl.func f ps body :: post ∧ (∀ qs b, Decl.func f qs b ∉ post) ∧
    P = ⟨(Program.place pre).env.enter f ps, (Program.place pre).lits⟩

/-- Calls in a program with the external functions `X`, at most `n` deep. -/
def Program.Call (p : Program) (M : BMachine) (X : Calls M.World) : Nat → Calls M.World
  | 0 => X
  | n + 1 => fun a args σ v σ' => X a args σ v σ' ∨
      ∃ f ps body P, p.Defines f ps body P ∧ a = M.global f ∧ FunRun M (p.Call M X n) P ps body args σ v σ'

end Blang.Spec
