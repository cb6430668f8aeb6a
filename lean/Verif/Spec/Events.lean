import Verif.Spec.Runs
/-
Calls that are made, whether they return or not, and runs that do not end.
-/
namespace Blang.Spec

section
variable (M : BMachine) (R : Calls M.World)

mutual
/-- `e.Enters M R E ρ n s a vs s'`: the evaluation of the expression, started in the store `s`, gets
to the point where the function at the address `a` is called with the arguments `vs` in the store
`s'`.  Calls before that one return as `R` says; of that one and of what follows nothing is said. -/
def Ex.Enters (E : Env) (ρ : Frame) : Ex → Nat → Store M.World → Word → List Word → Store M.World → Prop
  | .num _, _, _, _, _, _ => False
  | .str _, _, _, _, _, _ => False
  | .var _, _, _, _, _, _ => False
  | .paren e, n, s, a, vs, s' => e.Enters E ρ n s a vs s'
  | .index x i, n, s, a, vs, s' => x.Enters E ρ n s a vs s' ∨
      ∃ d s1, x.Eval M R E ρ n s d s1 ∧ i.Enters E ρ (n + x.strings.length) s1 a vs s'
  | .callName f as, n, s, a, vs, s' => ∃ d, nameRes M E ρ f = some d ∧
      (Ex.EntersArgs E ρ as n s a vs s' ∨ a = d.value s.mem ∧ Ex.EvalArgs M R E ρ as n s vs s')
  | .call f as, n, s, a, vs, s' => f.Enters E ρ n s a vs s' ∨
      ∃ d s1, f.Eval M R E ρ n s d s1 ∧
        (Ex.EntersArgs E ρ as (n + f.strings.length) s1 a vs s' ∨
          a = d.value s1.mem ∧ Ex.EvalArgs M R E ρ as (n + f.strings.length) s1 vs s')
  | .post _ e, n, s, a, vs, s' => e.Enters E ρ n s a vs s'
  | .pre _ e, n, s, a, vs, s' => e.Enters E ρ n s a vs s'
  | .not e, n, s, a, vs, s' => e.Enters E ρ n s a vs s'
  | .neg e, n, s, a, vs, s' => e.Enters E ρ n s a vs s'
  | .deref e, n, s, a, vs, s' => e.Enters E ρ n s a vs s'
  | .addr e, n, s, a, vs, s' => e.Enters E ρ n s a vs s'
  | .bin _ x y, n, s, a, vs, s' => x.Enters E ρ n s a vs s' ∨
      ∃ d s1, x.Eval M R E ρ n s d s1 ∧ y.Enters E ρ (n + x.strings.length) s1 a vs s'
  | .cond c t e, n, s, a, vs, s' => c.Enters E ρ n s a vs s' ∨
      ∃ d s1, c.Eval M R E ρ n s d s1 ∧
        if d.value s1.mem ≠ 0 then t.Enters E ρ (n + c.strings.length) s1 a vs s'
        else e.Enters E ρ (n + c.strings.length + t.strings.length) s1 a vs s'
  | .assign _ x y, n, s, a, vs, s' => x.Enters E ρ n s a vs s' ∨
      ∃ b s1, x.Eval M R E ρ n s (.cell b) s1 ∧ y.Enters E ρ (n + x.strings.length) s1 a vs s'

/-- the same for the arguments of a call -/
def Ex.EntersArgs (E : Env) (ρ : Frame) : List Ex → Nat → Store M.World → Word → List Word → Store M.World → Prop
  | [], _, _, _, _, _ => False
  | e :: es, n, s, a, vs, s' => e.Enters E ρ n s a vs s' ∨
      ∃ d s1, e.Eval M R E ρ n s d s1 ∧ Ex.EntersArgs E ρ es (n + e.strings.length) s1 a vs s'
end

/-- the expression whose evaluation is the first thing that a statement does -/
def St.first : St → Option Ex
  | .expr e => some e
  | .ret e => e
  | .ifThen c _ => some c
  | .ifElse c _ _ => some c
  | .while c _ => some c
  | .switch e _ => some e
  | _ => none

/-- in this state a call of the function at `a` with the arguments `vs` is made in the store `s'` -/
def BState.Enters (x : BState M.World) (a : Word) (vs : List Word) (s' : Store M.World) : Prop :=
  ∃ P s k ρ σ e, x = .run P s k ρ σ ∧ s.first = some e ∧ e.Enters M R P.env ρ P.lits σ a vs s'
end

/-- calls in a program with the external functions `X`: what they return, if they return -/
def Program.Returns (p : Program) (M : BMachine) (X : Calls M.World) : Calls M.World :=
  fun a args σ v σ' => ∃ n, p.Call M X n a args σ v σ'

/-- the function `f` of the program, called with `args` in the store `σ`, gets to the state `x` -/
def Program.Gets (p : Program) (M : BMachine) (X : Calls M.World) (f : Ident) (args : List Word) (σ : Store M.World)
    (x : BState M.World) : Prop :=
  ∃ ps body P, p.Defines f ps body P ∧ ps.length ≤ args.length ∧
    BSteps M (p.Returns M X) P body (.entry M P ps body args σ) x

/-- The function `f` of the program, called with `args` in the store `σ`, calls the function at `a` with
the arguments `vs` in the store `σ'`, itself or in a function that it calls and that may not have returned. -/
inductive Program.Makes (p : Program) (M : BMachine) (X : Calls M.World) :
    Ident → List Word → Store M.World → Word → List Word → Store M.World → Prop where
  | own {f args σ x a vs σ'} : p.Gets M X f args σ x → x.Enters M (p.Returns M X) a vs σ' → p.Makes M X f args σ a vs σ'
  | inner {f args σ g ws σ1 a vs σ'} : p.Makes M X f args σ (M.global g) ws σ1 → p.Makes M X g ws σ1 a vs σ' →
      p.Makes M X f args σ a vs σ'

/-- The function `f` of the program, called with `args` in the store `σ`, does not come to an end: it makes
infinitely many steps, or a call that does not come to an end. -/
def Program.RunsForever (p : Program) (M : BMachine) (X : Calls M.World) (f : Ident) (args : List Word) (σ : Store M.World) : Prop :=
  ∃ D : Ident → List Word → Store M.World → Prop, D f args σ ∧ ∀ f args σ, D f args σ →
    (∃ ps body P, p.Defines f ps body P ∧ ps.length ≤ args.length ∧ ∃ xs : Nat → BState M.World,
      xs 0 = .entry M P ps body args σ ∧ ∀ i, BStep M (p.Returns M X) P body (xs i) (xs (i + 1))) ∨
    ∃ x g ws σ', p.Gets M X f args σ x ∧ x.Enters M (p.Returns M X) (M.global g) ws σ' ∧ D g ws σ'

/-- the next thing to be done is to call the function at `a` with the arguments `vs` -/
def Cfg.Calling (M : IRMachine) (bs : List Block) (args : List Word) (g : Cfg M.World) (a : Word) (vs : List Word) : Prop :=
  ∃ b i f xs, bs[g.blk]? = some b ∧ b.insts[g.pc]? = some (i, .call f xs) ∧
    (∀ s v n, f = .func s v n → s ≠ "llvm.va_start".toList ∧ s ≠ "llvm.va_end".toList) ∧
    valSem M args g.regs f = some a ∧ xs.mapM (valSem M args g.regs) = some vs

/-- calls in a module with the external functions `X`: what they return, if they return -/
def Module.Returns (m : Module) (M : IRMachine) (X : Calls M.World) : Calls M.World :=
  fun a args σ v σ' => ∃ n, Module.Call m M X n a args σ v σ'

/-- The function of the module at the address `b`, called with `args` in the store `σ`, calls the function
at `a` with the arguments `vs` in the store `σ'`, itself or in a function that it calls and that may
not have returned. -/
inductive Module.Makes (m : Module) (M : IRMachine) (X : Calls M.World) :
    Word → List Word → Store M.World → Word → List Word → Store M.World → Prop where
  | own {f args σ g a vs} : f ∈ m.funcs → f.blocks ≠ [] → IRSteps M (Module.Returns m M X) f.blocks args (.start σ) g →
      g.Calling M f.blocks args a vs → Makes m M X (M.addr f.sym) args σ a vs g.st
  | inner {b args σ c ws σ1 a vs σ'} : Makes m M X b args σ c ws σ1 → Makes m M X c ws σ1 a vs σ' → Makes m M X b args σ a vs σ'

end Blang.Spec
