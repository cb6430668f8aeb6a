import Verif.Spec.Target
import Verif.Spec.Flow
/-
Vocabulary for statements that relate the runs of a program with the runs of a module.
-/
namespace Blang.Spec

/-- The functions of the module are loaded properly: the external functions `X` have at most one
outcome and are not confused with the functions of the module, which have different addresses. -/
structure Loaded (m : Module) (M : IRMachine) (X : Calls M.World) : Prop where
  functional : ∀ a args σ v1 σ1 v2 σ2, X a args σ v1 σ1 → X a args σ v2 σ2 → v1 = v2 ∧ σ1 = σ2
  external : ∀ f ∈ m.funcs, f.blocks ≠ [] → ∀ args σ v σ', ¬ X (M.addr f.sym) args σ v σ'
  apart : ∀ f ∈ m.funcs, ∀ g ∈ m.funcs, f.blocks ≠ [] → g.blocks ≠ [] → M.addr f.sym = M.addr g.sym → f.sym = g.sym

/-- Calling the B function `f` of the module returns `v` and leaves the store `σ'`; if the module is
loaded properly, there is no other outcome. -/
def Module.Does (m : Module) (M : IRMachine) (X : Calls M.World) (f : Ident) (args : List Word) (σ : Store M.World) (v : Word)
    (σ' : Store M.World) : Prop :=
  (∃ n, Module.Call m M X n (M.addr (symbolOf f)) args σ v σ') ∧
  (Loaded m M X → ∀ n v1 σ1, Module.Call m M X n (M.addr (symbolOf f)) args σ v1 σ1 → v1 = v ∧ σ1 = σ')

/-- The conditions on a program under which its module is compared with its meaning: those of
`Regular` for each function, and no name is both a global variable and a function. -/
def Program.Tame (p : Program) : Prop :=
  (∀ f ps b, Decl.func f ps b ∈ p → Regular ps b) ∧ ∀ x ∈ p.place.env.vars, x ∉ p.place.env.funs

/-- the start of a function with the parameters `ps` called with `args`: each parameter in a cell of its own -/
def BState.entry (M : BMachine) (P : Place) (ps : List Ident) (body : St) (args : List Word) (σ : Store M.World) : BState M.World :=
  .run P body .stop (bindParams ps (M.params σ.world ps.length).1 fun _ => none)
    ⟨storeArgs (M.params σ.world ps.length).1 args σ.mem, (M.params σ.world ps.length).2⟩

/-- The function `f` of the program, called with `args` in the store `σ`, gets to the state `x`; calls
made on the way are at most `n` deep. -/
def Program.Reaches (p : Program) (M : BMachine) (X : Calls M.World) (n : Nat) (f : Ident) (args : List Word) (σ : Store M.World)
    (x : BState M.World) : Prop :=
  ∃ ps body P, p.Defines f ps body P ∧ ps.length ≤ args.length ∧
    BSteps M (p.Call M X n) P body (.entry M P ps body args σ) x

/-- the store after the return of a function that was called in `σ` and ended in `σ'` -/
def Store.back {World : Type} (leave : World → World → World) (σ σ' : Store World) : Store World :=
  ⟨σ'.mem, leave σ.world σ'.world⟩

/-- The function `f` of the program, called with `args` in the store `σ`, gets to the state `x`; and from
the state `y` it gets to its end, with the result `v` and the store `σ'`.  (Used to say that `y` follows
`x`: then the function as a whole returns `v`.) -/
def Program.Through (p : Program) (M : BMachine) (X : Calls M.World) (n : Nat) (f : Ident) (args : List Word) (σ : Store M.World)
    (x y : BState M.World) (v : Word) (σ' : Store M.World) : Prop :=
  ∃ ps body P, p.Defines f ps body P ∧ ps.length ≤ args.length ∧
    BSteps M (p.Call M X n) P body (.entry M P ps body args σ) x ∧ BSteps M (p.Call M X n) P body y (.done v σ')

/-- Wherever a function of the program gets to the state `x`, the module goes on as from `y`: if the
function would end with some result and store from `y`, then calling it in the module has that result and store. -/
def Module.GoesOn (m : Module) (p : Program) (M : IRMachine) (X : Calls M.World) (n : Nat) (x y : BState M.World) : Prop :=
  ∀ f args σ v σ', p.Through M.toB X n f args σ x y v σ' → Module.Does m M X f args σ v (.back M.leave σ σ')

/-- Wherever a function of the program gets to the state `x`, it returns `v` to its caller and leaves the store `σ'` -/
def Module.ReturnsFrom (m : Module) (p : Program) (M : IRMachine) (X : Calls M.World) (n : Nat) (x : BState M.World) (v : Word)
    (σ' : Store M.World) : Prop :=
  ∀ f args σ, p.Reaches M.toB X n f args σ x → Module.Does m M X f args σ v (.back M.leave σ σ')

end Blang.Spec
