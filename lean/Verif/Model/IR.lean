import Verif.Model.Lexer
/-
The part of llir/llvm (v0.3.6) that the compiler uses, as data.

Object identity.  In llir an instruction, block, global or function is a Go
pointer.  Here an instruction result is named by a number that is never reused
(`Val.reg`), a block of the function under construction by its index in
`Func.Blocks`, a global or function by its symbol name: the printed module refers
to globals and functions by name only.
Printing the module (`Module.String`) is not modelled.
-/
namespace Blang

/-- Content types that occur: `i64`, `[n x i64]`, `[n x i8]`.
(llir types made at irbuilder.go:112-119, 137-220, 402-440, 471-495) -/
inductive Ty where
  | i64
  | arr (n : Nat)
  | bytes (n : Nat)
deriving DecidableEq, Repr

/-- Size in bytes (LLVM data layout: i64 is 8 bytes, arrays are contiguous).
(LLVM data layout; no counterpart in /repo) -/
def Ty.size : Ty → Nat
  | .i64 => 8
  | .arr n => 8 * n
  | .bytes n => n

/-- `value.Value`s the compiler handles. (llir values; irbuilder.go:19-21, expressions.go:17) -/
inductive Val where
  /-- `constant.NewInt(i64, n)` -/
  | const (n : W)
  /-- the result of an instruction -/
  | reg (id : Nat)
  /-- `*ir.Global`: symbol and content type -/
  | glob (sym : Name) (ty : Ty)
  /-- `*ir.Func`: symbol, `Sig.Variadic`, `len(Params)` -/
  | func (sym : Name) (variadic : Bool) (nparams : Nat)
  /-- `fn.Params[0]` of the current function -/
  | param
deriving DecidableEq, Repr

/-- integer instructions with two operands (llir; expressions.go:255-272, 315, 330, 373, 409, 467-491) -/
inductive BinOp where
  | add | sub | mul | sdiv | srem | and | or | shl | ashr
deriving DecidableEq, Repr

/-- `enum.IPred` values used (llir; expressions.go:124-433, parser_stmt.go:367, 464) -/
inductive Pred where
  | eq | ne | slt | sle | sgt | sge
deriving DecidableEq, Repr

/-- Instructions. (llir; made in expressions.go, irbuilder.go:335-441, parser_stmt.go:367, 464) -/
inductive Inst where
  | alloca (ty : Ty)
  | load (src : Val)
  | store (src dst : Val)
  | bin (op : BinOp) (x y : Val)
  | icmp (p : Pred) (x y : Val)
  | zext (x : Val)
  | inttoptr (x : Val)
  /-- `inttoptr` to a pointer to a function type with `fixed` fixed parameters -/
  | inttofn (x : Val) (fixed : Nat)
  | ptrtoint (x : Val)
  /-- `getelementptr ty, base, 0, i` -/
  | gepField (ty : Ty) (base : Val) (i : Nat)
  /-- `getelementptr i64, base, idx` -/
  | gepWord (base idx : Val)
  /-- `bitcast` of a function symbol to pointer to variadic function with one fixed parameter -/
  | bitcast (f : Val)
  | call (callee : Val) (args : List Val)
  | vaarg (list : Val)
  | phi (v1 : Val) (b1 : Nat) (v2 : Val) (b2 : Nat)
deriving DecidableEq, Repr

/-- Terminators; block operands are block indices. (llir; made at the places cited at `setTerm`) -/
inductive Term where
  | ret (v : Val)
  | br (b : Nat)
  | condbr (c : Val) (t e : Nat)
  | switch (v : Val) (dflt : Nat) (cases : List (W × Nat))
deriving DecidableEq, Repr

/-- `*ir.Block`: name, instructions (each with its result number), terminator (`Term == nil` is `none`).
(llir; irbuilder.go:498-525) -/
structure Block where
  name : Name
  insts : List (Nat × Inst)
  term : Option Term
deriving DecidableEq, Repr

/-- `*ir.Func`. (llir; irbuilder.go:223-276, 528-537) -/
structure Func where
  sym : Name
  params : List Name
  variadic : Bool
  blocks : List Block
deriving DecidableEq, Repr

/-- the function as a value (llir; irbuilder.go:21, 445-468) -/
def Func.val (f : Func) : Val := .func f.sym f.variadic f.params.length

/-- Constants used as global initialisers. (llir constants; irbuilder.go:122-220, parser_decls.go:198-244) -/
inductive Const where
  | int (n : W)
  /-- `ptrtoint (getelementptr ty, @sym, 0, i)` -/
  | addr (sym : Name) (ty : Ty) (i : Nat)
deriving DecidableEq, Repr

/-- Initialiser of a global definition. (llir constants; irbuilder.go:122-220, 484-487) -/
inductive GInit where
  | word (c : Const)
  | arr (n : Nat) (cs : List Const)
  | zero (n : Nat)
  | bytes (bs : List (BitVec 8))
deriving DecidableEq, Repr

/-- `Global.ContentType` is the type of the initialiser. (llir) -/
def GInit.ty : GInit → Ty
  | .word _ => .i64
  | .arr n _ => .arr n
  | .zero n => .arr n
  | .bytes bs => .bytes bs.length

/-- `*ir.Global`; `priv`: private, unnamed_addr, immutable (string constants).
(llir; irbuilder.go:126-206, 487-491) -/
structure GlobalDef where
  sym : Name
  init : GInit
  priv : Bool
deriving DecidableEq, Repr

/-- the global as a value (llir; irbuilder.go:19-20) -/
def GlobalDef.val (g : GlobalDef) : Val := .glob g.sym g.init.ty

/-- `*ir.Module`. (llir; irbuilder.go:16) -/
structure Module where
  globals : List GlobalDef
  funcs : List Func
deriving DecidableEq, Repr

end Blang
