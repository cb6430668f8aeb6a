import Verif.Model.Decl
import Verif.Spec.Grammar
/-
The code generator as a function of the syntax tree.

The Go code parses and generates in one pass.  Here the generation part is separated from the text:
`genL`, `genSt`, `genProg` run the same builder operations in the same order, driven by a tree.
`Proofs/Sound.lean` proves that whenever the model of the Go parser accepts a text, it did what
`genProg` does on the tree of that text.
-/
namespace Blang
open Spec

/-- operator of the IR for a B operator -/
def opOf : Bop → Op
  | .mul => .bin .mul | .div => .bin .sdiv | .mod => .bin .srem
  | .add => .bin .add | .sub => .bin .sub
  | .shl => .bin .shl | .shr => .bin .ashr
  | .lt => .cmp .slt | .le => .cmp .sle | .gt => .cmp .sgt | .ge => .cmp .sge
  | .eq => .cmp .eq | .ne => .cmp .ne
  | .band => .bin .and | .bor => .bin .or

def dirOp : Dir → BinOp
  | .inc => .add
  | .dec => .sub

def bfail {α : Type} (s : String) : B α := M.throw (.msg s)

/-- a name that is not called: `getAddress`, else `funcValue` -/
def genVar (name : Name) : B LV := do
  match ← getAddress name with
  | some addr => pure (addr, true)
  | none => do
    let c ← M.get
    match findFuncByName c name with
    | some fn => do
      let v ← emit (.ptrtoint fn.val)
      pure (v, false)
    | none => do
      match ← getOrDeclareFunction name with
      | some fn => do
        let v ← emit (.ptrtoint fn)
        pure (v, false)
      | none => bfail ("undefined identifier '" ++ String.ofList name ++ "'")

/-- a name that is called: `callee` -/
def genCallee (name : Name) : B LV := do
  let c ← M.get
  match findFuncByName c name with
  | some fn => pure (fn.val, false)
  | none =>
    match lookup name c.ctx with
    | some g => pure (g, true)
    | none => do
      match ← getOrDeclareFunction name with
      | none => bfail ("cannot declare function '" ++ String.ofList name ++ "'")
      | some fn => pure (fn, false)

/-- fails unless the value is an lvalue -/
def needLval (v : LV) : B Val := if v.2 then pure v.1 else bfail "expected lvalue"

/-- the blocks of `?:` and the branch to them -/
def condStart (cond : Val) : B (Nat × Nat × Nat) := do
  let condID ← freshLabelID
  let thenBlock ← newBlock ("cond.then.".toList ++ natDec condID)
  let elseBlock ← newBlock ("cond.else.".toList ++ natDec condID)
  let endBlock ← newBlock ("cond.end.".toList ++ natDec condID)
  let cmp ← emit (.icmp .ne cond (.const 0))
  setTerm (.condbr cmp thenBlock elseBlock)
  pure (thenBlock, elseBlock, endBlock)

mutual
/-- code of an expression: value and lvalue flag -/
def genL : Ex → B LV
  | .num v => pure (.const v, false)
  | .str s => do
    let v ← genStr (s.map Char.ofNat)
    pure (v, false)
  | .var x => genVar x
  | .paren e => do
    let v ← genL e
    let v ← rval v
    pure (v, false)
  | .index a i => do
    let v ← genL a
    let base ← rval v
    let ptr ← emit (.inttoptr base)
    let i ← genL i
    let i ← rval i
    let elem ← emit (.gepWord ptr i)
    pure (elem, true)
  | .callName f args => do
    let v ← genCallee f
    let fn ← rval v
    let vs ← genArgs args
    let r ← genCall fn vs
    pure (r, false)
  | .call f args => do
    let v ← genL f
    let fn ← rval v
    let vs ← genArgs args
    let r ← genCall fn vs
    pure (r, false)
  | .post d e => do
    let v ← genL e
    let a ← needLval v
    let r ← genPostfix (dirOp d) a
    pure (r, false)
  | .pre d e => do
    let v ← genL e
    let a ← needLval v
    genPrefix (dirOp d) a
    pure (a, true)
  | .not e => do
    let v ← genL e
    let r ← genNot v
    pure (r, false)
  | .neg e => do
    let v ← genL e
    let r ← genNeg v
    pure (r, false)
  | .deref e => do
    let v ← genL e
    let r ← genDeref v
    pure (r, true)
  | .addr e => do
    let v ← genL e
    let a ← needLval v
    let r ← emit (.ptrtoint a)
    pure (r, false)
  | .bin o l r => do
    let x ← genL l
    let x ← rval x
    let y ← genL r
    let y ← rval y
    let v ← genOp (opOf o) x y
    pure (v, false)
  | .cond c t e => do
    let v ← genL c
    let cond ← rval v
    let (thenBlock, elseBlock, endBlock) ← condStart cond
    setInsertPoint thenBlock
    let tv ← genL t
    let thenVal ← rval tv
    let thenEnd ← getInsertBlock
    setTerm (.br endBlock)
    setInsertPoint elseBlock
    let ev ← genL e
    let elseVal ← rval ev
    let elseEnd ← getInsertBlock
    setTerm (.br endBlock)
    setInsertPoint endBlock
    let v ← emit (.phi thenVal thenEnd elseVal elseEnd)
    pure (v, false)
  | .assign o l r => do
    let v ← genL l
    let a ← needLval v
    let rv ← genL r
    let right ← rval rv
    let v ← genAssign (o.map opOf) a right
    pure (v, false)

/-- code of call arguments, left to right -/
def genArgs : List Ex → B (List Val)
  | [] => pure []
  | e :: es => do
    let v ← genL e
    let v ← rval v
    let vs ← genArgs es
    pure (v :: vs)
end

/-- code of an expression whose value is needed -/
def genR (e : Ex) : B Val := do
  let v ← genL e
  rval v

/-- the check and declaration of one `auto` statement: all names are checked first -/
def autoCheck (seen : List Name) : List (Name × Option Word) → B Unit
  | [] => pure ()
  | d :: ds => do
    let c ← M.get
    if d.1 ∈ seen ∨ (lookup d.1 c.locals).isSome then
      bfail ("identifier '" ++ String.ofList d.1 ++ "' already defined in this scope")
    else autoCheck (d.1 :: seen) ds

/-- size as passed to `declareOne`: -1 for a scalar -/
def autoSizeOf (d : Name × Option Word) : Name × W := (d.1, d.2.getD (-1))

/-- code of `extrn` -/
def genExtrn : List Name → B Unit
  | [] => pure ()
  | x :: xs => do
    declareExtrn x
    genExtrn xs

/-- code of a labelled position -/
def genLabel (l : Name) : B Unit := do
  let block ← getOrCreateLabel l
  brIfOpen block
  setInsertPoint block

/-- code of `goto` -/
def genGoto (l : Name) : B Unit := do
  let target ← getOrCreateLabel l
  setTerm (.br target)
  let c ← M.get
  let dead ← newBlock ("unreachable.".toList ++ natDec c.labelID)
  let _ ← freshLabelID
  setInsertPoint dead

/-- the blocks of `if` and the branch to them -/
def ifStart (cond : Val) : B (Nat × Nat × Nat) := do
  let ifID ← freshLabelID
  let thenBlock ← newBlock ("if.".toList ++ natDec ifID ++ ".then".toList)
  let elseBlock ← newBlock ("if.".toList ++ natDec ifID ++ ".else".toList)
  let endBlock ← newBlock ("if.".toList ++ natDec ifID ++ ".end".toList)
  let cmp ← emit (.icmp .ne cond (.const 0))
  setTerm (.condbr cmp thenBlock elseBlock)
  pure (thenBlock, elseBlock, endBlock)

/-- the blocks of `while` -/
def whileStart : B (Nat × Nat × Nat) := do
  let whileID ← freshLabelID
  let condBlock ← newBlock ("while.".toList ++ natDec whileID ++ ".cond".toList)
  let bodyBlock ← newBlock ("while.".toList ++ natDec whileID ++ ".body".toList)
  let endBlock ← newBlock ("while.".toList ++ natDec whileID ++ ".end".toList)
  setTerm (.br condBlock)
  setInsertPoint condBlock
  pure (condBlock, bodyBlock, endBlock)

/-- the blocks of `switch` -/
def switchStart (switchID : Nat) : B (Nat × Nat) := do
  let stmtsBlock ← newBlock ("switch.".toList ++ natDec switchID ++ ".stmts".toList)
  let cmpBlock ← newBlock ("switch.".toList ++ natDec switchID ++ ".cmp".toList)
  let endBlock ← newBlock ("switch.".toList ++ natDec switchID ++ ".end".toList)
  setTerm (.br cmpBlock)
  setInsertPoint stmtsBlock
  pure (cmpBlock, endBlock)

/-- Code of a statement; `sw` is the enclosing switch (lost inside `if` and `while`), the list is
that of the case values collected so far. -/
def genSt : St → Option Nat → Cases → B Cases
  | .skip, _, cs => pure cs
  | .seq s t, sw, cs => do
    let cs ← genSt s sw cs
    genSt t sw cs
  | .expr e, _, cs => do
    let _ ← genR e
    pure cs
  | .ret none, _, cs => do
    setTerm (.ret (.const 0))
    pure cs
  | .ret (some e), _, cs => do
    let v ← genR e
    setTerm (.ret v)
    pure cs
  | .auto ds, _, cs => do
    autoCheck [] ds
    declareAll (ds.map autoSizeOf)
    pure cs
  | .extrn xs, _, cs => do
    genExtrn xs
    pure cs
  | .ifThen c t, _, cs => do
    let cond ← genR c
    let (thenBlock, elseBlock, endBlock) ← ifStart cond
    setInsertPoint thenBlock
    let _ ← genSt t none []
    brIfOpen endBlock
    setInsertPoint elseBlock
    brIfOpen endBlock
    setInsertPoint endBlock
    pure cs
  | .ifElse c t e, _, cs => do
    let cond ← genR c
    let (thenBlock, elseBlock, endBlock) ← ifStart cond
    setInsertPoint thenBlock
    let _ ← genSt t none []
    brIfOpen endBlock
    setInsertPoint elseBlock
    let _ ← genSt e none []
    brIfOpen endBlock
    setInsertPoint endBlock
    pure cs
  | .while c b, _, cs => do
    let (condBlock, bodyBlock, endBlock) ← whileStart
    let cond ← genR c
    let cmp ← emit (.icmp .ne cond (.const 0))
    setTerm (.condbr cmp bodyBlock endBlock)
    setInsertPoint bodyBlock
    let _ ← genSt b none []
    brIfOpen condBlock
    setInsertPoint endBlock
    pure cs
  | .switch e b, _, cs => do
    let switchID ← freshLabelID
    let switchVal ← genR e
    let (cmpBlock, endBlock) ← switchStart switchID
    let caseList ← genSt b (some switchID) []
    brIfOpen endBlock
    setInsertPoint cmpBlock
    switchTerm switchID switchVal endBlock caseList
    setInsertPoint endBlock
    pure cs
  | .case v s, sw, cs =>
    match sw with
    | none => bfail "unexpected 'case' outside of 'switch' statements"
    | some switchID => do
      genLabel (caseName switchID v)
      genSt s sw (cs ++ [v])
  | .label l s, sw, cs => do
    genLabel l
    genSt s sw cs
  | .goto l, _, cs => do
    genGoto l
    pure cs

/-- an initial value -/
def genIval : Ival → B Const
  | .int v => pure (.int v)
  | .str s => do
    let g ← createStringConstant (s.map Char.ofNat)
    pure (.addr g.sym g.init.ty 0)

def genIvals : List Ival → B (List Const)
  | [] => pure []
  | v :: vs => do
    let c ← genIval v
    let cs ← genIvals vs
    pure (c :: cs)

/-- the global of a declaration with initial values -/
def declareVals (x : Name) (cs : List Const) : B Unit :=
  match cs with
  | [] => declareGlobal x none
  | [v] => declareGlobal x (some v)
  | vals => declareGlobalWithMultipleValues x vals

/-- code of a declaration -/
def genDecl : Decl → B Unit
  | .global x vals => do
    M.modify fun c => removeGlobalByName c x
    let cs ← genIvals vals
    declareVals x cs
  | .vector x n vals => do
    M.modify fun c => removeGlobalByName c x
    let cs ← genIvals vals
    declareGlobalArray x (if n = 0 then BitVec.ofNat 64 cs.length else n) cs
  | .func f params body => do
    let fn ← declareFunction f params
    startFunction fn
    let _ ← genSt body none []
    endFunction

/-- code of a program -/
def genProg : Program → B Unit
  | [] => pure ()
  | d :: p => do
    genDecl d
    clearTopLevelContext
    genProg p

end Blang
