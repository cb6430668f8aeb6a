import Verif.Model.Decl
import Verif.Model.Runtime
import Verif.Spec.IRSem
import Lean.Data.Json
/-
Runs B programs through the model: `compileFile`, then an interpreter for the emitted code that follows `Spec/IRSem.lean`,
then the model of the runtime library.  Compares the output with what the project's own tests demand.
Not part of any proof.
-/
open Blang
deriving instance Inhabited for Blang.Block
deriving instance Inhabited for Blang.Func

structure Rt where
  mem : ByteArray
  sp : Nat
  out : ByteArray
  input : List Byte
  exited : Bool
  steps : Nat

abbrev memSize : Nat := 1 <<< 22

structure Ctx where
  st : IO.Ref Rt
  funcs : Array Func
  addr : Std.HashMap Name W
  stop : Nat

def rd8 (m : ByteArray) (a : W) : Byte := if a.toNat < m.size then BitVec.ofNat 8 (m.get! a.toNat).toNat else 0

def Ctx.load (c : Ctx) (a : W) : IO W := do
  let s ← c.st.get
  if a.toNat + 8 > s.mem.size then throw (.userError s!"load at {a}")
  let mut v : Nat := 0
  for i in [0:8] do v := v + (s.mem.get! (a.toNat + i)).toNat <<< (8 * i)
  pure (BitVec.ofNat 64 v)

def Ctx.store (c : Ctx) (a v : W) : IO Unit := do
  if a.toNat + 8 > memSize then throw (.userError s!"store at {a}")
  c.st.modify fun s => Id.run do
    let mut m := s.mem
    let s := { s with mem := ByteArray.empty }
    for i in [0:8] do m := m.set! (a.toNat + i) (UInt8.ofNat ((v.toNat >>> (8 * i)) % 256))
    pure { s with mem := m }

def os : OS := { write := fun _ n => n, read := fun _ => .ok 1000000000 }

/-- a function of the runtime library, through the model -/
def Ctx.rt {α : Type} (c : Ctx) (act : RT α) (touched : α → List W) : IO α := do
  let s ← c.st.get
  let m := s.mem
  let r0 : RTState := { mem := rd8 m, input := fun d => if d = 0 then s.input else [], trace := [], fout := 0,
                        exited := none, reads := 0, os := os }
  match act r0 with
  | .err _ => throw (.userError "runtime error")
  | .ok a r => do
    let out := r.trace.foldl (fun o p => if p.1 = 1 then p.2.foldl (fun o b => o.push (UInt8.ofNat b.toNat)) o else o) s.out
    let upd := (touched a).map fun x => (x.toNat, UInt8.ofNat (r.mem x).toNat)
    c.st.modify fun s => { s with out := out, input := r.input 0, exited := r.exited.isSome }
    for (x, b) in upd do
      c.st.modify fun s => let m := s.mem; let s := { s with mem := ByteArray.empty }; { s with mem := m.set! x b }
    if r.exited.isSome then throw (.userError "EXIT")
    if c.stop > 0 && out.size ≥ c.stop then throw (.userError "EXIT")
    pure a

partial def Ctx.call (c : Ctx) (a : W) (args : List W) : IO W := do
  let idx := (a.toNat - 0x1000) / 16
  if a.toNat < 0x1000 || a.toNat % 16 ≠ 0 || idx ≥ c.funcs.size then throw (.userError s!"call of {a}")
  let f := c.funcs[idx]!
  if f.blocks.isEmpty then
    let arg (i : Nat) : W := args.getD i 0xDEADBEEF
    let junk : Nat → Byte := fun _ => 0xAA
    let nm := String.ofList f.sym
    let fuel := 1000000
    match nm with
    | "b.printf" => let _ ← c.rt (rtPrintf true fuel junk (arg 0) (fun i => arg (i + 1))) fun _ => []; pure 0
    | "b.printd" => let _ ← c.rt (rtPrintd fuel junk (arg 0)) fun _ => []; pure 0
    | "b.printo" => let _ ← c.rt (rtPrinto fuel junk (arg 0)) fun _ => []; pure 0
    | "b.write" => let _ ← c.rt (rtWrite (arg 0)) fun _ => []; pure 0
    | "b.writeb" => let _ ← c.rt (rtWriteb (arg 0)) fun _ => []; pure 0
    | "b.read" => c.rt (rtRead true) fun _ => []
    | "b.nread" => c.rt (rtNread (arg 0) (arg 1) (arg 2)) fun n => (List.range n.toNat).map fun i => arg 1 + BitVec.ofNat 64 i
    | "b.nwrite" => c.rt (rtNwrite (arg 0) (arg 1) (arg 2)) fun _ => []
    | "b.char" => c.rt (rtChar true (arg 0) (arg 1)) fun _ => []
    | "b.lchar" => let _ ← c.rt (rtLchar (arg 0) (arg 1) (arg 2)) fun _ => [arg 0 + arg 1]; pure 0
    | "b.exit" => let _ ← c.rt rtExit fun _ => []; pure 0
    | "b.flush" => pure 0
    | n => throw (.userError s!"unknown function {n}")
  else
    let sp0 := (← c.st.get).sp
    let blocks := f.blocks.toArray
    let mut regs : Std.HashMap Nat W := {}
    let mut va : List W := []
    let mut blk := 0
    let mut prev := 0
    let mut result : Option W := none
    let val (regs : Std.HashMap Nat W) : Val → IO W
      | .const n => pure n
      | .reg r => match regs[r]? with | some w => pure w | none => throw (.userError "unset register")
      | .glob s _ => match c.addr[s]? with | some w => pure w | none => throw (.userError "no global")
      | .func s _ _ => match c.addr[s]? with | some w => pure w | none => throw (.userError s!"no function")
      | .param => match args with | x :: _ => pure x | [] => pure 0xDEADBEEF
    while result.isNone do
      let b := blocks[blk]!
      for (i, inst) in b.insts do
        let mut r : W := 0
        match inst with
        | .alloca ty =>
          let s ← c.st.get
          let sp := s.sp - ((ty.size + 7) / 8 * 8)
          c.st.modify fun s => { s with sp := sp }
          r := BitVec.ofNat 64 sp
        | .load src => r ← c.load (← val regs src)
        | .store src dst => c.store (← val regs dst) (← val regs src)
        | .bin o x y => match Spec.BinOp.sem (← val regs x) (← val regs y) o with
          | some v => r := v
          | none => throw (.userError "undefined operation")
        | .icmp p x y => r := if Spec.Pred.sem (← val regs x) (← val regs y) p then 1 else 0
        | .zext x | .inttoptr x | .inttofn x _ | .ptrtoint x | .bitcast x => r ← val regs x
        | .gepField ty b k => r := (← val regs b) + BitVec.ofNat 64 (Spec.elemSize ty * k)
        | .gepWord b k => r := (← val regs b) + 8 * (← val regs k)
        | .call fv xs =>
          let s := match fv with | .func s _ _ => String.ofList s | _ => ""
          if s == "llvm.va_start" then va := args.drop 1
          else if s == "llvm.va_end" then pure ()
          else
            let vs ← xs.mapM (val regs)
            r ← c.call (← val regs fv) vs
        | .vaarg _ => match va with
          | x :: rest => r := x; va := rest
          | [] => r := 0xDEADBEEF
        | .phi v1 b1 v2 b2 => if prev = b1 then r ← val regs v1 else if prev = b2 then r ← val regs v2
                              else throw (.userError "phi")
        regs := regs.insert i r
      match b.term with
      | none => throw (.userError "no terminator")
      | some (.ret v) => result := some (← val regs v)
      | some (.br l) => prev := blk; blk := l
      | some (.condbr x t e) => let v ← val regs x; prev := blk; blk := if v ≠ 0 then t else e
      | some (.switch x d cs) => let v ← val regs x; prev := blk; blk := ((cs.find? fun p => p.1 = v).map (·.2)).getD d
    c.st.modify fun s => { s with sp := sp0 }
    pure (result.getD 0)

def runProgram (code : List (BitVec 8)) (stdin : List Byte) (stop : Nat) : IO (String × ByteArray) := do
  match compileFile code .eof with
  | .error e => pure (s!"compile error {repr e}", ByteArray.empty)
  | .ok m =>
    let funcs := m.funcs.toArray
    let mut addr : Std.HashMap Name W := {}
    for i in [0:funcs.size] do addr := addr.insert funcs[i]!.sym (BitVec.ofNat 64 (0x1000 + 16 * i))
    let mut p := 0x10000
    for g in m.globals do
      addr := addr.insert g.sym (BitVec.ofNat 64 p)
      p := p + (g.init.ty.size + 15 + 16) / 16 * 16
    -- stack is filled with junk
    let mut mem := ByteArray.mk (Array.replicate memSize 0xA5)
    let st ← IO.mkRef { mem := mem, sp := memSize - 64, out := ByteArray.empty, input := stdin, exited := false, steps := 0 : Rt }
    let c : Ctx := { st, funcs, addr, stop }
    let cval : Const → W
      | .int n => n
      | .addr s ty i => (addr[s]?).getD 0 + BitVec.ofNat 64 (Spec.elemSize ty * i)
    for g in m.globals do
      let a := (addr[g.sym]?).getD 0
      match g.init with
      | .word k => c.store a (cval k)
      | .arr n cs =>
        if cs.length ≠ n then return ("array initialiser of wrong length", ByteArray.empty)
        let mut i := 0
        for k in cs do c.store (a + BitVec.ofNat 64 (8 * i)) (cval k); i := i + 1
      | .zero n => for i in [0:n] do c.store (a + BitVec.ofNat 64 (8 * i)) 0
      | .bytes bs =>
        let mut i := 0
        for b in bs do
          let x := a.toNat + i
          c.st.modify fun s => let m := s.mem; let s := { s with mem := ByteArray.empty }; { s with mem := m.set! x (UInt8.ofNat b.toNat) }
          i := i + 1
    match addr["main".toList]?.or addr["b.main".toList]? with
    | none => pure ("no main", ByteArray.empty)
    | some a =>
      try
        let v ← c.call a []
        pure (s!"returned {v.toInt}", (← c.st.get).out)
      catch e => pure (toString e, (← c.st.get).out)

def bytesOf (j : Lean.Json) (k : String) : IO (List (BitVec 8)) := do
  let a ← IO.ofExcept (j.getObjVal? k >>= (·.getArr?))
  a.toList.mapM fun x => do pure (BitVec.ofNat 8 (← IO.ofExcept x.getNat?))

def show8 (b : ByteArray) : String := String.ofList (b.toList.map fun c => Char.ofNat c.toNat)

def isSub (a b : List UInt8) : Bool := b.isPrefixOf a || match a with | [] => false | _ :: t => isSub t b

def main (argv : List String) : IO Unit := do
  let j ← IO.ofExcept (Lean.Json.parse (← IO.FS.readFile argv[0]!))
  let tests ← IO.ofExcept j.getArr?
  let mut ok := 0
  for t in tests do
    let name ← IO.ofExcept (t.getObjVal? "name" >>= (·.getStr?))
    let mode ← IO.ofExcept (t.getObjVal? "mode" >>= (·.getStr?))
    if argv.length > 1 && argv[1]! ≠ name then continue
    let want ← bytesOf t "want"
    if mode == "error" || mode == "compile" then
      let got := match compileFile (← bytesOf t "code") .eof with
        | .ok _ => "compiles"
        | .error (.msg m) => m
        | .error e => toString (repr e)
      let w := String.ofList (want.map fun b => Char.ofNat b.toNat)
      if (mode == "compile" && got == "compiles") || (mode == "error" && got ≠ "compiles" && isSub got.toUTF8.toList w.toUTF8.toList) then ok := ok + 1
      else IO.println s!"{name}: {got} wanted {w} {mode}"
      continue
    let (res, out) ← runProgram (← bytesOf t "code") (← bytesOf t "stdin") (if mode == "prefix" then want.length else 0)
    let w := want.map fun b => UInt8.ofNat b.toNat
    let good := match mode with
      | "sub" => isSub out.toList w
      | "prefix" => w.isPrefixOf out.toList
      | _ => out.toList == w
    if good then ok := ok + 1
    else IO.println s!"FAIL {name}: {res}: {repr (show8 out)} wanted {repr (String.ofList (w.map fun c => Char.ofNat c.toNat))}"
    (← IO.getStdout).flush
  IO.println s!"{ok} of {tests.size} as demanded"
