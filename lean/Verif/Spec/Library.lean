import Verif.Spec.Wrong
import Verif.Spec.Numerals
import Verif.Model.Runtime
/-
Whole programs: a module linked with the runtime library, running as a process.

What the functions of the library do is said twice: by `Library.Runs`, in terms of the model of their code, and by
`Documented`, in terms of what they write, read and return.
-/
namespace Blang.Spec

/-- the functions of the runtime library that return to their caller (runtime/runtime.h:29-52); `exit` does not -/
inductive LibFn where
  | char | lchar | read | nread | writeb | write | nwrite | printd | printo | printf | flush
  deriving DecidableEq

/-- their names in B -/
def LibFn.name : LibFn → List Char
  | .char => "char".toList
  | .lchar => "lchar".toList
  | .read => "read".toList
  | .nread => "nread".toList
  | .writeb => "writeb".toList
  | .write => "write".toList
  | .nwrite => "nwrite".toList
  | .printd => "printd".toList
  | .printo => "printo".toList
  | .printf => "printf".toList
  | .flush => "flush".toList

/-- the number of their parameters (of the fixed ones, for `printf`) -/
def LibFn.arity : LibFn → Nat
  | .char => 2
  | .lchar => 3
  | .read => 0
  | .nread => 3
  | .writeb => 1
  | .write => 1
  | .nwrite => 3
  | .printd => 1
  | .printo => 1
  | .printf => 1
  | .flush => 0

/-- what the C compiler and the calling convention decide -/
structure Library where
  /-- plain `char` is signed -/
  signedChar : Bool
  /-- what local buffers contain at first -/
  junk : RTState → Nat → BitVec 8
  /-- what a variadic function finds beyond the arguments passed -/
  beyond : RTState → Nat → Word
  /-- what a function without result leaves as result, given the state in which it ends -/
  void : RTState → Word

/-- the arguments as a variadic function sees them -/
def Library.stream (L : Library) (s : RTState) (args : List Word) (i : Nat) : Word := args[i]?.getD (L.beyond s i)

/-- The code of the library function, called with at least as many arguments as it has parameters, returns. (`printf`, `printd` and `printo`
contain loops: they end if any large number of rounds is allowed.) -/
inductive Library.Runs (L : Library) : LibFn → List Word → RTState → Word → RTState → Prop where
  | char {a i more s v s'} : rtChar L.signedChar a i s = .ok v s' → L.Runs .char (a :: i :: more) s v s'
  | lchar {a i c more s s'} : rtLchar a i c s = .ok () s' → L.Runs .lchar (a :: i :: c :: more) s (L.void s') s'
  | read {args s v s'} : rtRead L.signedChar s = .ok v s' → L.Runs .read args s v s'
  | nread {f b n more s v s'} : rtNread f b n s = .ok v s' → L.Runs .nread (f :: b :: n :: more) s v s'
  | writeb {c more s s'} : rtWriteb c s = .ok () s' → L.Runs .writeb (c :: more) s (L.void s') s'
  | write {c more s s'} : rtWrite c s = .ok () s' → L.Runs .write (c :: more) s (L.void s') s'
  | nwrite {f b n more s v s'} : rtNwrite f b n s = .ok v s' → L.Runs .nwrite (f :: b :: n :: more) s v s'
  | printd {n more s s'} : (∃ k, ∀ fuel, k ≤ fuel → rtPrintd fuel (L.junk s) n s = .ok () s') →
      L.Runs .printd (n :: more) s (L.void s') s'
  | printo {n more s s'} : (∃ k, ∀ fuel, k ≤ fuel → rtPrinto fuel (L.junk s) n s = .ok () s') →
      L.Runs .printo (n :: more) s (L.void s') s'
  | printf {fmt args s s'} : (∃ k, ∀ fuel, k ≤ fuel →
        rtPrintf L.signedChar fuel (L.junk s) fmt (L.stream s args) s = .ok () s') →
      L.Runs .printf (fmt :: args) s (L.void s') s'
  | flush {args s s'} : rtFlush s = .ok () s' → L.Runs .flush args s (L.void s') s'

/-- `s'` is `s` except that exactly the bytes `bs` have been written to the current output, in one or more pieces -/
def Wrote (s : RTState) (bs : List (BitVec 8)) (s' : RTState) : Prop :=
  ∃ ws, s' = { s with trace := s.trace ++ ws } ∧ (∀ w ∈ ws, w.1 = s.fout + 1) ∧ (ws.map (·.2)).flatten = bs

/-- the value of a character: from -128 to 127 or from 0 to 255 -/
def charNumber (sc : Bool) (b : BitVec 8) : Word := if sc then BitVec.ofInt 64 b.toInt else BitVec.ofNat 64 b.toNat

/-- the bytes at `a`, `a + 1`, ... -/
def HasBytes (mem : Mem) (a : Word) (bs : List (BitVec 8)) : Prop := ∀ i (h : i < bs.length), mem (a + BitVec.ofNat 64 i) = bs[i]

/-- the system delivers these bytes of the file `fd`, or fails with `e` -/
def Delivers (s : RTState) (fd : Word) (most : Nat) (s' : RTState) : Except Word (List (BitVec 8)) → Prop
  | .error e => s.os.read s.reads = .error e ∧ s' = { s with reads := s.reads + 1 }
  | .ok bs => ∃ lim rest, s.os.read s.reads = .ok lim ∧ s.input fd = bs ++ rest ∧ bs.length = min (min most lim) (s.input fd).length ∧
      s' = { s with reads := s.reads + 1, input := fun d => if d = fd then rest else s.input d }

/-- What the library functions are documented to do: result and new state.  A function without result may return anything. -/
inductive Documented (sc : Bool) : LibFn → List Word → RTState → Word → RTState → Prop where
  /-- the i-th character of the string -/
  | char {a i more s} : Documented sc .char (a :: i :: more) s (charNumber sc (s.mem (a + i))) s
  /-- changes the i-th character of the string, nothing else -/
  | lchar {a i c more s v s'} : s'.mem (a + i) = BitVec.ofNat 8 c.toNat → (∀ b, b ≠ a + i → s'.mem b = s.mem b) →
      s' = { s with mem := s'.mem } → Documented sc .lchar (a :: i :: c :: more) s v s'
  /-- the next character of the standard input, 0 if it is not ASCII -/
  | read {args s b s'} : Delivers s 0 1 s' (.ok [b]) →
      Documented sc .read args s (if b.toNat < 128 then BitVec.ofNat 64 b.toNat else 0) s'
  /-- 4 at the end, or if the system delivers nothing -/
  | readEnd {args s s'} : Delivers s 0 1 s' (.ok []) → Documented sc .read args s 4 s'
  /-- 4 if the system reports an error (1, which the system does not use to report one, would count as a character 0) -/
  | readError {args s e s'} : Delivers s 0 1 s' (.error e) → Documented sc .read args s (if e = 1 then 0 else 4) s'
  /-- the bytes delivered are put into memory; the result is their number -/
  | nread {f b n more s bs s1 s'} : Delivers s f n.toNat s1 (.ok bs) → HasBytes s'.mem b bs →
      (∀ a, (∀ i < bs.length, a ≠ b + BitVec.ofNat 64 i) → s'.mem a = s.mem a) → s' = { s1 with mem := s'.mem } →
      Documented sc .nread (f :: b :: n :: more) s (BitVec.ofNat 64 bs.length) s'
  | nreadError {f b n more s e s'} : Delivers s f n.toNat s' (.error e) → Documented sc .nread (f :: b :: n :: more) s e s'
  /-- one byte -/
  | writeb {c more s v s'} : Wrote s [BitVec.ofNat 8 c.toNat] s' → Documented sc .writeb (c :: more) s v s'
  /-- the characters packed in the word -/
  | write {c more s v bs s'} : PackedChars c bs → Wrote s bs s' → Documented sc .write (c :: more) s v s'
  /-- `n` bytes from memory to the file `f`; the result is what the system answers -/
  | nwrite {f b n more s bs s'} : bs.length = n.toNat → HasBytes s.mem b bs → s' = { s with trace := s.trace ++ [(f, bs)] } →
      Documented sc .nwrite (f :: b :: n :: more) s (s.os.write s.trace.length n) s'
  /-- the number in decimal -/
  | printd {n more s v ds s'} : IntNumeral 10 n.toInt ds → Wrote s (codes ds) s' → Documented sc .printd (n :: more) s v s'
  /-- the number, taken as unsigned, in octal -/
  | printo {n more s v ds s'} : Numeral 8 n.toNat ds → Wrote s (codes ds) s' → Documented sc .printo (n :: more) s v s'
  /-- the format with the arguments filled in; missing arguments may be anything -/
  | printf {fmt args s v f more out s'} : StrAt s.mem fmt f → Printed sc (StrAt s.mem) f (args ++ more) out → Wrote s out s' →
      Documented sc .printf (fmt :: args) s v s'
  | flush {args s v} : Documented sc .flush args s v s

/-- what the system keeps of a process besides its memory (`fout` is the variable of the library) -/
structure Sys where
  input : Word → List (BitVec 8)
  trace : List (Word × List (BitVec 8))
  fout : Word
  exited : Option (Word × Nat)
  reads : Nat
  os : OS

/-- A machine on which processes run: how it reserves and releases storage, and where it puts things. -/
structure Computer where
  Stack : Type
  alloc : Stack → Nat → Word × Stack
  leave : Stack → Stack → Stack
  addr : List Char → Word

/-- the emitted code on that machine -/
def Computer.machine (C : Computer) : IRMachine where
  World := C.Stack × Sys
  alloc w n := ((C.alloc w.1 n).1, (C.alloc w.1 n).2, w.2)
  leave w w' := (C.leave w.1 w'.1, w'.2)
  addr := C.addr

/-- the state as the library sees it -/
def Computer.see (C : Computer) (σ : Store C.machine.World) : RTState :=
  { mem := σ.mem, input := σ.world.2.input, trace := σ.world.2.trace, fout := σ.world.2.fout, exited := σ.world.2.exited,
    reads := σ.world.2.reads, os := σ.world.2.os }

/-- the store in which the library has left the state `s` -/
def Computer.put (C : Computer) (σ : Store C.machine.World) (s : RTState) : Store C.machine.World :=
  ⟨s.mem, σ.world.1, s.input, s.trace, s.fout, s.exited, s.reads, s.os⟩

/-- external functions: those of the library, each at the address of its symbol -/
def Computer.calls (C : Computer) (run : LibFn → List Word → RTState → Word → RTState → Prop) : Calls C.machine.World :=
  fun a args σ v σ' => ∃ f : LibFn, a = C.addr (symbolOf f.name) ∧ ∃ s', run f args (C.see σ) v s' ∧ σ' = C.put σ s'

/-- The program, started in `σ` with the external functions `X`, comes to an end: `main` returns the status, or `exit` is called
somewhere (status 0); `σ'` is the store then. -/
def Program.Ends (p : Program) (M : BMachine) (X : Calls M.World) (σ : Store M.World) (status : Word) (σ' : Store M.World) : Prop :=
  p.Returns M X (M.global "main".toList) [] σ status σ' ∨
  status = 0 ∧ ∃ vs, p.Makes M X "main".toList [] σ (M.global "exit".toList) vs σ'

/-- the same for the emitted code -/
def Module.Ends (m : Module) (M : IRMachine) (X : Calls M.World) (σ : Store M.World) (status : Word) (σ' : Store M.World) : Prop :=
  Module.Returns m M X (M.addr (symbolOf "main".toList)) [] σ status σ' ∨
  status = 0 ∧ ∃ vs, Module.Makes m M X (M.addr (symbolOf "main".toList)) [] σ (M.addr (symbolOf "exit".toList)) vs σ'

/-- The module can be linked with the library: it does not define a function of the library, and functions are at different addresses. -/
structure Module.Links (m : Module) (addr : List Char → Word) : Prop where
  apart : ∀ f ∈ m.funcs, ∀ g ∈ m.funcs, f.blocks ≠ [] → g.blocks ≠ [] → addr f.sym = addr g.sym → f.sym = g.sym
  library : ∀ f ∈ m.funcs, f.blocks ≠ [] → ∀ g : LibFn, addr f.sym ≠ addr (symbolOf g.name)
  names : ∀ f g : LibFn, addr (symbolOf f.name) = addr (symbolOf g.name) → f = g
  exit : (∀ f ∈ m.funcs, f.blocks ≠ [] → addr f.sym ≠ addr (symbolOf "exit".toList)) ∧
    ∀ g : LibFn, addr (symbolOf "exit".toList) ≠ addr (symbolOf g.name)

end Blang.Spec
