import Verif.Model.Lexer
/-
Model of the runtime library `runtime/*.c`.

* `word_t`/`uintptr_t` are 64-bit words (`W`); C's `-x` on `word_t` is taken as two's complement
  negation (signed overflow at the minimum is undefined in C; this is what the machine does).
* Memory is a total map from addresses to bytes.  Local `char` buffers are lists of their own with
  explicit bounds checks: an access outside is the error `msg "out of bounds"`.
* A `write` system call appends `(fd, data)` to a trace and returns whatever the system (`OS`) answers; how much of the data
  is really accepted is up to the system.
* A `read` system call fails, or takes bytes from the input of the descriptor: as many as asked for, or fewer if the
  system wants so or at the end.
* `signedChar` says whether plain `char` is signed (x86-64: yes; aarch64 and riscv64 Linux: no).
* `va_arg` beyond the arguments passed is undefined in C; arguments are an infinite stream whose tail
  is arbitrary.
-/
namespace Blang

/-- `char`, runtime/*.c -/
abbrev Byte := BitVec 8

/-- what the operating system decides
(system calls of nread.c:16, nwrite.c:16, read.c:11, write.c:20, writeb.c:13) -/
structure OS where
  /-- the result of the i-th `write`, given the number of bytes -/
  write : Nat → W → W
  /-- the i-th `read` fails with that result, or delivers at most that many bytes -/
  read : Nat → Except W Nat

/-- the state the runtime library acts on (memory, `b_fout` (writeb.c:6), and the system calls made) -/
structure RTState where
  mem : W → Byte
  /-- what is still to be read, by descriptor -/
  input : W → List Byte
  trace : List (W × List Byte)
  /-- `b_fout` (writeb.c:6) -/
  fout : W
  /-- the first `SYS_exit`: its status, and the number of `write` calls made before it -/
  exited : Option (W × Nat)
  /-- number of `read` system calls so far -/
  reads : Nat
  os : OS

/-- functions of runtime/*.c -/
abbrev RT := M RTState

/-- `syscall(SYS_write, fd, buf, n)` (x86_64.h, aarch64.h, riscv64.h) with the data already fetched. -/
def sysWrite (fd : W) (data : List Byte) : RT W := fun s =>
  .ok (s.os.write s.trace.length (BitVec.ofNat 64 data.length)) { s with trace := s.trace ++ [(fd, data)] }

/-- `syscall(SYS_read, fd, buf, n)`: the result and the data; the memory is left to the caller.
(nread.c:16, read.c:11; x86_64.h:4, aarch64.h:4, riscv64.h:4) -/
def sysRead (fd : W) (n : Nat) : RT (W × List Byte) := fun s =>
  match s.os.read s.reads with
  | .error e => .ok (e, []) { s with reads := s.reads + 1 }
  | .ok k =>
    let got := (s.input fd).take (min n k)
    .ok (BitVec.ofNat 64 got.length, got)
      { s with reads := s.reads + 1, input := fun d => if d = fd then (s.input fd).drop (min n k) else s.input d }

/-- the bytes at `addr`, `addr+1`, ... (nwrite.c:16) -/
def memBytes (mem : W → Byte) (addr : W) (n : Nat) : List Byte :=
  (List.range n).map fun i => mem (addr + BitVec.ofNat 64 i)

/-- `b_nwrite` (nwrite.c:8-17). -/
def rtNwrite (file buffer count : W) : RT W := do
  let s ← M.get
  sysWrite file (memBytes s.mem buffer count.toNat)

/-- `b_nread` (nread.c:8-17): the bytes delivered are stored at `buffer`. -/
def rtNread (file buffer count : W) : RT W := do
  let r ← sysRead file count.toNat
  M.modify fun s => { s with mem := fun a => (r.2[(a - buffer).toNat]?).getD (s.mem a) }
  pure r.1

/-- conversion of a plain `char` to `word_t` (char.c:13, read.c:11-14) -/
def charToWord (signedChar : Bool) (b : Byte) : W :=
  if signedChar then b.signExtend 64 else b.setWidth 64

/-- `b_char` (char.c:6-14). -/
def rtChar (signedChar : Bool) (string i : W) : RT W := do
  let s ← M.get
  pure (charToWord signedChar (s.mem (string + i)))

/-- `b_lchar` (lchar.c:6-15). -/
def rtLchar (string i chr : W) : RT Unit :=
  M.modify fun s => { s with mem := fun a => if a = string + i then chr.setWidth 8 else s.mem a }

/-- `*--p = b` on a local buffer: `p` is an index into `buf`. (printd.c:19, 24, printo.c:15) -/
def pushFront (buf : List Byte) (p : Nat) (b : Byte) : RT (List Byte × Nat) :=
  if 0 < p ∧ p ≤ buf.length then pure (buf.set (p - 1) b, p - 1) else M.throw (.msg "out of bounds")

/-- `'0' + (char)(d)` (printd.c:19, printo.c:15) -/
def digitByte (d : W) : Byte := 48 + d.setWidth 8

/-- One round of the `do ... while` loop of `b_printd` (printd.c:18-21); loop variables `value`,
`buf`, `p`. -/
def printdBody (st : W × List Byte × Nat) : RT (Iter (W × List Byte × Nat) (List Byte × Nat)) := do
  let r ← pushFront st.2.1 st.2.2 (digitByte (st.1 % 10))
  if st.1 / 10 ≠ 0 then pure (.next (st.1 / 10, r.1, r.2)) else pure (.done r)

/-- `b_nwrite(b_fout + 1, (word_t)p, (word_t)(end - p))` (printd.c:27, printo.c:19) with `p`
pointing into a local buffer. -/
def writeBuf (buf : List Byte) (p : Nat) : RT Unit := do
  let s ← M.get
  let _ ← sysWrite (s.fout + 1) (buf.drop p)
  pure ()

/-- `if (negative) *--p = '-'` (printd.c:23-25) -/
def pushSign (neg : Bool) (r : List Byte × Nat) : RT (List Byte × Nat) :=
  if neg then pushFront r.1 r.2 45 else pure r

/-- `b_printd` (printd.c:6-28). `junk` is the initial content of `buf`, whose size is
`2 + sizeof(word_t) * 3 = 26`; `fuel` bounds the loop. -/
def rtPrintd (fuel : Nat) (junk : Nat → Byte) (n : W) : RT Unit := do
  let negative := n.slt 0
  let value := if negative then 1 + ~~~n else n
  let r ← loop fuel printdBody (value, (List.range 26).map junk, 26)
  let r ← pushSign negative r
  writeBuf r.1 r.2

/-- One round of the loop of `b_printo` (printo.c:14-17). -/
def printoBody (st : W × List Byte × Nat) : RT (Iter (W × List Byte × Nat) (List Byte × Nat)) := do
  let r ← pushFront st.2.1 st.2.2 (digitByte (st.1 &&& 7))
  if st.1 >>> 3 ≠ 0 then pure (.next (st.1 >>> 3, r.1, r.2)) else pure (.done r)

/-- `b_printo` (printo.c:7-20); the buffer has `(sizeof(uintptr_t) * 8 + 2) / 3 = 22` bytes. -/
def rtPrinto (fuel : Nat) (junk : Nat → Byte) (n : W) : RT Unit := do
  let r ← loop fuel printoBody (n, (List.range 22).map junk, 22)
  writeBuf r.1 r.2

/-- The loop of `b_write` (write.c:13-19), `k` rounds left (`len = 8 - k`): `acc` are the bytes
stored so far (`p - buf` of them). -/
def writeLoop : Nat → W → List Byte → List Byte
  | 0, _, acc => acc
  | k + 1, input, acc =>
    let byte : Byte := (input >>> 56).setWidth 8
    writeLoop k (input <<< 8) (if byte ≠ 0 ∨ acc ≠ [] ∨ k = 0 then acc ++ [byte] else acc)

/-- `b_write` (write.c:6-21). -/
def rtWrite (ch : W) : RT Unit := do
  let s ← M.get
  let _ ← sysWrite (s.fout + 1) (writeLoop 8 ch [])
  pure ()

/-- `b_writeb` (writeb.c:11-14): the byte at the address of `c` (little-endian). -/
def rtWriteb (c : W) : RT Unit := do
  let s ← M.get
  let _ ← sysWrite (s.fout + 1) [c.setWidth 8]
  pure ()

/-- The `%s` loop (printf.c:49-50). -/
def printfStrBody (sc : Bool) (x : W) (j : W) : RT (Iter W Unit) := do
  let c ← rtChar sc x j
  if c ≠ 0 then do
    rtWrite c
    pure (.next (j + 1))
  else pure (.done ())

/-- `if (x < 0) { x = -x; b_write('-'); }` (printf.c:25-28, 34-37); returns the new `x`. -/
def printfSign (x : W) : RT W :=
  if x.slt 0 then do
    rtWrite 45
    pure (-x)
  else pure x

/-- The `switch` of `b_printf` on the character after `%` (printf.c:22-59); `i` is the index after
it, `k` counts the arguments used.  Returns the new `i` and `k`. -/
def printfConv (sc : Bool) (fuel : Nat) (junk : Nat → Byte) (args : Nat → W) (i : W) (k : Nat) (c : W) :
    RT (W × Nat) :=
  if c = 100 then do
    let x ← printfSign (args k)
    rtPrintd fuel junk x
    pure (i, k + 1)
  else if c = 111 then do
    let x ← printfSign (args k)
    rtPrinto fuel junk x
    pure (i, k + 1)
  else if c = 99 then do
    rtWrite (args k)
    pure (i, k + 1)
  else if c = 115 then do
    loop fuel (printfStrBody sc (args k)) 0
    pure (i, k + 1)
  else if c = 37 then do
    rtWrite 37
    pure (i, k)
  else do
    rtWrite 37
    pure (i - 1, k)

/-- One round through `loop:` resp. the `while` of `b_printf` (printf.c:16-61). -/
def printfBody (sc : Bool) (fuel : Nat) (junk : Nat → Byte) (fmt : W) (args : Nat → W) (st : W × Nat) :
    RT (Iter (W × Nat) Unit) := do
  let c ← rtChar sc fmt st.1
  if c ≠ 37 then
    if c = 0 then pure (.done ())
    else do
      rtWrite c
      pure (.next (st.1 + 1, st.2))
  else do
    let c ← rtChar sc fmt (st.1 + 1)
    let r ← printfConv sc fuel junk args (st.1 + 2) st.2 c
    pure (.next r)

/-- `b_printf` (printf.c:10-63). -/
def rtPrintf (sc : Bool) (fuel : Nat) (junk : Nat → Byte) (fmt : W) (args : Nat → W) : RT Unit :=
  loop fuel (printfBody sc fuel junk fmt args) (0, 0)

/-- `b_read` (read.c:7-22); `char c = 0` is what the byte is if the system reports success without a byte, which it does not. -/
def rtRead (sc : Bool) : RT W := do
  let r ← sysRead 0 1
  if r.1 = 1 then
    let c := charToWord sc (r.2.headD 0)
    pure (if (0 : W).slt c ∧ c.sle 127 then c else 0)
  else pure 4

/-- `syscall(SYS_exit, status, 0, 0)`: the process ends.  The model goes on, but what follows is not part of what the process
does: see `RTState.status` and `RTState.output`. (exit.c:8, start.c:14) -/
def sysExit (status : W) : RT Unit :=
  M.modify fun s => { s with exited := s.exited.or (some (status, s.trace.length)) }

/-- the status with which the process has ended (what the parent process sees after exit.c:8, start.c:14) -/
def RTState.status (s : RTState) : Option W := s.exited.map (·.1)

/-- the `write` calls the process has made: those before its end (nwrite.c:16, write.c:20, writeb.c:13) -/
def RTState.output (s : RTState) : List (W × List Byte) :=
  match s.exited with
  | none => s.trace
  | some e => s.trace.take e.2

/-- `b_exit` (exit.c:6-9). -/
def rtExit : RT Unit := sysExit 0

/-- `b_flush` (flush.c:3-6). -/
def rtFlush : RT Unit := pure ()

/-- `b_start` (start.c:9-15): runs `main` and exits with its result. -/
def rtStart (main : RT W) : RT Unit := do
  let code ← main
  sysExit code

end Blang
