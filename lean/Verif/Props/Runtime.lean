import Verif.Proofs.Runtime
/-
Properties C46-C51 and C55: the runtime library.

`Emits m s a out` (Verif/Proofs/Runtime.lean) says: started in state `s`, the function `m` ends
normally with result `a`, changes neither memory nor input nor anything else, makes only writes to
the current output descriptor, and the bytes written, concatenated, are `out`.  Accesses outside a
local buffer and missing fuel would be errors, so `Emits` excludes them.
-/
namespace Blang.Props
open Blang Blang.Spec

/-- a system that writes everything and delivers what is asked for -/
def _root_.Blang.OS.willing : OS := ⟨fun _ n => n, fun _ => .ok (2 ^ 64)⟩

/-- No `read` fails, and each delivers at least one byte if there is any. -/
def _root_.Blang.OS.Reads (o : OS) : Prop := ∀ i, ∃ k, o.read i = .ok k ∧ 1 ≤ k

/-- a failure is reported by a negative number -/
def _root_.Blang.OS.Honest (o : OS) : Prop := ∀ i e, o.read i = .error e → e.toInt < 0

/-! ## C46 -/

/-- C46. `printd(n)` prints the shortest decimal numeral of the signed value, for every word, and
does not overrun its buffer. `junk` is the initial content of the buffer. -/
theorem C46_printd (junk : Nat → Byte) (n : W) (s : RTState) :
    ∃ ds, IntNumeral 10 n.toInt ds ∧ Emits (rtPrintd 26 junk n) s () (codes ds) :=
  printd_emits junk n s 26 (Nat.le_refl _)

/-- C46. There is only one such numeral. -/
theorem C46_unique {n : Int} {d1 d2 : List Char} (h1 : IntNumeral 10 n d1) (h2 : IntNumeral 10 n d2) : d1 = d2 :=
  intNumeral_unique (by omega) h1 h2

example : IntNumeral 10 (BitVec.intMin 64).toInt "-9223372036854775808".toList :=
  ⟨"9223372036854775808".toList, ⟨by decide, by decide +kernel, by decide, by decide⟩, by decide +kernel⟩

/-! ## C47 -/

/-- C47. `printo(n)` prints the shortest octal numeral of the unsigned value, for every word, and
does not overrun its buffer. -/
theorem C47_printo (junk : Nat → Byte) (n : W) (s : RTState) :
    ∃ ds, Numeral 8 n.toNat ds ∧ Emits (rtPrinto 22 junk n) s () (codes ds) :=
  printo_emits junk n s 22 (Nat.le_refl _)

/-- C47. There is only one such numeral. -/
theorem C47_unique {n : Nat} {d1 d2 : List Char} (h1 : Numeral 8 n d1) (h2 : Numeral 8 n d2) : d1 = d2 :=
  numeral_unique (by omega) h1 h2

example : Numeral 8 (-1 : W).toNat "1777777777777777777777".toList :=
  ⟨by decide, by decide +kernel, by decide, by decide⟩

/-! ## C48 -/

/-- C48. `write(w)` prints the characters packed in `w`, for every word. -/
theorem C48_write (w : W) (s : RTState) : ∃ bs, PackedChars w bs ∧ Emits (rtWrite w) s () bs :=
  ⟨_, write_packed w, emits_write w s⟩

theorem C48_unique {w : W} {b1 b2 : List Byte} (h1 : PackedChars w b1) (h2 : PackedChars w b2) : b1 = b2 :=
  packed_unique h1 h2

/-- C48. In particular: a constant made of 1 to 8 characters, the first not NUL, is written as
exactly these characters. -/
theorem C48_write_constant {bs : List Byte} (hne : bs ≠ []) (hlen : bs.length ≤ 8) (h0 : bs.head? ≠ some 0)
    (s : RTState) : Emits (rtWrite (BitVec.ofNat 64 (pack (bs.map (·.toNat))))) s () bs := by
  have hpk : ∀ bs : List Byte, pack (bs.map (·.toNat)) = beValue bs := by
    intro bs
    induction bs with
    | nil => rfl
    | cons b bs ih => simp [pack, beValue, ih]
  have hlt : ∀ bs : List Byte, beValue bs < 256 ^ bs.length := by
    intro bs
    induction bs with
    | nil => simp [beValue]
    | cons b bs ih =>
      have := b.isLt
      simp only [beValue, List.length_cons, Nat.pow_succ]
      calc b.toNat * 256 ^ bs.length + beValue bs < b.toNat * 256 ^ bs.length + 256 ^ bs.length := by omega
        _ = (b.toNat + 1) * 256 ^ bs.length := by rw [Nat.add_mul, Nat.one_mul]
        _ ≤ 256 * 256 ^ bs.length := Nat.mul_le_mul_right _ (by omega)
        _ = _ := Nat.mul_comm _ _
  have h2 : PackedChars (BitVec.ofNat 64 (pack (bs.map (·.toNat)))) bs := by
    refine ⟨?_, hne, fun h => absurd h h0⟩
    have h1 := hlt bs
    have h3 : 256 ^ bs.length ≤ 256 ^ 8 := Nat.pow_le_pow_right (by omega) hlen
    rw [hpk, BitVec.toNat_ofNat, Nat.mod_eq_of_lt (by omega)]
  have := emits_write (BitVec.ofNat 64 (pack (bs.map (·.toNat)))) s
  rwa [packed_unique (write_packed _) h2] at this

example : codes "hello!".toList ≠ [] ∧ (codes "hello!".toList).length ≤ 8 ∧ (codes "hello!".toList).head? ≠ some 0 := by
  decide

/-! ## C49 -/

/-- C49, what `printf` does in all cases: for every format and argument list it prints exactly `Printed`, one write after the
other, and nothing else.  Arguments beyond `as` may be anything. -/
theorem C49_printed {sc : Bool} {junk : Nat → Byte} {fmt : W} {args : Nat → W} {s : RTState} {fuel : Nat}
    {f : List Byte} {as : List W} {out : List Byte}
    (hfmt : StrAt s.mem fmt f) (hargs : ∀ i (h : i < as.length), args i = as[i])
    (hexp : Printed sc (StrArg s.mem fuel) f as out) (hfuel : 26 ≤ fuel) (hfuel' : f.length < fuel) :
    Emits (rtPrintf sc fuel junk fmt args) s () out := by
  have := loop_printf (fmt := fmt) (junk := junk) (args := args) hfuel hexp [] 0 s fuel rfl
    (by simpa using hfmt) (by simpa using hargs) hfuel'
  simpa [rtPrintf] using this

/-- C49. `Printed` covers everything: there is an output for every format and every list of enough arguments, provided that
each of them that is used for `%s` is a string. -/
theorem C49_total (sc : Bool) (str : W → List Byte → Prop) (f : List Byte) : ∀ as : List W, f.length ≤ as.length →
    (∀ x ∈ as, ∃ bs, str x bs) → ∃ out, Printed sc str f as out := by
  suffices h : ∀ n (f : List Byte), f.length ≤ n → ∀ as : List W, f.length ≤ as.length →
      (∀ x ∈ as, ∃ bs, str x bs) → ∃ out, Printed sc str f as out from h f.length f (Nat.le_refl _)
  intro n
  induction n with
  | zero =>
    intro f hf as _ _
    have : f = [] := List.length_eq_zero_iff.1 (by omega)
    subst this
    exact ⟨_, .done⟩
  | succ n ih =>
    intro f hf as hl hs
    match f with
    | [] => exact ⟨_, .done⟩
    | c :: f =>
      simp only [List.length_cons] at hf hl
      by_cases hc : c = 37
      · subst hc
        match f with
        | [] =>
          obtain ⟨o, h⟩ := ih [] (by simp) as (by simp) hs
          exact ⟨_, .unknown (by simp) h⟩
        | d :: f =>
          simp only [List.length_cons] at hf hl
          match as with
          | [] => simp at hl
          | x :: as =>
            simp only [List.length_cons] at hl
            obtain ⟨o, h⟩ := ih f (by omega) as (by omega) fun x hx => hs x (by simp [hx])
            by_cases h1 : d = 100
            · subst h1
              by_cases hx : x = BitVec.intMin 64
              · subst hx; exact ⟨_, .smallest h⟩
              · obtain ⟨ds, hd, _⟩ := C46_printd (fun _ => 0) x ⟨fun _ => 0, fun _ => [], [], 0, none, 0, .willing⟩
                exact ⟨_, .decimal hx hd h⟩
            by_cases h2 : d = 111
            · subst h2
              obtain ⟨ds, hd, _⟩ := C47_printo (fun _ => 0) (BitVec.ofNat 64 x.toInt.natAbs) ⟨fun _ => 0, fun _ => [], [], 0, none, 0, .willing⟩
              have e : (BitVec.ofNat 64 x.toInt.natAbs).toNat = x.toInt.natAbs := by
                rw [BitVec.toNat_ofNat]
                have := x.isLt
                have := BitVec.toInt_eq_toNat_cond x
                split at this <;> omega
              rw [e] at hd
              exact ⟨_, .octal ⟨ds, hd, rfl⟩ h⟩
            by_cases h3 : d = 99
            · subst h3
              obtain ⟨bs, hb, _⟩ := C48_write x ⟨fun _ => 0, fun _ => [], [], 0, none, 0, .willing⟩
              exact ⟨_, .char hb h⟩
            by_cases h4 : d = 115
            · subst h4
              obtain ⟨bs, hb⟩ := hs x (by simp)
              exact ⟨_, .string hb h⟩
            by_cases h5 : d = 37
            · subst h5
              obtain ⟨o, h⟩ := ih f (by omega) (x :: as) (by simp; omega) hs
              exact ⟨_, .percent h⟩
            · obtain ⟨o, h⟩ := ih (d :: f) (by simp; omega) (x :: as) (by simp; omega) hs
              refine ⟨_, .unknown ?_ h⟩
              intro c hc
              simp at hc
              subst hc
              simp only [List.mem_cons, List.not_mem_nil, or_false, not_or]
              exact ⟨h1, h2, h3, h4, h5⟩
      · obtain ⟨o, h⟩ := ih f (by omega) as (by omega) hs
        exact ⟨_, .plain hc h⟩

/-- what is printed for a format with a byte of 128 or more, `%d` of the smallest number, and `%x` -/
example : Printed true (fun _ _ => False) (0xE9 :: codes "%d%x".toList) [BitVec.intMin 64]
    ([255, 255, 255, 255, 255, 255, 255, 0xE9] ++ (codes "--9223372036854775808".toList ++ codes "%x".toList)) :=
  .plain (c := 0xE9) (by decide) (.smallest (.unknown (by decide) (.plain (c := 120) (by decide) .done)))

/-- C49. For every format string and argument list, `printf` prints the expansion of the format.
Not covered (`_partial`): a `%d`/`%o` argument equal to the most negative word (see
`C49_min_misprinted`), and bytes above 127 where plain `char` is signed (see
`C49_signed_char_misprinted`).  `GoodArgs` says that a `%s` argument is the address of a
NUL-terminated string (shorter than the fuel, ASCII where plain `char` is signed).  Arguments
beyond `as` may be anything. -/
theorem C49_printf_partial {sc : Bool} {junk : Nat → Byte} {fmt : W} {args : Nat → W} {s : RTState} {fuel : Nat}
    {f : List Byte} {as : List W} {out : List Byte}
    (hfmt : StrAt s.mem fmt f) (hplain : Plain sc f) (hargs : ∀ i (h : i < as.length), args i = as[i])
    (hexp : Expand (GoodArgs sc s.mem fuel) f as out) (hmin : ∀ x ∈ as, x ≠ BitVec.intMin 64)
    (hfuel : 26 ≤ fuel) (hfuel' : f.length < fuel) :
    Emits (rtPrintf sc fuel junk fmt args) s () out := by
  exact C49_printed hfmt hargs (printed_of_expand hexp hplain hmin) hfuel hfuel'

/-- A memory holding `bs` followed by NULs from address 0 on. -/
def memWith (bs : List Byte) : W → Byte := fun a => (bs[a.toNat]?).getD 0

example : -- "%d%s%c%%\n" with -5, "ab", 'xy'
    let mem := memWith (codes "%d%s%c%%\n".toList ++ [0] ++ codes "ab".toList)
    StrAt mem 0 (codes "%d%s%c%%\n".toList) ∧ Plain true (codes "%d%s%c%%\n".toList) ∧
    Expand (GoodArgs true mem 50) (codes "%d%s%c%%\n".toList) [-5, 10, 0x7879] (codes "-5abxy%\n".toList) := by
  refine ⟨?_, ?_, ?_⟩
  · unfold StrAt; decide
  · unfold Plain; decide
  · refine .decimal (ds := "-5".toList) ⟨"5".toList, ⟨by decide, by decide, by decide, by decide⟩, by decide⟩ ?_
    refine .string (bs := codes "ab".toList) ⟨?_, ?_, by decide⟩ ?_
    · unfold StrAt; decide
    · unfold Plain; decide
    refine .char (bs := codes "xy".toList) ⟨by decide, by decide, by decide⟩ ?_
    exact .percent (.plain (by decide) .done)

/-- the bytes written by a run -/
def written (r : R RTState Unit) : List Byte :=
  match r with
  | .ok _ s => (s.trace.map (·.2)).flatten
  | .err _ => []

/-- C49 fails for the most negative word: `%d` prints two minus signs. -/
theorem C49_min_misprinted :
    written (rtPrintf true 30 (fun _ => 0) 0 (fun _ => BitVec.intMin 64) ⟨memWith (codes "%d".toList), fun _ => [], [], 0, none, 0, .willing⟩) =
      codes "--9223372036854775808".toList := by decide +kernel

/-- C49 fails for bytes above 127 where plain `char` is signed: the one byte 0xE9 is printed as eight. -/
theorem C49_signed_char_misprinted :
    written (rtPrintf true 30 (fun _ => 0) 0 (fun _ => 0) ⟨memWith [0xE9], fun _ => [], [], 0, none, 0, .willing⟩) =
      [0xFF, 0xFF, 0xFF, 0xFF, 0xFF, 0xFF, 0xFF, 0xE9] := by decide +kernel

/-! ## C50 -/

/-- C50. `lchar` stores the low byte and changes no other byte; `char` reads it back (as the value
of a plain `char`); nothing but memory changes. -/
theorem C50_lchar_char (sc : Bool) (a i c : W) (s : RTState) :
    ∃ s', rtLchar a i c s = .ok () s' ∧
      s'.mem (a + i) = c.setWidth 8 ∧ (∀ b, b ≠ a + i → s'.mem b = s.mem b) ∧
      s'.input = s.input ∧ s'.trace = s.trace ∧ s'.fout = s.fout ∧ s'.exited = s.exited ∧
      rtChar sc a i s' = .ok (charToWord sc (c.setWidth 8)) s' := by
  refine ⟨_, rfl, by simp, fun b hb => by simp [hb], rfl, rfl, rfl, rfl, ?_⟩
  rw [rtChar_apply]; simp

/-- C50. For characters 0..127 `char` returns the character itself, whether or not `char` is
signed. -/
theorem C50_char_ascii (sc : Bool) (a i c : W) (hc : c.toNat < 128) (s s' : RTState)
    (h : rtLchar a i c s = .ok () s') : rtChar sc a i s' = .ok c s' := by
  obtain ⟨t, h1, _, _, _, _, _, _, h2⟩ := C50_lchar_char sc a i c s
  rw [h] at h1; cases h1
  rw [h2]
  congr 1
  apply BitVec.eq_of_toNat_eq
  rw [charToWord_ascii]
  · simp; omega
  · intro _; simp; omega

example : (65 : W).toNat < 128 := by decide

/-! ## C51 -/

/-- `n` successive calls of `read()`. -/
def readMany (sc : Bool) : Nat → RT (List W)
  | 0 => pure []
  | n + 1 => do
    let x ← rtRead sc
    let xs ← readMany sc n
    pure (x :: xs)

/-- the value `read` is documented to return for an input byte -/
def readValue (b : Byte) : W := if b.toNat < 128 then BitVec.ofNat 64 b.toNat else 0

/-- what `read` returns for what a system call delivers -/
theorem rtRead_value (sc : Bool) (b : Byte) :
    (if (0 : W).slt (charToWord sc b) ∧ (charToWord sc b).sle 127 then charToWord sc b else 0) = readValue b := by
  revert sc b; decide +kernel

/-- the descriptors' input after taking `n` bytes from `fd` -/
def takeIn (input : W → List Byte) (fd : W) (n : Nat) : W → List Byte := fun d => if d = fd then (input fd).drop n else input d

theorem sysRead_ok {fd : W} {n k : Nat} {s : RTState} (h : s.os.read s.reads = .ok k) :
    sysRead fd n s = .ok (BitVec.ofNat 64 ((s.input fd).take (min n k)).length, (s.input fd).take (min n k))
      { s with reads := s.reads + 1, input := takeIn s.input fd (min n k) } := by
  unfold sysRead; rw [h]; rfl

theorem sysRead_error {fd : W} {n : Nat} {e : W} {s : RTState} (h : s.os.read s.reads = .error e) :
    sysRead fd n s = .ok (e, []) { s with reads := s.reads + 1 } := by
  unfold sysRead; rw [h]

/-- C51. Each call of `read()` delivers the next byte of the input (0 for bytes above 127); 4 at the end of the
input and when the system call fails or delivers nothing. -/
theorem C51_read_one (sc : Bool) (s : RTState) (ho : s.os.Honest) :
    ∃ s', s'.mem = s.mem ∧ s'.trace = s.trace ∧ s'.fout = s.fout ∧ s'.exited = s.exited ∧ s'.os = s.os ∧ s'.reads = s.reads + 1 ∧
      match s.os.read s.reads, s.input 0 with
      | .ok (_ + 1), b :: rest => rtRead sc s = .ok (readValue b) s' ∧ s'.input = fun d => if d = 0 then rest else s.input d
      | _, _ => rtRead sc s = .ok 4 s' ∧ s'.input = s.input := by
  cases hr : s.os.read s.reads with
  | error e =>
    refine ⟨{ s with reads := s.reads + 1 }, rfl, rfl, rfl, rfl, rfl, rfl, ?_, rfl⟩
    unfold rtRead
    rw [M.bind_ok (sysRead_error hr), if_neg]
    · rfl
    · have := ho _ _ hr
      rintro rfl
      revert this; decide
  | ok k =>
    have hin : ∀ n, s.input 0 = [] → takeIn s.input 0 n = s.input := by
      intro n h; funext d; unfold takeIn; split
      · rename_i h'; subst h'; rw [h]; simp
      · rfl
    cases hi : s.input 0 with
    | nil =>
      refine ⟨{ s with reads := s.reads + 1 }, rfl, rfl, rfl, rfl, rfl, rfl, ?_⟩
      have : rtRead sc s = .ok 4 { s with reads := s.reads + 1 } := by
        unfold rtRead
        rw [M.bind_ok (sysRead_ok hr), hin _ hi, if_neg]
        · rfl
        · rw [hi]; simp
      cases k <;> exact ⟨this, rfl⟩
    | cons b rest =>
      cases k with
      | zero =>
        refine ⟨{ s with reads := s.reads + 1 }, rfl, rfl, rfl, rfl, rfl, rfl, ?_, rfl⟩
        unfold rtRead
        rw [M.bind_ok (sysRead_ok hr), if_neg]
        · have : takeIn s.input 0 0 = s.input := by
            funext d; unfold takeIn; split
            · rename_i h'; subst h'; simp
            · rfl
          show R.ok _ { s with reads := s.reads + 1, input := takeIn s.input 0 (min 1 0) } = _
          rw [show min 1 0 = 0 from rfl, this]
        · simp
      | succ k =>
        refine ⟨{ s with reads := s.reads + 1, input := fun d => if d = 0 then rest else s.input d }, rfl, rfl, rfl, rfl, rfl, rfl, ?_, rfl⟩
        unfold rtRead
        have hm : min 1 (k + 1) = 1 := by omega
        have ht : takeIn s.input 0 1 = fun d => if d = 0 then rest else s.input d := by
          funext d; unfold takeIn; rw [hi]; rfl
        rw [M.bind_ok (sysRead_ok hr), hm, ht, hi, if_pos (by rfl)]
        show R.ok _ _ = R.ok _ _
        rw [← rtRead_value sc b]
        rfl

/-- C51. Any number of calls deliver the bytes of the input in order, each once (0 for bytes above
127), then 4 for ever; here no system call fails (see `C51_read_one`). -/
theorem C51_read (sc : Bool) (n : Nat) (s : RTState) (ho : s.os.Reads) :
    ∃ s', readMany sc n s = .ok (((s.input 0).take n).map readValue ++ List.replicate (n - (s.input 0).length) 4) s' ∧
      s'.input 0 = (s.input 0).drop n := by
  have hh : s.os.Honest := by
    intro i e h
    obtain ⟨k, h', _⟩ := ho i
    rw [h] at h'; cases h'
  induction n generalizing s with
  | zero => exact ⟨s, by simp [readMany], by simp⟩
  | succ n ih =>
    obtain ⟨s1, _, _, _, _, hos, _, h⟩ := C51_read_one sc s hh
    obtain ⟨k, hk, h1⟩ := ho s.reads
    obtain ⟨k, rfl⟩ : ∃ k', k = k' + 1 := ⟨k - 1, by omega⟩
    rw [hk] at h
    obtain ⟨s', h3, h4⟩ := ih s1 (by rw [hos]; exact ho) (by rw [hos]; exact hh)
    cases hi : s.input 0 with
    | nil =>
      rw [hi] at h
      obtain ⟨h1, h2⟩ := h
      rw [h2, hi] at h3 h4
      refine ⟨s', ?_, by rw [h4]; simp⟩
      rw [readMany, M.bind_ok h1, M.bind_ok h3]
      simp [List.replicate_succ]
    | cons b rest =>
      rw [hi] at h
      obtain ⟨h1, h2⟩ := h
      have h2' : s1.input 0 = rest := by rw [h2]; rfl
      rw [h2'] at h3 h4
      refine ⟨s', ?_, by rw [h4]; simp⟩
      rw [readMany, M.bind_ok h1, M.bind_ok h3]
      simp

example : OS.willing.Reads ∧ OS.willing.Honest := ⟨fun _ => ⟨_, rfl, by decide⟩, fun _ _ h => by cases h⟩

example : (codes "hi".toList).map readValue = [104, 105] := by decide

/-- C51. If the system call does not fail, `nread(file, buf, n)` returns the number of bytes delivered (`n`, or what is left of the
input of that file, or as much as the system wants to deliver), stores exactly these bytes, in order, at `buf`, leaves every
other byte of memory alone, and consumes exactly them. -/
theorem C51_nread (file buffer count : W) (s : RTState) {lim : Nat} (ho : s.os.read s.reads = .ok lim) :
    ∃ (k : Nat) (s' : RTState), rtNread file buffer count s = .ok (BitVec.ofNat 64 k) s' ∧
      k = min (min count.toNat lim) (s.input file).length ∧
      (∃ got : List Byte, got.length = k ∧ s.input file = got ++ s'.input file ∧
        ∀ (i : Nat) (h : i < got.length), s'.mem (buffer + BitVec.ofNat 64 i) = got[i]) ∧
      (∀ a : W, (∀ i : Nat, i < k → a ≠ buffer + BitVec.ofNat 64 i) → s'.mem a = s.mem a) ∧
      (∀ d, d ≠ file → s'.input d = s.input d) ∧
      s'.trace = s.trace ∧ s'.fout = s.fout ∧ s'.exited = s.exited := by
  refine ⟨_, { s with
      mem := fun a => (((s.input file).take (min count.toNat lim))[(a - buffer).toNat]?).getD (s.mem a)
      reads := s.reads + 1
      input := takeIn s.input file (min count.toNat lim) }, ?_, rfl, ⟨(s.input file).take (min count.toNat lim), ?_, ?_, ?_⟩, ?_, ?_, rfl, rfl, rfl⟩
  · unfold rtNread
    rw [M.bind_ok (sysRead_ok ho), List.length_take]
    rfl
  · simp
  · simp [takeIn]
  · intro i h
    have hi : i < 2 ^ 64 := by
      have := count.isLt
      simp at h; omega
    have e : (buffer + BitVec.ofNat 64 i - buffer).toNat = i := by
      rw [show buffer + BitVec.ofNat 64 i - buffer = BitVec.ofNat 64 i by
        rw [BitVec.add_comm, BitVec.add_sub_cancel]]
      simp; omega
    dsimp only
    rw [e, List.getElem?_eq_getElem h]
    rfl
  · intro a ha
    dsimp only
    by_cases hk : (a - buffer).toNat < ((s.input file).take (min count.toNat lim)).length
    · refine absurd ?_ (ha (a - buffer).toNat (by rw [List.length_take] at hk; exact hk))
      rw [BitVec.ofNat_toNat, BitVec.setWidth_eq, BitVec.add_comm, BitVec.sub_add_cancel]
    · rw [List.getElem?_eq_none (Nat.not_lt.1 hk)]
      rfl
  · intro d hd
    show takeIn s.input file _ d = _
    unfold takeIn
    rw [if_neg hd]

/-- C51. If the system call fails, `nread` returns what the system reports and changes nothing. -/
theorem C51_nread_error (file buffer count : W) (s : RTState) {e : W} (ho : s.os.read s.reads = .error e) :
    rtNread file buffer count s = .ok e { s with reads := s.reads + 1 } := by
  unfold rtNread
  rw [M.bind_ok (sysRead_error ho)]
  rfl

/-- a concrete input: three of five bytes; and a system that delivers one byte at a time -/
example : (∃ s' : RTState, rtNread 0 100 3 ⟨fun _ => 0, fun _ => codes "hello".toList, [], 1, none, 0, .willing⟩ = .ok 3 s' ∧
      s'.input 0 = codes "lo".toList ∧ s'.mem 101 = 101) ∧
    ∃ s' : RTState, rtNread 0 100 3 ⟨fun _ => 0, fun _ => codes "hello".toList, [], 1, none, 0, ⟨fun _ n => n, fun _ => .ok 1⟩⟩ = .ok 1 s' ∧
      s'.input 0 = codes "ello".toList := ⟨⟨_, rfl, by decide, by decide⟩, _, rfl, by decide⟩

/-! ## C68: the answers of the system -/

/-- C68. `nwrite(file, buf, n)` makes one system call, with exactly the `n` bytes at `buf`, and returns exactly what the system
answers. -/
theorem C68_nwrite (file buffer count : W) (s : RTState) :
    ∃ bs, bs.length = count.toNat ∧ (∀ i (h : i < bs.length), bs[i] = s.mem (buffer + BitVec.ofNat 64 i)) ∧
      rtNwrite file buffer count s = .ok (s.os.write s.trace.length count) { s with trace := s.trace ++ [(file, bs)] } := by
  refine ⟨memBytes s.mem buffer count.toNat, by simp [memBytes], by simp [memBytes], ?_⟩
  unfold rtNwrite
  rw [M.bind_ok (M.get_apply _)]
  unfold sysWrite
  simp [memBytes]

/-- C68. `writeb(c)` writes the low byte of `c`, whatever the system answers. -/
theorem C68_writeb (c : W) (s : RTState) : Emits (rtWriteb c) s () [c.setWidth 8] :=
  ⟨[(s.fout + 1, [c.setWidth 8])], rfl, by simp, by simp⟩

/-- A function takes no notice of the answers of the system: whatever they are, it does the same. -/
def Deaf {α : Type} (m : RT α) : Prop := ∀ s o, m { s with os := o } =
  match m s with
  | .ok a s' => .ok a { s' with os := o }
  | .err e => .err e

theorem Deaf.pure {α : Type} (a : α) : Deaf (Pure.pure a : RT α) := fun _ _ => rfl
theorem Deaf.throw {α : Type} (e : Err) : Deaf (M.throw e : RT α) := fun _ _ => rfl

theorem Deaf.bind {α β : Type} {m : RT α} {f : α → RT β} (h1 : Deaf m) (h2 : ∀ a, Deaf (f a)) : Deaf (m >>= f) := by
  intro s o
  rw [M.bind_apply, M.bind_apply, h1 s o]
  cases m s with
  | ok a s' => exact h2 a s' o
  | err e => rfl

theorem Deaf.ite {α : Type} {c : Prop} [Decidable c] {m n : RT α} (h1 : Deaf m) (h2 : Deaf n) : Deaf (if c then m else n) := by
  split <;> assumption

theorem Deaf.loop {β ρ : Type} {body : β → RT (Iter β ρ)} (h : ∀ b, Deaf (body b)) : ∀ n b, Deaf (loop n body b) := by
  intro n
  induction n with
  | zero => intro b; exact fun _ _ => rfl
  | succ n ih =>
    intro b
    refine Deaf.bind (h b) fun r => ?_
    cases r with
    | done r => exact .pure r
    | next b => exact ih b

theorem Deaf.write (ch : W) : Deaf (rtWrite ch) := fun _ _ => rfl
theorem Deaf.writeb (ch : W) : Deaf (rtWriteb ch) := fun _ _ => rfl
theorem Deaf.writeBuf (buf : List Byte) (p : Nat) : Deaf (writeBuf buf p) := fun _ _ => rfl
theorem Deaf.char (sc : Bool) (a i : W) : Deaf (rtChar sc a i) := fun _ _ => rfl
theorem Deaf.pushFront (buf : List Byte) (p : Nat) (b : Byte) : Deaf (pushFront buf p b) := .ite (.pure _) (.throw _)

theorem Deaf.printd (fuel : Nat) (junk : Nat → Byte) (n : W) : Deaf (rtPrintd fuel junk n) := by
  refine .bind (.loop (fun b => .bind (.pushFront _ _ _) fun r => .ite (.pure _) (.pure _)) _ _) fun r => .bind ?_ fun r => .writeBuf _ _
  exact .ite (.pushFront _ _ _) (.pure _)

theorem Deaf.printo (fuel : Nat) (junk : Nat → Byte) (n : W) : Deaf (rtPrinto fuel junk n) :=
  .bind (.loop (fun b => .bind (.pushFront _ _ _) fun r => .ite (.pure _) (.pure _)) _ _) fun r => .writeBuf _ _

theorem Deaf.printf (sc : Bool) (fuel : Nat) (junk : Nat → Byte) (fmt : W) (args : Nat → W) : Deaf (rtPrintf sc fuel junk fmt args) := by
  have sign : ∀ x, Deaf (printfSign x) := fun x => .ite (.bind (.write _) fun _ => .pure _) (.pure _)
  refine .loop (fun st => .bind (.char _ _ _) fun c => .ite (.ite (.pure _) (.bind (.write _) fun _ => .pure _))
    (.bind (.char _ _ _) fun c => .bind ?_ fun r => .pure _)) _ _
  unfold printfConv
  refine .ite (.bind (sign _) fun x => .bind (.printd _ _ _) fun _ => .pure _) (.ite (.bind (sign _) fun x => .bind (.printo _ _ _) fun _ => .pure _)
    (.ite (.bind (.write _) fun _ => .pure _) (.ite (.bind (.loop (fun j => ?_) _ _) fun _ => .pure _)
      (.ite (.bind (.write _) fun _ => .pure _) (.bind (.write _) fun _ => .pure _)))))
  exact .bind (.char _ _ _) fun c => .ite (.bind (.write _) fun _ => .pure _) (.pure _)

/-- C68. The output functions make the same system calls whatever the system answers: what it did not accept is not written
again. -/
theorem C68_deaf (sc : Bool) (fuel : Nat) (junk : Nat → Byte) (args : Nat → W) (x : W) :
    Deaf (rtWrite x) ∧ Deaf (rtWriteb x) ∧ Deaf (rtPrintd fuel junk x) ∧ Deaf (rtPrinto fuel junk x) ∧ Deaf (rtPrintf sc fuel junk x args) :=
  ⟨.write x, .writeb x, .printd _ _ _, .printo _ _ _, .printf _ _ _ _ _⟩

/-- not every function takes no notice: `nwrite` returns the answer -/
example : ¬ Deaf (rtNwrite 1 0 5) := by
  intro h
  have := h ⟨fun _ => 0, fun _ => [], [], 0, none, 0, .willing⟩ ⟨fun _ _ => 3, fun _ => .ok 1⟩
  have e : (3 : W) = 5 := by
    have := congrArg (fun r => match r with | R.ok a _ => a | .err _ => 0) this
    exact this
  revert e; decide

/-! ## C55 -/

/-- What every program does: the `write` calls made so far stay, and the end of the process is final. -/
def Forward {α : Type} (m : RT α) : Prop := ∀ s a s', m s = .ok a s' →
  (∃ more, s'.trace = s.trace ++ more) ∧ (∀ e, s.exited = some e → s'.exited = some e)

theorem Forward.pure {α : Type} (a : α) : Forward (Pure.pure a : RT α) := by
  intro s b s' h; cases h; exact ⟨⟨[], by simp⟩, fun _ h => h⟩
theorem Forward.throw {α : Type} (e : Err) : Forward (M.throw e : RT α) := by intro s b s' h; cases h
theorem Forward.get : Forward (M.get : RT RTState) := by
  intro s b s' h; cases h; exact ⟨⟨[], by simp⟩, fun _ h => h⟩

theorem Forward.bind {α β : Type} {m : RT α} {f : α → RT β} (h1 : Forward m) (h2 : ∀ a, Forward (f a)) : Forward (m >>= f) := by
  intro s b s' h
  rw [M.bind_apply] at h
  cases hm : m s with
  | err e => rw [hm] at h; cases h
  | ok a s1 =>
    rw [hm] at h
    obtain ⟨⟨x, hx⟩, e1⟩ := h1 _ _ _ hm
    obtain ⟨⟨y, hy⟩, e2⟩ := h2 a _ _ _ h
    exact ⟨⟨x ++ y, by rw [hy, hx, List.append_assoc]⟩, fun e he => e2 e (e1 e he)⟩

theorem Forward.ite {α : Type} {c : Prop} [Decidable c] {m n : RT α} (h1 : Forward m) (h2 : Forward n) : Forward (if c then m else n) := by
  split <;> assumption

theorem Forward.loop {β ρ : Type} {body : β → RT (Iter β ρ)} (h : ∀ b, Forward (body b)) : ∀ n b, Forward (loop n body b) := by
  intro n
  induction n with
  | zero => intro b s a s' h; cases h
  | succ n ih =>
    intro b
    refine Forward.bind (h b) fun r => ?_
    cases r with
    | done r => exact .pure r
    | next b => exact ih b

theorem Forward.sysWrite (fd : W) (d : List Byte) : Forward (sysWrite fd d) := by
  intro s b s' h; cases h; exact ⟨⟨[(fd, d)], rfl⟩, fun _ h => h⟩

theorem Forward.sysRead (fd : W) (n : Nat) : Forward (sysRead fd n) := by
  intro s b s' h
  unfold Blang.sysRead at h
  cases hr : s.os.read s.reads with
  | error e => rw [hr] at h; cases h; exact ⟨⟨[], by simp⟩, fun _ h => h⟩
  | ok k => rw [hr] at h; cases h; exact ⟨⟨[], by simp⟩, fun _ h => h⟩

theorem Forward.sysExit (st : W) : Forward (sysExit st) := by
  intro s b s' h; cases h; exact ⟨⟨[], by simp⟩, fun e h => by simp [h]⟩

theorem Forward.mem (f : RTState → W → Byte) : Forward (M.modify fun s => { s with mem := f s } : RT Unit) := by
  intro s b s' h; cases h; exact ⟨⟨[], by simp⟩, fun _ h => h⟩

theorem Forward.write (ch : W) : Forward (rtWrite ch) := .bind .get fun _ => .bind (.sysWrite _ _) fun _ => .pure _
theorem Forward.char (sc : Bool) (a i : W) : Forward (rtChar sc a i) := .bind .get fun _ => .pure _
theorem Forward.writeBuf (buf : List Byte) (p : Nat) : Forward (writeBuf buf p) := .bind .get fun _ => .bind (.sysWrite _ _) fun _ => .pure _
theorem Forward.pushFront (buf : List Byte) (p : Nat) (b : Byte) : Forward (pushFront buf p b) := .ite (.pure _) (.throw _)

theorem Forward.printd (fuel : Nat) (junk : Nat → Byte) (n : W) : Forward (rtPrintd fuel junk n) := by
  refine .bind (.loop (fun b => .bind (.pushFront _ _ _) fun r => .ite (.pure _) (.pure _)) _ _) fun r => .bind ?_ fun r => .writeBuf _ _
  exact .ite (.pushFront _ _ _) (.pure _)

theorem Forward.printo (fuel : Nat) (junk : Nat → Byte) (n : W) : Forward (rtPrinto fuel junk n) :=
  .bind (.loop (fun b => .bind (.pushFront _ _ _) fun r => .ite (.pure _) (.pure _)) _ _) fun r => .writeBuf _ _

theorem Forward.printf (sc : Bool) (fuel : Nat) (junk : Nat → Byte) (fmt : W) (args : Nat → W) : Forward (rtPrintf sc fuel junk fmt args) := by
  have sign : ∀ x, Forward (printfSign x) := fun x => .ite (.bind (.write _) fun _ => .pure _) (.pure _)
  refine .loop (fun st => .bind (.char _ _ _) fun c => .ite (.ite (.pure _) (.bind (.write _) fun _ => .pure _))
    (.bind (.char _ _ _) fun c => .bind ?_ fun r => .pure _)) _ _
  unfold printfConv
  refine .ite (.bind (sign _) fun x => .bind (.printd _ _ _) fun _ => .pure _) (.ite (.bind (sign _) fun x => .bind (.printo _ _ _) fun _ => .pure _)
    (.ite (.bind (.write _) fun _ => .pure _) (.ite (.bind (.loop (fun j => ?_) _ _) fun _ => .pure _)
      (.ite (.bind (.write _) fun _ => .pure _) (.bind (.write _) fun _ => .pure _)))))
  exact .bind (.char _ _ _) fun c => .ite (.bind (.write _) fun _ => .pure _) (.pure _)

/-- C55. Every function of the library is `Forward`, and so is every program made of such functions (`Forward.bind`, `Forward.ite`,
`Forward.loop`). -/
theorem C55_forward (sc : Bool) (fuel : Nat) (junk : Nat → Byte) (args : Nat → W) (x y z : W) :
    Forward (rtWrite x) ∧ Forward (rtWriteb x) ∧ Forward (rtPrintd fuel junk x) ∧ Forward (rtPrinto fuel junk x) ∧
    Forward (rtPrintf sc fuel junk x args) ∧ Forward (rtChar sc x y) ∧ Forward (rtLchar x y z) ∧ Forward (rtNwrite x y z) ∧
    Forward (rtNread x y z) ∧ Forward (rtRead sc) ∧ Forward rtExit ∧ Forward rtFlush := by
  refine ⟨.write x, .bind .get fun _ => .bind (.sysWrite _ _) fun _ => .pure _, .printd _ _ _, .printo _ _ _, .printf _ _ _ _ _, .char _ _ _,
    .mem _, .bind .get fun _ => .sysWrite _ _, .bind (.sysRead _ _) fun r => .bind (.mem _) fun _ => .pure _, ?_, .sysExit 0, .pure ()⟩
  exact .bind (.sysRead _ _) fun r => .ite (.pure _) (.pure _)

/-- C55. If `main` returns `code` without having called `exit`, the process ends with the status `code`, and what it has
written is what `main` has written. -/
theorem C55_exit_status {main : RT W} {s s' : RTState} {code : W} (h : main s = .ok code s')
    (hrun : s'.exited = none) :
    ∃ s'', rtStart main s = .ok () s'' ∧ s''.status = some code ∧ s''.output = s'.trace := by
  refine ⟨{ s' with exited := some (code, s'.trace.length) }, ?_, rfl, ?_⟩
  · simp [rtStart, sysExit, M.bind_apply, h, hrun]
  · simp [RTState.output]

/-- C55. `exit()` ends the process with status 0 at once: whatever `main` was going to do after it (`rest`), the status is 0
and the process has written only what it had written before. -/
theorem C55_exit {before : RT Unit} {rest : RT W} {s s1 s' : RTState} {code : W} (h1 : before s = .ok () s1) (hrun : s1.exited = none)
    (hf : Forward rest) (h : (before >>= fun _ => rtExit >>= fun _ => rest) s = .ok code s') :
    ∃ s'', rtStart (before >>= fun _ => rtExit >>= fun _ => rest) s = .ok () s'' ∧ s''.status = some 0 ∧ s''.output = s1.trace := by
  have h2 := h
  rw [M.bind_ok h1, M.bind_ok (show rtExit s1 = .ok () { s1 with exited := some (0, s1.trace.length) } by
    simp [rtExit, sysExit, hrun])] at h2
  obtain ⟨⟨more, hm⟩, he⟩ := hf _ _ _ h2
  have he := he _ rfl
  refine ⟨s', ?_, ?_, ?_⟩
  · unfold rtStart
    rw [M.bind_ok h]
    simp [sysExit, he]
    cases s'; simp_all
  · simp [RTState.status, he]
  · simp only [RTState.output, he, hm]
    simp

/-- C55. The same if the program never gets to the end of what follows: right after `exit()` the process has ended. -/
theorem C55_exit_now (s : RTState) (hrun : s.exited = none) :
    ∃ s', rtExit s = .ok () s' ∧ s'.status = some 0 ∧ s'.output = s.trace ∧
      ∀ {α : Type} (m : RT α) (a : α) (s'' : RTState), Forward m → m s' = .ok a s'' → s''.status = some 0 ∧ s''.output = s.trace := by
  refine ⟨{ s with exited := some (0, s.trace.length) }, by simp [rtExit, sysExit, hrun], rfl, by simp [RTState.output], ?_⟩
  intro α m a s'' hf h
  obtain ⟨⟨more, hm⟩, he⟩ := hf _ _ _ h
  have he := he _ rfl
  refine ⟨by simp [RTState.status, he], ?_⟩
  simp only [RTState.output, he, hm]
  simp

/-- `write('a'); exit(); write('b'); return 3` -/
example : ∃ s', rtStart (rtWrite 97 >>= fun _ => rtExit >>= fun _ => rtWrite 98 >>= fun _ => pure 3)
      ⟨fun _ => 0, fun _ => [], [], 0, none, 0, .willing⟩ = .ok () s' ∧ s'.status = some 0 ∧ s'.output = [(1, [97#8])] :=
  C55_exit rfl rfl (.bind (.write _) fun _ => .pure _) rfl

end Blang.Props
