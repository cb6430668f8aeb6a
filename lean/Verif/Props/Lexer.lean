import Verif.Proofs.Lexer
import Verif.Model.LexerBuf
/-
Properties C01-C05 and C07: the lexer.  (C06 and the whole-program part of C02 are in
`Verif/Props/Program.lean`.)
-/
namespace Blang.Props
open Blang Blang.Spec

/-! ## C01: layout between tokens is skipped exactly -/

/-- C01. Layout is consumed, whatever follows it is not (for a source that ends normally). -/
theorem C01_layout_skipped {lay rest : List Char} (hlay : Layout lay) (hrest : StartsSolid rest) :
    whitespace ⟨lay ++ rest, .eof⟩ = .ok () ⟨rest, .eof⟩ :=
  whitespace_layout hlay ⟨hrest, by simp⟩

/-- C01. Conversely, whenever skipping succeeds, what was consumed is layout and what remains
does not begin with layout: nothing else is consumed and nothing is left over. -/
theorem C01_only_layout_skipped {l l' : Lex} (h : whitespace l = .ok () l') :
    ∃ lay, l.chars = lay ++ l'.chars ∧ Layout lay ∧ StartsSolid l'.chars ∧ l'.tail = l.tail := by
  obtain ⟨lay, h1, h2, h3, h4⟩ := whitespace_ok h
  exact ⟨lay, h1, h2, h3.1, h4⟩

/-- C01. The decomposition of a text into layout and rest is unique, so the two theorems above
determine the result. -/
theorem C01_unique {lay₁ lay₂ rest₁ rest₂ : List Char} (h₁ : Layout lay₁) (h₂ : Layout lay₂)
    (r₁ : StartsSolid rest₁) (r₂ : StartsSolid rest₂) (h : lay₁ ++ rest₁ = lay₂ ++ rest₂) :
    lay₁ = lay₂ ∧ rest₁ = rest₂ := by
  have e1 := C01_layout_skipped h₁ r₁
  have e2 := C01_layout_skipped h₂ r₂
  rw [h, e2] at e1
  cases e1
  exact ⟨List.append_cancel_right h, rfl⟩

/-- C01. Skipping twice is skipping once. -/
theorem C01_idempotent {l l' : Lex} (h : whitespace l = .ok () l') : whitespace l' = .ok () l' := by
  obtain ⟨lay, h1, h2, h3, h4⟩ := whitespace_ok h
  obtain ⟨c', t'⟩ := l'
  simp only at h4; subst h4
  exact whitespace_stop h3

example : Layout (" /*".toList ++ " a ** / ".toList ++ "*/\n\t".toList) ∧ StartsSolid "/x".toList := by
  refine ⟨?_, by simp [StartsSolid]⟩
  have hb : NoClose [' ', 'a', ' ', '*', '*', ' ', '/', ' '] := by unfold NoClose; decide
  exact .blank (by decide) (.comment hb (.blank (by decide) (.blank (by decide) .nil)))

/-! ## C02: an unclosed comment is rejected -/

/-- C02. Skipping layout fails when it meets a comment that is never closed. -/
theorem C02_unclosed_comment {lay body : List Char} (hlay : Layout lay) (hb : NoClose body) (t : Tail) :
    ∃ e, e ≠ .fuel ∧ whitespace ⟨lay ++ '/' :: '*' :: body, t⟩ = .err e :=
  ⟨unclosedErr t, by cases t <;> simp [unclosedErr], whitespace_layout_err hlay (whitespaceBody_open hb t)⟩

/-- C02. It fails in no other case: when skipping layout reports an error that is not a read
error, there is a comment that is never closed. -/
theorem C02_only_unclosed {l : Lex} {e : Err} (h : whitespace l = .err e) (he : e ≠ .io) :
    ∃ lay body, l.chars = lay ++ '/' :: '*' :: body ∧ Layout lay ∧ NoClose body := by
  rcases whitespace_cases l with ⟨lay, rest, h1, h2, h3, h4⟩ | ⟨lay, body, h1, h2, h3, h4⟩ | ⟨_, h4, _⟩
  · rw [h4] at h; cases h
  · exact ⟨lay, body, h1, h2, h3⟩
  · rw [h4] at h; cases h; exact absurd rfl he

example : NoClose "* /".toList ∧ Layout " ".toList :=
  ⟨by unfold NoClose; decide, .blank (by decide) .nil⟩

/-! ## C03: identifiers are read by longest match -/

/-- C03. With layout `lay` in front, `Identifier` returns exactly the longest run of identifier
characters and leaves the rest. -/
theorem C03_identifier {lay name rest : List Char} (hlay : Layout lay) (hne : name ≠ [])
    (hname : ∀ c ∈ name, IdentChar c) (hrest : NotStarting IdentChar rest) :
    identifier ⟨lay ++ name ++ rest, .eof⟩ = .ok name ⟨rest, .eof⟩ := by
  rw [List.append_assoc, identifier_eq hlay hname hrest (fun h => absurd h hne)]; simp

/-- C03. Every successful read is of this form (possibly with an empty name), for every input. -/
theorem C03_identifier_sound {l l' : Lex} {name : Name} (h : identifier l = .ok name l') :
    ∃ lay, l.chars = lay ++ name ++ l'.chars ∧ Layout lay ∧ (∀ c ∈ name, IdentChar c) ∧
      NotStarting IdentChar l'.chars ∧ l'.tail = l.tail := by
  obtain ⟨lay, h1, h2, h3, h4, _, _, h5⟩ := identifier_ok h
  exact ⟨lay, by rw [h1, List.append_assoc], h2, h3, h4, h5⟩

example : Layout " ".toList ∧ (∀ c ∈ "x_1µ".toList, IdentChar c) ∧ NotStarting IdentChar "+y".toList :=
  ⟨.blank (by decide) .nil, by decide, by simp [NotStarting]; decide⟩

/-! ## C04: integer literals denote their value -/

/-- C04. A digit string of any length denotes its value modulo 2^64 (octal after a leading 0);
the character after it is not consumed. -/
theorem C04_number {lay ds rest : List Char} (hlay : Layout lay) (hne : ds ≠ []) (hds : ∀ c ∈ ds, Digit c)
    (hrest : NotStarting Digit rest) :
    number ⟨lay ++ ds ++ rest, .eof⟩ = .ok (BitVec.ofNat 64 (literalValue ds)) ⟨rest, .eof⟩ := by
  rw [List.append_assoc, number_digits hlay hne hds hrest]; simp

/-- C04. For a literal below 2^64 the word, read as an unsigned number, is the value itself. -/
theorem C04_number_exact {lay ds rest : List Char} (hlay : Layout lay) (hne : ds ≠ []) (hds : ∀ c ∈ ds, Digit c)
    (hrest : NotStarting Digit rest) (hlt : literalValue ds < 2 ^ 64) :
    ∃ w : W, number ⟨lay ++ ds ++ rest, .eof⟩ = .ok w ⟨rest, .eof⟩ ∧ w.toNat = literalValue ds :=
  ⟨_, C04_number hlay hne hds hrest, by simp [Nat.mod_eq_of_lt hlt]⟩

/-- C04. Every successful call of the number reader consumed layout and a maximal run of digits
(none at all gives 0) and returned the value of that run. -/
theorem C04_number_sound {l l' : Lex} {w : W} (h : number l = .ok w l') :
    ∃ lay ds, l.chars = lay ++ ds ++ l'.chars ∧ Layout lay ∧ (∀ c ∈ ds, Digit c) ∧
      NotStarting Digit l'.chars ∧ l'.tail = l.tail ∧ w = BitVec.ofNat 64 (literalValue ds) := by
  obtain ⟨lay, ds, h1, h2, h3, h4, _, h5, _, _, h6⟩ := number_ok h
  exact ⟨lay, ds, by rw [h1, List.append_assoc], h2, h3, h4, h5, h6⟩

example : literalValue "0777".toList = 511 ∧ literalValue "1979".toList = 1979 ∧
    literalValue "18446744073709551617".toList = 2 ^ 64 + 1 ∧ (∀ c ∈ "0777".toList, Digit c) := by
  refine ⟨by decide, by decide, by decide +kernel, by decide⟩

/-! ## C05: character constants -/

/-- All source characters are bytes. -/
def Bytes (vs : List Nat) : Prop := ∀ v ∈ vs, v < 256

/-- C05. A constant of at most 8 characters is packed big-endian, and is read up to its closing
quote. -/
theorem C05_char_const {ts : List Char} {vs : List Nat} (h : Items '\'' ts vs) (hlen : vs.length ≤ 8)
    (hb : Bytes vs) (rest : List Char) (t : Tail) :
    character ⟨ts ++ '\'' :: rest, t⟩ = .ok (BitVec.ofNat 64 (pack vs)) ⟨rest, t⟩ := by
  have := characterLoop_items h 8 hlen 0 hb rest t
  simp only [Nat.zero_mul, Nat.zero_add] at this
  exact this

theorem pack_lt {vs : List Nat} (hb : Bytes vs) : pack vs < 256 ^ vs.length := by
  induction vs with
  | nil => simp [pack]
  | cons v vs ih =>
    have h1 := hb v (by simp)
    have h2 := ih (fun u hu => hb u (by simp [hu]))
    simp only [pack, List.length_cons, Nat.pow_succ]
    calc v * 256 ^ vs.length + pack vs < v * 256 ^ vs.length + 256 ^ vs.length := by omega
      _ = (v + 1) * 256 ^ vs.length := by rw [Nat.add_mul, Nat.one_mul]
      _ ≤ 256 * 256 ^ vs.length := Nat.mul_le_mul_right _ (by omega)
      _ = _ := Nat.mul_comm _ _

/-- C05. The packing loses nothing: the word's unsigned value is the big-endian number. -/
theorem C05_char_const_exact {ts : List Char} {vs : List Nat} (h : Items '\'' ts vs) (hlen : vs.length ≤ 8)
    (hb : Bytes vs) (rest : List Char) (t : Tail) :
    ∃ w : W, character ⟨ts ++ '\'' :: rest, t⟩ = .ok w ⟨rest, t⟩ ∧ w.toNat = pack vs := by
  refine ⟨_, C05_char_const h hlen hb rest t, ?_⟩
  have h1 := pack_lt hb
  have h2 : 256 ^ vs.length ≤ 256 ^ 8 := Nat.pow_le_pow_right (by omega) hlen
  simp only [BitVec.toNat_ofNat]
  exact Nat.mod_eq_of_lt (by omega)

/-- C05. Nothing else is accepted: an accepted constant has at most 8 characters, each plain or a
defined escape, and a closing quote. -/
theorem C05_char_const_sound {l l' : Lex} {w : W} (h : character l = .ok w l') :
    ∃ ts vs, Items '\'' ts vs ∧ vs.length ≤ 8 ∧ l.chars = ts ++ '\'' :: l'.chars ∧ l'.tail = l.tail :=
  characterLoop_ok h

/-- C05. In particular more than 8 characters are an error. -/
theorem C05_too_long {ts : List Char} {vs : List Nat} (h : Items '\'' ts vs) (hlen : 8 < vs.length)
    (rest : List Char) (t : Tail) :
    ∃ e, character ⟨ts ++ '\'' :: rest, t⟩ = .err e := by
  cases hc : character ⟨ts ++ '\'' :: rest, t⟩ with
  | err e => exact ⟨e, rfl⟩
  | ok w l' =>
    exfalso
    obtain ⟨ts', vs', h1, h2, h3, _⟩ := characterLoop_ok hc
    simp only at h3
    -- both splits of the text at the first quote agree
    have key : ∀ {ts vs ts' vs' r r'}, Items '\'' ts vs → Items '\'' ts' vs' →
        ts ++ '\'' :: r = ts' ++ '\'' :: r' → vs.length = vs'.length := by
      intro ts vs ts' vs' r r' h
      induction h generalizing ts' vs' with
      | nil =>
        intro h' he
        cases h' with
        | nil => rfl
        | cons hi _ =>
          cases hi with
          | plain h1 _ => simp at he; exact absurd he.1.symm h1
          | esc => simp at he
      | cons hi _ ih =>
        intro h' he
        cases h' with
        | nil =>
          cases hi with
          | plain h1 _ => simp at he; exact absurd he.1 h1
          | esc => simp at he
        | cons hi' h'' =>
          have : ∀ {x y : List Char} {u v : Nat} {a b : List Char}, Item '\'' x u → Item '\'' y v →
              x ++ a = y ++ b → a = b := by
            intro x y u v a b hx hy he
            cases hx with
            | plain _ n1 => cases hy with
              | plain _ _ => simp at he; exact he.2
              | esc _ => simp at he; exact absurd he.1 n1
            | esc _ => cases hy with
              | plain _ n2 => simp at he; exact absurd he.1.symm n2
              | esc _ => simp at he; exact he.2
          rw [List.append_assoc, List.append_assoc] at he
          have := ih h'' (this hi hi' he)
          simp [this]
    have := key h h1 h3
    simp only [wordSize] at h2
    omega

example : Items '\'' "a*n".toList [97, 10] ∧ Bytes [97, 10] ∧ pack [97, 10] = 24842 := by
  refine ⟨Items.cons (t := ['a']) (.plain (by decide) (by decide))
    (Items.cons (t := ['*', 'n']) (ts := []) (.esc (by decide)) .nil), by unfold Bytes; decide, by decide⟩

/-! ## C07: pushback is lossless and last-in first-out -/

/-- Operations on the lexer's character source. -/
inductive ChOp where
  | read
  | unread (c : Char)

/-- The literal two-part lexer under a history of operations; the outcomes of the reads. -/
def runBuf : LexBuf → List ChOp → List RC × LexBuf
  | l, [] => ([], l)
  | l, .read :: ops =>
    let (r, l') := readCharBuf l
    let (rs, l'') := runBuf l' ops
    (r :: rs, l'')
  | l, .unread c :: ops => runBuf (unreadCharBuf l c) ops

/-- Specification: a stack of characters; reading pops, unreading pushes. -/
def runStack (t : Tail) : List Char → List ChOp → List RC × List Char
  | s, [] => ([], s)
  | [], .read :: ops =>
    let (rs, s') := runStack t [] ops
    ((match t with | .eof => .eof | .io => .io) :: rs, s')
  | c :: s, .read :: ops =>
    let (rs, s') := runStack t s ops
    (.ch c :: rs, s')
  | s, .unread c :: ops => runStack t (c :: s) ops

/-- the characters still to be delivered -/
def pending (l : LexBuf) : List Char := l.buffer.reverse ++ l.file

theorem readCharBuf_pending (l : LexBuf) :
    (readCharBuf l).2.tail = l.tail ∧
    (match pending l with
      | [] => (readCharBuf l).1 = (match l.tail with | .eof => RC.eof | .io => RC.io) ∧ pending (readCharBuf l).2 = []
      | c :: s => (readCharBuf l).1 = .ch c ∧ pending (readCharBuf l).2 = s) := by
  obtain ⟨file, t, buf⟩ := l
  rcases List.eq_nil_or_concat buf with rfl | ⟨b, c, rfl⟩
  · cases file with
    | nil => cases t <;> simp [readCharBuf, readRune, pending]
    | cons c r => simp [readCharBuf, readRune, pending]
  · simp [readCharBuf, pending]

/-- C07. For every file and every history of reads and unreads, of any length, the lexer's two-part
state (reader plus pushback buffer) delivers exactly what a stack on top of the file delivers. -/
theorem C07_pushback (l : LexBuf) (ops : List ChOp) :
    (runBuf l ops).1 = (runStack l.tail (pending l) ops).1 ∧
    pending (runBuf l ops).2 = (runStack l.tail (pending l) ops).2 := by
  induction ops generalizing l with
  | nil => exact ⟨rfl, rfl⟩
  | cons op ops ih =>
    cases op with
    | read =>
      have h := readCharBuf_pending l
      have ih := ih (readCharBuf l).2
      rw [h.1] at ih
      cases hp : pending l with
      | nil =>
        rw [hp] at h
        simp only at h
        rw [h.2.2] at ih
        simp only [runBuf, runStack]
        exact ⟨by rw [h.2.1, ih.1], ih.2⟩
      | cons c s =>
        rw [hp] at h
        simp only at h
        rw [h.2.2] at ih
        simp only [runBuf, runStack]
        exact ⟨by rw [h.2.1, ih.1], ih.2⟩
    | unread c =>
      have ih := ih (unreadCharBuf l c)
      have hp : pending (unreadCharBuf l c) = c :: pending l := by simp [pending, unreadCharBuf]
      rw [hp] at ih
      cases hl : pending l <;> (rw [hl] at ih; simpa [runBuf, runStack, unreadCharBuf] using ih)

/-- C07. A fresh lexer delivers the file: `n` reads give its first `n` characters in order. -/
theorem C07_delivers_file (file rest : List Char) (t : Tail) :
    (runBuf (newLexer (file ++ rest) t) (file.map fun _ => .read)).1 = file.map .ch ∧
    pending (runBuf (newLexer (file ++ rest) t) (file.map fun _ => .read)).2 = rest := by
  have h := C07_pushback (newLexer (file ++ rest) t) (file.map fun _ => .read)
  have hs : ∀ file, runStack t (file ++ rest) (file.map fun _ => .read) = (file.map .ch, rest) := by
    intro file
    induction file with
    | nil => rfl
    | cons c f ih => simp [runStack, ih]
  have hp : pending (newLexer (file ++ rest) t) = file ++ rest := rfl
  rw [hp] at h
  have ht : (newLexer (file ++ rest) t).tail = t := rfl
  rw [ht, hs] at h
  exact h

/-- C07. The one-list lexer state used in the rest of the model is the abstraction of the
literal one: both operations commute with `pending`. -/
theorem C07_abstraction (l : LexBuf) :
    readChar ⟨pending l, l.tail⟩ = .ok (readCharBuf l).1 ⟨pending (readCharBuf l).2, (readCharBuf l).2.tail⟩ ∧
    ∀ c, unreadChar c ⟨pending l, l.tail⟩ = .ok () ⟨pending (unreadCharBuf l c), (unreadCharBuf l c).tail⟩ := by
  constructor
  · have h := readCharBuf_pending l
    cases hp : pending l with
    | nil =>
      rw [hp] at h
      simp only at h
      rw [h.1, h.2.1, h.2.2]
      cases l.tail <;> rfl
    | cons c s =>
      rw [hp] at h
      simp only at h
      rw [h.1, h.2.1, h.2.2]; rfl
  · intro c; simp [pending, unreadCharBuf]

example : (runBuf (newLexer ['a', 'b'] .eof) [.read, .read, .unread 'b', .unread 'z', .read, .read, .read]).1 =
    [.ch 'a', .ch 'b', .ch 'z', .ch 'b', .eof] := by decide

end Blang.Props
