import Verif.Model.Lexer
import Verif.Spec.Lexical
import Verif.Proofs.Loop
/-
Lemmas about the lexer functions.
-/
namespace Blang
open Spec

/-! ### reading -/

@[simp] theorem readChar_cons (c : Char) (r : List Char) (t : Tail) :
    readChar ⟨c :: r, t⟩ = .ok (.ch c) ⟨r, t⟩ := rfl
@[simp] theorem readChar_nil_eof : readChar ⟨[], .eof⟩ = .ok .eof ⟨[], .eof⟩ := rfl
@[simp] theorem readChar_nil_io : readChar ⟨[], .io⟩ = .ok .io ⟨[], .io⟩ := rfl
@[simp] theorem unreadChar_apply (c : Char) (r : List Char) (t : Tail) :
    unreadChar c ⟨r, t⟩ = .ok () ⟨c :: r, t⟩ := rfl
@[simp] theorem readOrErr_cons (c : Char) (r : List Char) (t : Tail) :
    readOrErr ⟨c :: r, t⟩ = .ok c ⟨r, t⟩ := rfl
@[simp] theorem readOrErr_nil_eof : readOrErr ⟨[], .eof⟩ = .err .eof := rfl
@[simp] theorem readOrErr_nil_io : readOrErr ⟨[], .io⟩ = .err .io := rfl

/-! ### character classes -/

theorem char_le_iff (a b : Char) : a ≤ b ↔ a.toNat ≤ b.toNat := by
  show a.val ≤ b.val ↔ _
  rw [UInt32.le_iff_toNat_le]; rfl

theorem char_eq_iff (a b : Char) : a = b ↔ a.toNat = b.toNat := by
  constructor
  · rintro rfl; rfl
  · intro h; exact Char.ext (UInt32.toNat_inj.1 h)

theorem isSpace_iff (c : Char) : isSpace c = true ↔ Blank c := by
  unfold isSpace Blank
  simp only [Bool.or_eq_true, beq_iff_eq, char_eq_iff, List.mem_cons, List.not_mem_nil, or_false]
  simp only [show ('\t').toNat = 9 from rfl, show ('\n').toNat = 10 from rfl, show ('\x0b').toNat = 11 from rfl,
    show ('\x0c').toNat = 12 from rfl, show ('\r').toNat = 13 from rfl, show (' ').toNat = 32 from rfl,
    show ('\u0085').toNat = 0x85 from rfl, show ('\u00a0').toNat = 0xa0 from rfl]
  omega

theorem isDigit_iff (c : Char) : isDigit c = true ↔ Digit c := by
  unfold isDigit Digit
  simp only [Bool.and_eq_true, decide_eq_true_eq, char_le_iff]
  simp only [show ('0').toNat = 48 from rfl, show ('9').toNat = 57 from rfl]

theorem isLetter_iff (c : Char) : isLetter c = true ↔ Letter c := by
  unfold isLetter Letter
  simp only [Bool.or_eq_true, Bool.and_eq_true, decide_eq_true_eq, char_le_iff, beq_iff_eq, char_eq_iff]
  simp only [show ('a').toNat = 97 from rfl, show ('z').toNat = 122 from rfl, show ('A').toNat = 65 from rfl,
    show ('Z').toNat = 90 from rfl, show ('\u00aa').toNat = 0xaa from rfl, show ('\u00b5').toNat = 0xb5 from rfl,
    show ('\u00ba').toNat = 0xba from rfl, show ('\u00c0').toNat = 0xc0 from rfl, show ('\u00d6').toNat = 0xd6 from rfl,
    show ('\u00d8').toNat = 0xd8 from rfl, show ('\u00f6').toNat = 0xf6 from rfl, show ('\u00f8').toNat = 0xf8 from rfl,
    show ('\u00ff').toNat = 0xff from rfl]
  omega

theorem isIdent_iff (c : Char) : isIdent c = true ↔ IdentChar c := by
  unfold isIdent IdentChar
  simp only [Bool.or_eq_true, isLetter_iff, isDigit_iff, beq_iff_eq, or_assoc]

theorem isSpace_false (c : Char) : isSpace c = false ↔ ¬ Blank c := by
  rw [← isSpace_iff]; simp
theorem isDigit_false (c : Char) : isDigit c = false ↔ ¬ Digit c := by
  rw [← isDigit_iff]; simp
theorem isLetter_false (c : Char) : isLetter c = false ↔ ¬ Letter c := by
  rw [← isLetter_iff]; simp

/-! ### comments -/

theorem noClose_nil : NoClose [] := by
  intro h; have := List.IsInfix.length_le h; simp at this

theorem NoClose.tail {c : Char} {s : List Char} (h : NoClose (c :: s)) : NoClose s :=
  fun h' => h (h'.trans (List.infix_cons (List.infix_refl s)))

theorem noClose_cons {c : Char} {s : List Char} :
    NoClose (c :: s) ↔ ¬ (c = '*' ∧ s.head? = some '/') ∧ NoClose s := by
  unfold NoClose
  rw [List.infix_cons_iff]
  constructor
  · intro h
    refine ⟨fun ⟨h1, h2⟩ => h (Or.inl ?_), fun h' => h (Or.inr h')⟩
    subst h1
    cases s with
    | nil => simp at h2
    | cons d s => simp at h2; subst h2; exact ⟨s, rfl⟩
  · rintro ⟨h1, h2⟩ (h | h)
    · obtain ⟨t, ht⟩ := h
      cases s with
      | nil => simp at ht
      | cons d s => simp at ht; exact h1 ⟨ht.1.symm, by simp [ht.2.1.symm]⟩
    · exact h2 h

/-- Either there is no `*/`, or there is a first one. -/
theorem close_cases (s : List Char) :
    NoClose s ∨ ∃ body r, s = body ++ '*' :: '/' :: r ∧ NoClose body := by
  induction s with
  | nil => exact Or.inl noClose_nil
  | cons c s ih =>
    by_cases hc : c = '*' ∧ s.head? = some '/'
    · right
      obtain ⟨rfl, hs⟩ := hc
      cases s with
      | nil => simp at hs
      | cons d r => simp at hs; subst hs; exact ⟨[], r, rfl, noClose_nil⟩
    · rcases ih with h | ⟨body, r, rfl, hb⟩
      · exact Or.inl (noClose_cons.2 ⟨hc, h⟩)
      · refine Or.inr ⟨c :: body, r, rfl, noClose_cons.2 ⟨?_, hb⟩⟩
        rintro ⟨h1, h2⟩
        apply hc
        refine ⟨h1, ?_⟩
        cases body with
        | nil => simp at h2
        | cons d b => simpa using h2

theorem commentBody_star_slash (r : List Char) (t : Tail) :
    commentBody () ⟨'*' :: '/' :: r, t⟩ = .ok (.done ()) ⟨r, t⟩ := rfl

theorem commentBody_next {c : Char} {s : List Char} (h : ¬ (c = '*' ∧ s.head? = some '/')) (t : Tail)
    (hio : s ≠ [] ∨ t = .eof ∨ c ≠ '*') :
    commentBody () ⟨c :: s, t⟩ = .ok (.next ()) ⟨s, t⟩ := by
  unfold commentBody
  by_cases hc : c = '*'
  · subst hc
    cases s with
    | nil => cases t with
      | eof => rfl
      | io => simp at hio
    | cons d s =>
      have hd : d ≠ '/' := by simpa using h
      simp [M.bind_apply, hd]
  · simp [M.bind_apply, hc]

theorem loop_comment_close {body : List Char} (hb : NoClose body) (r : List Char) (t : Tail) (n : Nat) :
    loop (body.length + 1 + n) commentBody () ⟨body ++ '*' :: '/' :: r, t⟩ = .ok () ⟨r, t⟩ := by
  induction body generalizing n with
  | nil => rw [show ([] : List Char).length + 1 + n = n + 1 by simp; omega]; exact loop_done (commentBody_star_slash r t)
  | cons c body ih =>
    rw [noClose_cons] at hb
    rw [show (c :: body).length + 1 + n = (body.length + 1 + n) + 1 by simp; omega]
    rw [List.cons_append, loop_next (commentBody_next ?_ t ?_)]
    · exact ih hb.2 n
    · rintro ⟨h1, h2⟩
      cases body with
      | nil => simp at h2
      | cons d b => exact hb.1 ⟨h1, by simpa using h2⟩
    · left; simp

theorem comment_close {body : List Char} (hb : NoClose body) (r : List Char) (t : Tail) :
    comment ⟨body ++ '*' :: '/' :: r, t⟩ = .ok () ⟨r, t⟩ := by
  have := loop_comment_close hb r t (r.length + 2)
  unfold comment lexLoop
  simpa [Nat.add_assoc, Nat.add_comm, Nat.add_left_comm] using this

def unclosedErr (t : Tail) : Err :=
  match t with
  | .eof => .msg "unclosed comment, expect '*/' to close the comment"
  | .io => .io

theorem loop_comment_open {s : List Char} (hs : NoClose s) (t : Tail) (n : Nat) :
    loop (s.length + 1 + n) commentBody () ⟨s, t⟩ = .err (unclosedErr t) := by
  induction s generalizing n with
  | nil =>
    rw [show ([] : List Char).length + 1 + n = n + 1 by simp; omega]
    apply loop_err; cases t <;> rfl
  | cons c s ih =>
    rw [noClose_cons] at hs
    rw [show (c :: s).length + 1 + n = (s.length + 1 + n) + 1 by simp; omega]
    by_cases hio : s ≠ [] ∨ t = .eof ∨ c ≠ '*'
    · rw [loop_next (commentBody_next hs.1 t hio)]; exact ih hs.2 n
    · have h1 : s = [] := by simp at hio; exact hio.1
      have h2 : t = .io := by cases t; simp at hio; rfl
      have h3 : c = '*' := by simp at hio; exact hio.2.2
      subst h1 h2 h3
      exact loop_err rfl

theorem comment_open {s : List Char} (hs : NoClose s) (t : Tail) :
    comment ⟨s, t⟩ = .err (unclosedErr t) := loop_comment_open hs t 0

/-! ### layout -/

/-- `rest` with end `t` does not begin with layout, and this can be decided without hitting a
read error. -/
def Stops (rest : List Char) (t : Tail) : Prop :=
  StartsSolid rest ∧ (t = .io → rest ≠ [] ∧ rest ≠ ['/'])

theorem slash_not_blank : ¬ Blank '/' := by decide

theorem startsSolid_cons {c : Char} {r : List Char} :
    StartsSolid (c :: r) ↔ ¬ Blank c ∧ ¬ (c = '/' ∧ r.head? = some '*') := by
  by_cases hc : c = '/'
  · subst hc
    cases r with
    | nil => simp [StartsSolid, slash_not_blank]
    | cons d r => simp [StartsSolid, slash_not_blank]
  · have : StartsSolid (c :: r) ↔ ¬ Blank c := by
      unfold StartsSolid
      split <;> simp_all
    rw [this]; simp [hc]

theorem whitespaceBody_blank {c : Char} (hc : Blank c) (r : List Char) (t : Tail) :
    whitespaceBody () ⟨c :: r, t⟩ = .ok (.next ()) ⟨r, t⟩ := by
  have := (isSpace_iff c).2 hc
  simp [whitespaceBody, M.bind_apply, this]

theorem whitespaceBody_comment {body : List Char} (hb : NoClose body) (r : List Char) (t : Tail) :
    whitespaceBody () ⟨'/' :: '*' :: body ++ '*' :: '/' :: r, t⟩ = .ok (.next ()) ⟨r, t⟩ := by
  have h1 : isSpace '/' = false := rfl
  simp [whitespaceBody, M.bind_apply, h1, comment_close hb]

theorem whitespaceBody_open {s : List Char} (hs : NoClose s) (t : Tail) :
    whitespaceBody () ⟨'/' :: '*' :: s, t⟩ = .err (unclosedErr t) := by
  have h1 : isSpace '/' = false := rfl
  simp [whitespaceBody, M.bind_apply, h1, comment_open hs]

theorem whitespaceBody_stop {rest : List Char} {t : Tail} (h : Stops rest t) :
    whitespaceBody () ⟨rest, t⟩ = .ok (.done ()) ⟨rest, t⟩ := by
  obtain ⟨h1, h2⟩ := h
  cases rest with
  | nil => cases t with
    | eof => rfl
    | io => simp at h2
  | cons c r =>
    rw [startsSolid_cons] at h1
    have hc := (isSpace_false c).2 h1.1
    by_cases hs : c = '/'
    · subst hs
      cases r with
      | nil => cases t with
        | eof => rfl
        | io => simp at h2
      | cons d r =>
        have hd : d ≠ '*' := by simpa using h1.2
        simp [whitespaceBody, M.bind_apply, hc, hd]
    · simp [whitespaceBody, M.bind_apply, hc, hs]

theorem loop_whitespace {lay : List Char} (hl : Layout lay) {rest : List Char} {t : Tail}
    (hr : Stops rest t) (n : Nat) :
    loop (lay.length + 1 + n) whitespaceBody () ⟨lay ++ rest, t⟩ = .ok () ⟨rest, t⟩ := by
  induction hl generalizing n with
  | nil =>
    rw [show ([] : List Char).length + 1 + n = n + 1 by simp; omega]
    exact loop_done (whitespaceBody_stop hr)
  | @blank c s hc _ ih =>
    rw [show (c :: s).length + 1 + n = (s.length + 1 + n) + 1 by simp; omega]
    rw [List.cons_append, loop_next (whitespaceBody_blank hc _ t)]
    exact ih n
  | @comment body s hb _ ih =>
    rw [show ('/' :: '*' :: body ++ '*' :: '/' :: s).length + 1 + n
          = (s.length + 1 + (n + body.length + 3)) + 1 by simp; omega]
    have : '/' :: '*' :: body ++ '*' :: '/' :: s ++ rest = '/' :: '*' :: body ++ '*' :: '/' :: (s ++ rest) := by simp
    rw [this, loop_next (whitespaceBody_comment hb _ t)]
    exact ih _

theorem whitespace_layout {lay : List Char} (hl : Layout lay) {rest : List Char} {t : Tail}
    (hr : Stops rest t) : whitespace ⟨lay ++ rest, t⟩ = .ok () ⟨rest, t⟩ := by
  have := loop_whitespace hl hr rest.length
  unfold whitespace lexLoop
  simpa [Nat.add_assoc, Nat.add_comm, Nat.add_left_comm] using this

theorem whitespace_stop {rest : List Char} {t : Tail} (hr : Stops rest t) :
    whitespace ⟨rest, t⟩ = .ok () ⟨rest, t⟩ := by
  simpa using whitespace_layout .nil hr

theorem loop_whitespace_err {lay : List Char} (hl : Layout lay) {rest : List Char} {t : Tail} {e : Err}
    (hr : whitespaceBody () ⟨rest, t⟩ = .err e) (n : Nat) :
    loop (lay.length + 1 + n) whitespaceBody () ⟨lay ++ rest, t⟩ = .err e := by
  induction hl generalizing n with
  | nil =>
    rw [show ([] : List Char).length + 1 + n = n + 1 by simp; omega]
    exact loop_err hr
  | @blank c s hc _ ih =>
    rw [show (c :: s).length + 1 + n = (s.length + 1 + n) + 1 by simp; omega]
    rw [List.cons_append, loop_next (whitespaceBody_blank hc _ t)]
    exact ih n
  | @comment body s hb _ ih =>
    rw [show ('/' :: '*' :: body ++ '*' :: '/' :: s).length + 1 + n
          = (s.length + 1 + (n + body.length + 3)) + 1 by simp; omega]
    have : '/' :: '*' :: body ++ '*' :: '/' :: s ++ rest = '/' :: '*' :: body ++ '*' :: '/' :: (s ++ rest) := by simp
    rw [this, loop_next (whitespaceBody_comment hb _ t)]
    exact ih _

theorem whitespace_layout_err {lay : List Char} (hl : Layout lay) {rest : List Char} {t : Tail} {e : Err}
    (hr : whitespaceBody () ⟨rest, t⟩ = .err e) : whitespace ⟨lay ++ rest, t⟩ = .err e := by
  have := loop_whitespace_err hl hr rest.length
  unfold whitespace lexLoop
  simpa [Nat.add_assoc, Nat.add_comm, Nat.add_left_comm] using this

/-- Every text is layout followed by something solid, or by a comment that is never closed. -/
theorem layout_cases (s : List Char) :
    ∃ lay rest, s = lay ++ rest ∧ Layout lay ∧
      (StartsSolid rest ∨ ∃ body, rest = '/' :: '*' :: body ∧ NoClose body) := by
  generalize hn : s.length = n
  induction n using Nat.strongRecOn generalizing s with
  | ind n ih =>
    cases s with
    | nil => exact ⟨[], [], rfl, .nil, Or.inl trivial⟩
    | cons c s =>
      by_cases hc : Blank c
      · obtain ⟨lay, rest, rfl, hl, hr⟩ := ih s.length (by simp at hn; omega) s rfl
        exact ⟨c :: lay, rest, rfl, .blank hc hl, hr⟩
      · by_cases hs : c = '/' ∧ s.head? = some '*'
        · obtain ⟨rfl, hs⟩ := hs
          cases s with
          | nil => simp at hs
          | cons d s =>
            simp at hs; subst hs
            rcases close_cases s with h | ⟨body, r, rfl, hb⟩
            · exact ⟨[], _, rfl, .nil, Or.inr ⟨s, rfl, h⟩⟩
            · obtain ⟨lay, rest, rfl, hl, hr⟩ := ih r.length (by simp at hn; omega) r rfl
              refine ⟨'/' :: '*' :: body ++ '*' :: '/' :: lay, rest, by simp, .comment hb hl, hr⟩
        · exact ⟨[], c :: s, rfl, .nil, Or.inl (startsSolid_cons.2 ⟨hc, hs⟩)⟩

/-- The only three outcomes of skipping layout. -/
theorem whitespace_cases (l : Lex) :
    (∃ lay rest, l.chars = lay ++ rest ∧ Layout lay ∧ Stops rest l.tail ∧
        whitespace l = .ok () ⟨rest, l.tail⟩) ∨
    (∃ lay body, l.chars = lay ++ '/' :: '*' :: body ∧ Layout lay ∧ NoClose body ∧
        whitespace l = .err (unclosedErr l.tail)) ∨
    (l.tail = .io ∧ whitespace l = .err .io ∧ ∃ lay, Layout lay ∧ (l.chars = lay ∨ l.chars = lay ++ ['/'])) := by
  obtain ⟨cs, t⟩ := l
  obtain ⟨lay, rest, hs, hl, hr⟩ := layout_cases cs
  simp only at hs ⊢
  subst hs
  rcases hr with hr | ⟨body, rfl, hb⟩
  · by_cases hst : t = .io → rest ≠ [] ∧ rest ≠ ['/']
    · exact Or.inl ⟨lay, rest, rfl, hl, ⟨hr, hst⟩, whitespace_layout hl ⟨hr, hst⟩⟩
    · have ht : t = .io := by
        apply Classical.byContradiction; intro h; exact hst (fun h' => absurd h' h)
      subst ht
      right; right
      by_cases h0 : rest = []
      · subst h0; exact ⟨rfl, whitespace_layout_err hl rfl, lay, hl, Or.inl (by simp)⟩
      · have h1 : rest = ['/'] := by
          apply Classical.byContradiction; intro h; exact hst (fun _ => ⟨h0, h⟩)
        subst h1; exact ⟨rfl, whitespace_layout_err hl rfl, lay, hl, Or.inr rfl⟩
  · exact Or.inr (Or.inl ⟨lay, body, rfl, hl, hb, whitespace_layout_err hl (whitespaceBody_open hb t)⟩)

/-- What a successful skip did. -/
theorem whitespace_ok {l l' : Lex} (h : whitespace l = .ok () l') :
    ∃ lay, l.chars = lay ++ l'.chars ∧ Layout lay ∧ Stops l'.chars l.tail ∧ l'.tail = l.tail := by
  rcases whitespace_cases l with ⟨lay, rest, h1, h2, h3, h4⟩ | ⟨lay, body, h1, h2, h3, h4⟩ | ⟨_, h4, _⟩
  · rw [h4] at h; cases h; exact ⟨lay, h1, h2, h3, rfl⟩
  · rw [h4] at h; cases h
  · rw [h4] at h; cases h

/-! ### identifiers -/

theorem identTest (c : Char) : (!isLetter c && !isDigit c && decide (c ≠ '_')) = !isIdent c := by
  unfold isIdent
  by_cases h : c = '_'
  · simp [h]
  · have : (c == '_') = false := by simpa using h
    simp [h, this]

theorem identifierBody_ident {c : Char} (hc : IdentChar c) (res : Name) (r : List Char) (t : Tail) :
    identifierBody res ⟨c :: r, t⟩ = .ok (.next (res ++ [c])) ⟨r, t⟩ := by
  have h := (isIdent_iff c).2 hc
  have h2 := identTest c
  rw [h] at h2
  simp only [identifierBody, M.bind_apply, readChar_cons]
  rw [if_neg]
  · rfl
  · intro h3
    have : (!isLetter c && !isDigit c && decide (c ≠ '_')) = true := by
      simpa using h3
    rw [h2] at this; cases this

theorem identifierBody_other {c : Char} (hc : ¬ IdentChar c) (res : Name) (r : List Char) (t : Tail) :
    identifierBody res ⟨c :: r, t⟩ = .ok (.done res) ⟨c :: r, t⟩ := by
  have h : isIdent c = false := by rw [← isIdent_iff] at hc; simpa using hc
  have h2 := identTest c
  rw [h] at h2
  simp only [identifierBody, M.bind_apply, readChar_cons]
  rw [if_pos]
  · rfl
  · simpa using h2

theorem loop_identifier {ds : List Char} (hds : ∀ c ∈ ds, IdentChar c) (res : Name) {rest : List Char} {t : Tail}
    (hr : NotStarting IdentChar rest) (n : Nat) :
    loop (ds.length + 1 + n) identifierBody res ⟨ds ++ rest, t⟩ =
      if t = .io ∧ rest = [] then .err .io else .ok (res ++ ds) ⟨rest, t⟩ := by
  induction ds generalizing res n with
  | nil =>
    rw [show ([] : List Char).length + 1 + n = n + 1 by simp; omega]
    cases rest with
    | nil => cases t with
      | eof => simpa using loop_done (by rfl)
      | io => exact loop_err rfl
    | cons c r => simpa using loop_done (identifierBody_other hr res r t)
  | cons c ds ih =>
    rw [show (c :: ds).length + 1 + n = (ds.length + 1 + n) + 1 by simp; omega]
    rw [List.cons_append, loop_next (identifierBody_ident (hds c (by simp)) res _ t)]
    rw [ih (fun d hd => hds d (by simp [hd]))]
    simp

/-- Splitting off the longest prefix satisfying `p`. -/
theorem span_exists (p : Char → Prop) [DecidablePred p] (s : List Char) :
    ∃ ds rest, s = ds ++ rest ∧ (∀ c ∈ ds, p c) ∧ NotStarting p rest := by
  induction s with
  | nil => exact ⟨[], [], rfl, by simp, trivial⟩
  | cons c s ih =>
    by_cases hc : p c
    · obtain ⟨ds, rest, rfl, h1, h2⟩ := ih
      exact ⟨c :: ds, rest, rfl, by simpa [hc] using h1, h2⟩
    · exact ⟨[], c :: s, rfl, by simp, hc⟩

theorem lexLoop_identifier {ds : List Char} (hds : ∀ c ∈ ds, IdentChar c) (res : Name) {rest : List Char} {t : Tail}
    (hr : NotStarting IdentChar rest) :
    lexLoop identifierBody res ⟨ds ++ rest, t⟩ =
      if t = .io ∧ rest = [] then .err .io else .ok (res ++ ds) ⟨rest, t⟩ := by
  have := loop_identifier hds res (t := t) hr rest.length
  unfold lexLoop
  simpa [Nat.add_assoc, Nat.add_comm, Nat.add_left_comm] using this

theorem letter_not_blank {c : Char} (h : Letter c) : ¬ Blank c := by
  unfold Letter at h
  unfold Blank
  simp only [List.mem_cons, List.not_mem_nil, or_false]
  omega

theorem digit_not_blank {c : Char} (h : Digit c) : ¬ Blank c := by
  unfold Digit at h
  unfold Blank
  simp only [List.mem_cons, List.not_mem_nil, or_false]
  omega

theorem identChar_not_blank {c : Char} (h : IdentChar c) : ¬ Blank c := by
  rcases h with h | h | rfl
  · exact letter_not_blank h
  · exact digit_not_blank h
  · decide

theorem identChar_ne_slash {c : Char} (h : IdentChar c) : c ≠ '/' := by
  rintro rfl; revert h; decide

theorem stops_cons {c : Char} {r : List Char} {t : Tail} (h1 : ¬ Blank c) (h2 : c ≠ '/') : Stops (c :: r) t := by
  refine ⟨startsSolid_cons.2 ⟨h1, fun h => h2 h.1⟩, fun _ => ⟨by simp, ?_⟩⟩
  intro h; simp at h; exact h2 h.1

theorem identifier_eq {lay ds rest : List Char} {t : Tail} (hl : Layout lay) (hds : ∀ c ∈ ds, IdentChar c)
    (hr : NotStarting IdentChar rest) (hs : ds = [] → Stops rest t) :
    identifier ⟨lay ++ (ds ++ rest), t⟩ = if t = .io ∧ rest = [] then .err .io else .ok ds ⟨rest, t⟩ := by
  have hst : Stops (ds ++ rest) t := by
    cases ds with
    | nil => exact hs rfl
    | cons c ds => exact stops_cons (identChar_not_blank (hds c (by simp))) (identChar_ne_slash (hds c (by simp)))
  unfold identifier
  rw [M.bind_ok (whitespace_layout hl hst), lexLoop_identifier hds [] hr]
  simp

theorem identifier_ok {l l' : Lex} {name : Name} (h : identifier l = .ok name l') :
    ∃ lay, l.chars = lay ++ (name ++ l'.chars) ∧ Layout lay ∧ (∀ c ∈ name, IdentChar c) ∧
      NotStarting IdentChar l'.chars ∧ Stops (name ++ l'.chars) l.tail ∧
      (l.tail = .io → l'.chars ≠ []) ∧ l'.tail = l.tail := by
  unfold identifier at h
  rw [M.bind_eq_ok] at h; obtain ⟨_, l1, hw, h⟩ := h
  obtain ⟨lay, h1, h2, h3, h4⟩ := whitespace_ok hw
  obtain ⟨ds, rest, h5, h6, h7⟩ := span_exists IdentChar l1.chars
  have h8 := lexLoop_identifier h6 [] (t := l1.tail) h7
  have h9 : l1 = ⟨ds ++ rest, l1.tail⟩ := by rw [← h5]
  rw [h9, h8] at h
  split at h
  · cases h
  · rename_i hne
    simp at h
    cases h
    rename_i h10 h11
    subst h10 h11
    refine ⟨lay, by rw [h1, h5], h2, h6, h7, ?_, ?_, h4⟩
    · rw [← h5]; exact h3
    · intro ht hnil; exact hne ⟨by rw [h4, ht], hnil⟩

/-! ### numbers -/

theorem numberBody_digit {c : Char} (hc : Digit c) (base num : W) (c' : Char) (r : List Char) (t : Tail) :
    numberBody base (num, c) ⟨c' :: r, t⟩ = .ok (.next (num * base + digitVal c, c')) ⟨r, t⟩ := by
  have := (isDigit_iff c).2 hc
  simp [numberBody, M.bind_apply, this]

theorem numberBody_digit_nil {c : Char} (hc : Digit c) (base num : W) (t : Tail) :
    numberBody base (num, c) ⟨[], t⟩ =
      if t = .io then .err .io else .ok (.done (num * base + digitVal c)) ⟨[], t⟩ := by
  have := (isDigit_iff c).2 hc
  cases t <;> simp [numberBody, M.bind_apply, this]

theorem numberBody_other {c : Char} (hc : ¬ Digit c) (base num : W) (r : List Char) (t : Tail) :
    numberBody base (num, c) ⟨r, t⟩ = .ok (.done num) ⟨c :: r, t⟩ := by
  have := (isDigit_false c).2 hc
  simp [numberBody, M.bind_apply, this]

theorem digitVal_eq (c : Char) : digitVal c = BitVec.ofNat 64 (c.toNat - 48) := rfl

theorem digitsValue_step (b v d : Nat) (ds : List Char) :
    (v * b + d) * b ^ ds.length + digitsValue b ds = v * b ^ (ds.length + 1) + (d * b ^ ds.length + digitsValue b ds) := by
  rw [Nat.pow_succ, Nat.add_mul, Nat.mul_assoc, Nat.mul_comm b, Nat.add_assoc]

theorem loop_number {ds : List Char} (hds : ∀ c ∈ ds, Digit c) {c : Char} (hc : Digit c) (b v : Nat)
    {rest : List Char} {t : Tail} (hr : NotStarting Digit rest) (n : Nat) :
    loop (ds.length + 2 + n) (numberBody (BitVec.ofNat 64 b)) (BitVec.ofNat 64 v, c) ⟨ds ++ rest, t⟩ =
      if t = .io ∧ rest = [] then .err .io
      else .ok (BitVec.ofNat 64 (v * b ^ (ds.length + 1) + digitsValue b (c :: ds))) ⟨rest, t⟩ := by
  induction ds generalizing c v n with
  | nil =>
    have hv : BitVec.ofNat 64 v * BitVec.ofNat 64 b + digitVal c =
        BitVec.ofNat 64 (v * b ^ (([] : List Char).length + 1) + digitsValue b [c]) := by
      rw [digitVal_eq, ← BitVec.ofNat_mul, ← BitVec.ofNat_add]; simp [digitsValue]
    cases rest with
    | nil =>
      rw [show ([] : List Char).length + 2 + n = (n + 1) + 1 by simp; omega]
      have := numberBody_digit_nil hc (BitVec.ofNat 64 b) (BitVec.ofNat 64 v) t
      by_cases ht : t = .io
      · simp [ht] at this ⊢; exact loop_err this
      · simp only [ht, if_false] at this
        simp only [List.append_nil, ht, false_and, if_false]
        rw [loop_done this, hv]
    | cons c' r =>
      rw [show ([] : List Char).length + 2 + n = (n + 1) + 1 by simp; omega]
      rw [List.nil_append, loop_next (numberBody_digit hc _ _ c' r t), loop_done (numberBody_other hr _ _ r t), hv]
      simp
  | cons d ds ih =>
    rw [show (d :: ds).length + 2 + n = (ds.length + 2 + n) + 1 by simp; omega]
    rw [List.cons_append, loop_next (numberBody_digit hc _ _ d _ t), digitVal_eq, ← BitVec.ofNat_mul, ← BitVec.ofNat_add]
    rw [ih (fun x hx => hds x (by simp [hx])) (hds d (by simp)) (v * b + (c.toNat - 48)) n]
    congr 3
    have := digitsValue_step b v (c.toNat - 48) (d :: ds)
    simp only [List.length_cons] at this ⊢
    rw [this]
    simp [digitsValue]

theorem base_eq (c : Char) : (if c = '0' then (8 : W) else 10) = BitVec.ofNat 64 (if c = '0' then 8 else 10) := by
  split <;> rfl

theorem number_digits {lay ds rest : List Char} {t : Tail} (hl : Layout lay) (hne : ds ≠ []) (hds : ∀ c ∈ ds, Digit c)
    (hr : NotStarting Digit rest) :
    number ⟨lay ++ (ds ++ rest), t⟩ =
      if t = .io ∧ rest = [] then .err .io else .ok (BitVec.ofNat 64 (literalValue ds)) ⟨rest, t⟩ := by
  cases ds with
  | nil => exact absurd rfl hne
  | cons c ds =>
    have hc := hds c (by simp)
    have hst : Stops (c :: ds ++ rest) t := stops_cons (digit_not_blank hc) (by rintro rfl; revert hc; decide)
    unfold number
    rw [M.bind_ok (whitespace_layout hl hst)]
    have hro : readOrErr ⟨c :: ds ++ rest, t⟩ = .ok c ⟨ds ++ rest, t⟩ := rfl
    rw [M.bind_ok hro]
    have := loop_number (ds := ds) (fun x hx => hds x (by simp [hx])) hc (if c = '0' then 8 else 10) 0 (t := t) hr rest.length
    unfold numberLoop
    rw [base_eq]
    simp only [List.length_append]
    rw [show ds.length + rest.length + 2 = ds.length + 2 + rest.length by omega]
    refine this.trans ?_
    congr 3
    simp only [Nat.zero_mul, Nat.zero_add, literalValue, List.head?_cons, Option.some.injEq]
    split <;> rfl

/-- Called where there is no digit, `Number` yields 0 and consumes nothing but layout. -/
theorem number_nodigit {lay : List Char} {c : Char} {rest : List Char} {t : Tail} (hl : Layout lay)
    (hc : ¬ Digit c) (hst : Stops (c :: rest) t) :
    number ⟨lay ++ c :: rest, t⟩ = .ok 0 ⟨c :: rest, t⟩ := by
  unfold number
  rw [M.bind_ok (whitespace_layout hl hst)]
  have hro : readOrErr ⟨c :: rest, t⟩ = .ok c ⟨rest, t⟩ := rfl
  rw [M.bind_ok hro]
  exact loop_done (numberBody_other hc _ _ rest t)

theorem number_ok {l l' : Lex} {w : W} (h : number l = .ok w l') :
    ∃ lay ds, l.chars = lay ++ (ds ++ l'.chars) ∧ Layout lay ∧ (∀ c ∈ ds, Digit c) ∧
      NotStarting Digit l'.chars ∧ Stops (ds ++ l'.chars) l.tail ∧ l'.tail = l.tail ∧
      (l.tail = .io → l'.chars ≠ []) ∧ (ds = [] → l'.chars ≠ []) ∧
      w = BitVec.ofNat 64 (literalValue ds) := by
  obtain ⟨cs, t⟩ := l
  have hh := h
  unfold number at h
  rw [M.bind_eq_ok] at h; obtain ⟨_, l1, hw, h⟩ := h
  obtain ⟨lay, h1, h2, h3, h4⟩ := whitespace_ok hw
  obtain ⟨ds, rest, h5, h6, h7⟩ := span_exists Digit l1.chars
  simp only at h1 h3 h4 ⊢
  subst h1
  by_cases hne : ds = []
  · subst hne
    simp at h5
    cases rest with
    | nil =>
      obtain ⟨c1, t1⟩ := l1
      simp only at h5; subst h5
      cases t1 <;> (simp [M.bind_apply] at h)
    | cons c r =>
      rw [h5] at h3 hh
      rw [number_nodigit h2 h7 h3] at hh
      cases hh
      exact ⟨lay, [], by rw [h5]; simp, h2, by simp, h7, h3, rfl, by simp, by simp, rfl⟩
  · rw [h5] at hh
    rw [number_digits h2 hne h6 h7] at hh
    split at hh
    · cases hh
    · rename_i hx
      cases hh
      refine ⟨lay, ds, by rw [h5], h2, h6, h7, by rw [← h5]; exact h3, rfl, ?_, fun h => absurd h hne, rfl⟩
      intro ht hn; exact hx ⟨ht, hn⟩

/-! ### escapes, character constants, strings -/

theorem escape_mem {x : Char} {v : Nat} (h : (x, v) ∈ escapes) (r : List Char) (t : Tail) :
    escape ⟨x :: r, t⟩ = .ok (Char.ofNat v) ⟨r, t⟩ := by
  simp only [escapes, List.mem_cons, Prod.mk.injEq, List.not_mem_nil, or_false] at h
  rcases h with ⟨rfl, rfl⟩ | ⟨rfl, rfl⟩ | ⟨rfl, rfl⟩ | ⟨rfl, rfl⟩ | ⟨rfl, rfl⟩ | ⟨rfl, rfl⟩ | ⟨rfl, rfl⟩ |
    ⟨rfl, rfl⟩ | ⟨rfl, rfl⟩ | ⟨rfl, rfl⟩ <;> rfl

theorem escapes_small {x : Char} {v : Nat} (h : (x, v) ∈ escapes) : v < 128 := by
  simp only [escapes, List.mem_cons, Prod.mk.injEq, List.not_mem_nil, or_false] at h
  omega

theorem escape_ok {l l' : Lex} {c : Char} (h : escape l = .ok c l') :
    ∃ x v, (x, v) ∈ escapes ∧ l = ⟨x :: l'.chars, l'.tail⟩ ∧ c = Char.ofNat v := by
  obtain ⟨cs, t⟩ := l
  unfold escape at h
  rw [M.bind_eq_ok] at h; obtain ⟨x, l1, hr, h⟩ := h
  have hx : cs = x :: l1.chars ∧ l1.tail = t := by
    cases cs with
    | nil => cases t <;> simp at hr
    | cons d r => simp at hr; cases hr; rename_i h1 h2; subst h1 h2; exact ⟨rfl, rfl⟩
  obtain ⟨rfl, rfl⟩ := hx
  simp only [M.ite_apply', Bool.or_eq_true, decide_eq_true_eq] at h
  split at h
  · rename_i hx; cases h
    rcases hx with rfl | rfl
    · exact ⟨_, 0, by simp [escapes], rfl, rfl⟩
    · exact ⟨_, 0, by simp [escapes], rfl, rfl⟩
  split at h
  · rename_i hx; cases h
    rcases hx with (rfl | rfl) | rfl
    · exact ⟨_, 42, by simp [escapes], rfl, rfl⟩
    · exact ⟨_, 39, by simp [escapes], rfl, rfl⟩
    · exact ⟨_, 34, by simp [escapes], rfl, rfl⟩
  split at h
  · rename_i hx; cases h; subst hx; exact ⟨_, 123, by simp [escapes], rfl, rfl⟩
  split at h
  · rename_i hx; cases h; subst hx; exact ⟨_, 125, by simp [escapes], rfl, rfl⟩
  split at h
  · rename_i hx; cases h; subst hx; exact ⟨_, 9, by simp [escapes], rfl, rfl⟩
  split at h
  · rename_i hx; cases h; subst hx; exact ⟨_, 10, by simp [escapes], rfl, rfl⟩
  split at h
  · rename_i hx; cases h; subst hx; exact ⟨_, 13, by simp [escapes], rfl, rfl⟩
  · cases h

theorem readOrErr_ok {l l' : Lex} {c : Char} (h : readOrErr l = .ok c l') :
    l.chars = c :: l'.chars ∧ l'.tail = l.tail := by
  obtain ⟨cs, t⟩ := l
  cases cs with
  | nil => cases t <;> simp at h
  | cons d r => simp at h; cases h; rename_i h1 h2; subst h1 h2; exact ⟨rfl, rfl⟩

theorem readItem_item {q : Char} {x : List Char} {v : Nat} (h : Item q x v) (hq : q ≠ '*') (r : List Char) (t : Tail) :
    ∃ c xs, x = c :: xs ∧ c ≠ q ∧ readItem c ⟨xs ++ r, t⟩ = .ok (Char.ofNat v) ⟨r, t⟩ := by
  cases h with
  | @plain c h1 h2 =>
    refine ⟨c, [], rfl, h1, ?_⟩
    simp [readItem, h2]
  | @esc x v hx => exact ⟨'*', [x], rfl, hq.symm, by simpa [readItem] using escape_mem hx r t⟩

theorem readItem_ok {q c d : Char} {l l' : Lex} (hc : c ≠ q) (h : readItem c l = .ok d l') :
    ∃ x v, Item q x v ∧ c :: l.chars = x ++ l'.chars ∧ l'.tail = l.tail ∧ d = Char.ofNat v := by
  unfold readItem at h
  rw [M.ite_apply'] at h
  split at h
  · rename_i hs; subst hs
    obtain ⟨x, v, h1, h2, h3⟩ := escape_ok h
    subst h2
    exact ⟨_, v, .esc h1, rfl, rfl, h3⟩
  · rename_i hs
    cases h
    exact ⟨[c], c.toNat, .plain hc hs, rfl, rfl, by simp⟩

theorem charOfNat_toNat {v : Nat} (hv : v < 0xd800) : (Char.ofNat v).toNat = v := by
  have h : v.isValidChar := Or.inl hv
  simp [Char.ofNat, h, Char.toNat, Char.ofNatAux]

theorem pack_step {value v : Nat} (hv : v < 256) :
    (BitVec.ofNat 64 value <<< 8 ||| BitVec.ofNat 64 ((Char.ofNat v).toNat % 256) : W) =
      BitVec.ofNat 64 (value * 256 + v) := by
  have h1 : (Char.ofNat v).toNat = v := by
    exact charOfNat_toNat (by omega)
  rw [h1, Nat.mod_eq_of_lt hv]
  apply BitVec.eq_of_toNat_eq
  simp only [BitVec.toNat_or, BitVec.toNat_shiftLeft, BitVec.toNat_ofNat]
  rw [Nat.mod_eq_of_lt (show v < 2 ^ 64 by omega)]
  have h2 : (value % 2 ^ 64) <<< 8 % 2 ^ 64 = (value % 2 ^ 56) <<< 8 := by
    rw [Nat.shiftLeft_eq, Nat.shiftLeft_eq]; omega
  rw [h2, ← Nat.shiftLeft_add_eq_or_of_lt (by simpa using hv), Nat.shiftLeft_eq]
  omega

theorem items_cons_inv {q : Char} {ts : List Char} {v : Nat} {vs : List Nat} (h : Items q ts (v :: vs)) :
    ∃ t ts', ts = t ++ ts' ∧ Item q t v ∧ Items q ts' vs := by
  cases h with
  | cons h1 h2 => exact ⟨_, _, rfl, h1, h2⟩

theorem characterLoop_items {ts : List Char} {vs : List Nat} (h : Items '\'' ts vs) (k : Nat) (hk : vs.length ≤ k)
    (value : Nat) (hv : ∀ v ∈ vs, v < 256) (rest : List Char) (t : Tail) :
    characterLoop k (BitVec.ofNat 64 value) ⟨ts ++ '\'' :: rest, t⟩ =
      .ok (BitVec.ofNat 64 (value * 256 ^ vs.length + pack vs)) ⟨rest, t⟩ := by
  induction h generalizing k value with
  | nil =>
    cases k with
    | zero => simp [characterLoop, M.bind_apply, pack]
    | succ k => simp [characterLoop, M.bind_apply, pack]
  | @cons x ts v vs hi _ ih =>
    cases k with
    | zero => simp at hk
    | succ k =>
      obtain ⟨c, xs, rfl, hc, hri⟩ := readItem_item hi (by decide) (ts ++ '\'' :: rest) t
      have hro : readOrErr ⟨c :: xs ++ ts ++ '\'' :: rest, t⟩ = .ok c ⟨xs ++ (ts ++ '\'' :: rest), t⟩ := by simp
      rw [characterLoop, M.bind_ok hro, if_neg hc, M.bind_ok hri, pack_step (hv v (by simp)),
        ih k (by simp at hk; omega) _ (fun u hu => hv u (by simp [hu]))]
      congr 2
      simp only [List.length_cons, pack, Nat.pow_succ, Nat.add_mul, Nat.mul_assoc, Nat.mul_comm 256, Nat.add_assoc]

theorem characterLoop_ok {k : Nat} {value w : W} {l l' : Lex} (h : characterLoop k value l = .ok w l') :
    ∃ ts vs, Items '\'' ts vs ∧ vs.length ≤ k ∧ l.chars = ts ++ '\'' :: l'.chars ∧ l'.tail = l.tail := by
  induction k generalizing value l with
  | zero =>
    unfold characterLoop at h
    rw [M.bind_eq_ok] at h; obtain ⟨rc, l1, hr, h⟩ := h
    obtain ⟨cs, t⟩ := l
    cases cs with
    | nil => cases t <;> (simp at hr; cases hr; rename_i h1 h2; subst h1; cases h)
    | cons c r =>
      simp at hr; cases hr; rename_i h1 h2; subst h1 h2
      simp only [M.ite_apply'] at h
      split at h
      · cases h
      · rename_i hc
        cases h
        have : c = '\'' := by simpa using hc
        subst this
        exact ⟨[], [], .nil, by simp, rfl, rfl⟩
  | succ k ih =>
    unfold characterLoop at h
    rw [M.bind_eq_ok] at h; obtain ⟨c, l1, hr, h⟩ := h
    obtain ⟨h1, h2⟩ := readOrErr_ok hr
    rw [M.ite_apply'] at h
    split at h
    · rename_i hc; subst hc
      cases h
      exact ⟨[], [], .nil, by simp, h1, h2⟩
    · rename_i hc
      rw [M.bind_eq_ok] at h; obtain ⟨d, l2, hd, h⟩ := h
      obtain ⟨x, v, h3, h4, h5, _⟩ := readItem_ok hc hd
      obtain ⟨ts, vs, h6, h7, h8, h9⟩ := ih h
      exact ⟨x ++ ts, v :: vs, .cons h3 h6, by simp; omega, by rw [h1, h4, h8]; simp, by rw [h9, h5, h2]⟩

theorem stringBody_item {x : List Char} {v : Nat} (hi : Item '"' x v) (res : List Char) (r : List Char) (t : Tail) :
    stringBody res ⟨x ++ r, t⟩ = .ok (.next (res ++ [Char.ofNat v])) ⟨r, t⟩ := by
  obtain ⟨c, xs, rfl, hc, hri⟩ := readItem_item hi (by decide) r t
  have hrd : readChar ⟨c :: xs ++ r, t⟩ = .ok (.ch c) ⟨xs ++ r, t⟩ := rfl
  unfold stringBody
  rw [M.bind_ok hrd]
  simp only [hc, if_false]
  rw [M.bind_ok hri]; rfl

theorem loop_string {ts : List Char} {vs : List Nat} (h : Items '"' ts vs) (res rest : List Char) (t : Tail) (n : Nat) :
    loop (ts.length + 1 + n) stringBody res ⟨ts ++ '"' :: rest, t⟩ = .ok (res ++ vs.map Char.ofNat) ⟨rest, t⟩ := by
  induction h generalizing res n with
  | nil =>
    rw [show ([] : List Char).length + 1 + n = n + 1 by simp; omega]
    rw [loop_done (by rfl)]; simp
  | @cons x ts v vs hi _ ih =>
    have hx : 1 ≤ x.length := by cases hi <;> simp
    rw [show (x ++ ts).length + 1 + n = (ts.length + 1 + (n + (x.length - 1))) + 1 by simp; omega]
    rw [List.append_assoc, loop_next (stringBody_item hi res _ t), ih]
    simp

theorem stringLit_items {ts : List Char} {vs : List Nat} (h : Items '"' ts vs) (rest : List Char) (t : Tail) :
    stringLit ⟨ts ++ '"' :: rest, t⟩ = .ok (vs.map Char.ofNat) ⟨rest, t⟩ := by
  have := loop_string h [] rest t (rest.length + 1)
  unfold stringLit lexLoop
  simpa [Nat.add_assoc, Nat.add_comm, Nat.add_left_comm] using this

theorem stringBody_next_ok {res res' : List Char} {l l' : Lex} (h : stringBody res l = .ok (.next res') l') :
    ∃ x v, Item '"' x v ∧ l.chars = x ++ l'.chars ∧ l'.tail = l.tail ∧ res' = res ++ [Char.ofNat v] := by
  obtain ⟨cs, t⟩ := l
  unfold stringBody at h
  cases cs with
  | nil => cases t <;> (simp [M.bind_apply] at h)
  | cons c r =>
    rw [M.bind_ok (readChar_cons c r t)] at h
    simp only [M.ite_apply'] at h
    split at h
    · cases h
    · rename_i hc
      rw [M.bind_eq_ok] at h; obtain ⟨d, l2, hd, h⟩ := h
      obtain ⟨x, v, h3, h4, h5, h6⟩ := readItem_ok hc hd
      cases h
      exact ⟨x, v, h3, h4, h5, by rw [h6]⟩

theorem stringBody_done_ok {res res' : List Char} {l l' : Lex} (h : stringBody res l = .ok (.done res') l') :
    l.chars = '"' :: l'.chars ∧ l'.tail = l.tail ∧ res' = res := by
  obtain ⟨cs, t⟩ := l
  unfold stringBody at h
  cases cs with
  | nil => cases t <;> (simp [M.bind_apply] at h)
  | cons c r =>
    rw [M.bind_ok (readChar_cons c r t)] at h
    simp only [M.ite_apply'] at h
    split at h
    · rename_i hc; subst hc; cases h; exact ⟨rfl, rfl, rfl⟩
    · rw [M.bind_eq_ok] at h; obtain ⟨d, l2, hd, h⟩ := h
      cases h

theorem items_snoc {q : Char} {ts x : List Char} {vs : List Nat} {v : Nat} (h : Items q ts vs) (hx : Item q x v) :
    Items q (ts ++ x) (vs ++ [v]) := by
  induction h with
  | nil => simpa using Items.cons hx .nil
  | cons h1 _ ih => simpa using Items.cons h1 ih

theorem stringLit_ok {l l' : Lex} {s : List Char} (h : stringLit l = .ok s l') :
    ∃ ts vs, Items '"' ts vs ∧ l.chars = ts ++ '"' :: l'.chars ∧ l'.tail = l.tail ∧ s = vs.map Char.ofNat := by
  unfold stringLit lexLoop at h
  refine loop_inv
    (fun res s => ∃ ts vs, Items '"' ts vs ∧ l.chars = ts ++ s.chars ∧ s.tail = l.tail ∧ res = vs.map Char.ofNat)
    (fun r s => ∃ ts vs, Items '"' ts vs ∧ l.chars = ts ++ '"' :: s.chars ∧ s.tail = l.tail ∧ r = vs.map Char.ofNat)
    ?_ ?_ ⟨[], [], .nil, by simp, rfl, rfl⟩ h
  · rintro res s1 res' s2 ⟨ts, vs, h1, h2, h3, h4⟩ hb
    obtain ⟨x, v, h5, h6, h7, h8⟩ := stringBody_next_ok hb
    exact ⟨ts ++ x, vs ++ [v], items_snoc h1 h5, by rw [h2, h6]; simp, by rw [h7, h3], by rw [h8, h4]; simp⟩
  · rintro res s1 res' s2 ⟨ts, vs, h1, h2, h3, h4⟩ hb
    obtain ⟨h5, h6, h7⟩ := stringBody_done_ok hb
    exact ⟨ts, vs, h1, by rw [h2, h5], by rw [h6, h3], by rw [h7, h4]⟩

theorem expectChar_cons (c : Char) (m : String) (r : List Char) (t : Tail) :
    expectChar c m ⟨c :: r, t⟩ = .ok () ⟨r, t⟩ := by
  simp [expectChar, M.bind_apply]

theorem expectChar_ok {c : Char} {m : String} {l l' : Lex} (h : expectChar c m l = .ok () l') :
    l.chars = c :: l'.chars ∧ l'.tail = l.tail := by
  obtain ⟨cs, t⟩ := l
  cases cs with
  | nil => cases t <;> simp [expectChar, M.bind_apply] at h
  | cons d r =>
    simp only [expectChar, M.bind_apply, readChar_cons, M.ite_apply'] at h
    split at h
    · cases h
    · rename_i hc
      cases h
      have : d = c := by simpa using hc
      subst this; exact ⟨rfl, rfl⟩

end Blang
