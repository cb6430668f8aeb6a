import Verif.Spec.Comments
import Verif.Proofs.SoundDecl
/-
Properties C02 (whole programs) and C09.
-/
namespace Blang.Props
open Blang Blang.Spec

theorem run_append (m : Mode) (a b : List Char) : m.run (a ++ b) = (m.run a).run b := by simp [Mode.run]
theorem run_cons (m : Mode) (c : Char) (b : List Char) : m.run (c :: b) = (m.next c).run b := rfl

/-- same fate: both end in a comment or neither does -/
def Same (m m' : Mode) : Prop := (∃ s, m = .comment s) ↔ ∃ s, m' = .comment s

theorem Same.of_eq {m m' : Mode} (h : m = m') : Same m m' := by rw [h]; exact Iff.rfl
theorem Same.trans {a b c : Mode} (h1 : Same a b) (h2 : Same b c) : Same a c := Iff.trans h1 h2

/-- after a maximal symbol the automaton is as at the beginning -/
theorem after_sym {s rest : List Char} (hm : MaxMunch s rest) (hne : s ≠ []) :
    Same (Mode.run (.code s) rest) (Mode.run (.code []) rest) := by
  cases rest with
  | nil => simp [Same, Mode.run]
  | cons c r =>
    apply Same.of_eq
    rw [run_cons, run_cons]
    congr 1
    have h1 : s ++ [c] ∉ ['/', '*'] :: symbols := by
      intro h
      refine hm [c] ?_ ⟨r, rfl⟩
      unfold extensions
      rw [List.mem_filterMap]
      refine ⟨s ++ [c], h, ?_⟩
      simp [List.isPrefixOf_iff_prefix]
    have h2 : s ++ [c] ≠ ['/', '*'] := fun h => h1 (by rw [h]; simp)
    have h3 : s ++ [c] ∉ symbols := fun h => h1 (by simp [h])
    have h4 : ¬ ([] ++ [c] = ['/', '*']) := by simp
    simp only [Mode.next]
    rw [if_neg h2, if_neg (by intro h; exact h3 h.1), if_neg h4, if_neg (by simp)]

theorem run_sym {s rest : List Char} (hs : s ∈ symbols) (hm : MaxMunch s rest) :
    Same (Mode.run (.code []) (s ++ rest)) (Mode.run (.code []) rest) := by
  have key : ∀ s ∈ symbols, s ≠ [] ∧ (Mode.run (.code []) s = .code s ∨
      (s = ['=', '!', '='] ∧ Mode.run (.code []) s = .code ['!', '='])) := by decide
  obtain ⟨hne, h | ⟨h1, h⟩⟩ := key s hs
  · rw [run_append, h]; exact after_sym hm hne
  · rw [run_append, h]
    refine after_sym ?_ (by simp)
    intro x hx
    have : extensions ['!', '='] = [] := by decide
    rw [this] at hx; cases hx

/-- characters that are neither quotes nor the beginning of a symbol -/
def PlainC (c : Char) : Prop := c ≠ '"' ∧ c ≠ '\'' ∧ [c] ∉ symbols

theorem next_plain {c : Char} (h : PlainC c) : Mode.next (.code []) c = .code [] := by
  simp only [Mode.next]
  rw [if_neg (by simp), if_neg (by simp)]
  unfold Mode.start
  rw [if_neg (not_or.2 ⟨h.1, h.2.1⟩), if_neg h.2.2]

theorem run_plain {w rest : List Char} (h : ∀ c ∈ w, PlainC c) : Mode.run (.code []) (w ++ rest) = Mode.run (.code []) rest := by
  induction w with
  | nil => rfl
  | cons c w ih =>
    rw [List.cons_append, run_cons, next_plain (h c (by simp))]
    exact ih fun d hd => h d (by simp [hd])

theorem symbols_chars : ∀ s ∈ symbols, ∀ c ∈ s, c ∈ "()[]{},;:?+-!=*/%&|<>".toList := by decide

theorem plain_of {c : Char} (h : c ∉ "()[]{},;:?+-!=*/%&|<>\"'".toList) : PlainC c := by
  have : ∀ d ∈ "()[]{},;:?+-!=*/%&|<>".toList, d ∈ "()[]{},;:?+-!=*/%&|<>\"'".toList := by decide
  refine ⟨?_, ?_, fun hs => h (this _ (symbols_chars _ hs c (by simp)))⟩
  · rintro rfl; exact h (by decide)
  · rintro rfl; exact h (by decide)

theorem ident_plain {c : Char} (h : IdentChar c) : PlainC c := by
  apply plain_of
  intro hm
  have : ∀ c ∈ "()[]{},;:?+-!=*/%&|<>\"'".toList, ¬ IdentChar c := by decide
  exact this c hm h

theorem blank_plain {c : Char} (h : Blank c) : PlainC c := by
  apply plain_of
  intro hm
  have : ∀ c ∈ "()[]{},;:?+-!=*/%&|<>\"'".toList, ¬ Blank c := by decide
  exact this c hm h

theorem run_comment {body rest : List Char} (h : NoClose body) (b : Bool) (hb : b = true → NotStarting (· = '/') body) :
    Mode.run (.comment b) (body ++ '*' :: '/' :: rest) = Mode.run (.code []) rest := by
  induction body generalizing b with
  | nil => cases b <;> rfl
  | cons c body ih =>
    have h' : NoClose body := fun hi => h (hi.trans ⟨[c], [], by simp⟩)
    rw [List.cons_append, run_cons]
    have : Mode.next (.comment b) c = .comment (c = '*') := by
      simp only [Mode.next]
      rw [if_neg]
      rintro ⟨h1, h2⟩
      exact hb (by simpa using h1) h2
    rw [this]
    refine ih h' _ ?_
    intro hc
    simp at hc
    subst hc
    cases body with
    | nil => trivial
    | cons d body =>
      intro hd
      have hd : d = '/' := hd
      subst hd
      exact h ⟨[], body, by simp⟩

theorem run_layout {lay rest : List Char} (h : Layout lay) : Mode.run (.code []) (lay ++ rest) = Mode.run (.code []) rest := by
  induction h with
  | nil => rfl
  | blank hb _ ih => rw [List.cons_append, run_cons, next_plain (blank_plain hb)]; exact ih
  | @comment body s hb _ ih =>
    have : '/' :: '*' :: body ++ '*' :: '/' :: s ++ rest = '/' :: '*' :: (body ++ '*' :: '/' :: (s ++ rest)) := by simp
    rw [this, run_cons, run_cons]
    have : (Mode.next (.code []) '/').next '*' = .comment false := by decide
    rw [this, run_comment hb false (by simp)]
    exact ih

theorem run_items {q : Char} {t rest : List Char} {vs : List Nat} (hq : q ≠ '*') (h : Items q t vs) :
    Mode.run (.quoted q false) (t ++ rest) = Mode.run (.quoted q false) rest := by
  induction h with
  | nil => rfl
  | cons hi _ ih =>
    rw [List.append_assoc]
    cases hi with
    | plain h1 h2 =>
      rw [List.singleton_append, run_cons]
      simp only [Mode.next, if_neg h1, decide_eq_false h2]; exact ih
    | esc h =>
      rename_i x
      simp only [List.cons_append, List.nil_append]
      rw [run_cons, run_cons]
      simp only [Mode.next, if_neg (Ne.symm hq)]; exact ih

theorem run_quoted {q : Char} {t rest : List Char} {vs : List Nat} (hq : q = '"' ∨ q = '\'') (h : Items q t vs) :
    Mode.run (.code []) (q :: t ++ q :: rest) = Mode.run (.code []) rest := by
  have h1 : Mode.next (.code []) q = .quoted q false := by rcases hq with rfl | rfl <;> decide
  have h2 : q ≠ '*' := by rcases hq with rfl | rfl <;> decide
  rw [List.cons_append, run_cons, h1, run_items h2 h, run_cons]
  simp [Mode.next]

/-- The characters that must not follow `else` directly (see `C02_else_counterexample`). -/
def badAfterElse : List Char := ['+', '-', '!', '=', '/', '<', '>', '"', '\'']

theorem run_swallow {c : Char} {rest : List Char} (h : c ∉ badAfterElse) :
    Same (Mode.run (.code []) (c :: rest)) (Mode.run (.code []) rest) := by
  by_cases hs : [c] ∈ symbols
  · have : ∀ s ∈ symbols, ∀ d, s = [d] → d ∉ badAfterElse → extensions [d] = [] := by
      intro s hs d hd hb
      have : ∀ s ∈ symbols, s.length = 1 → (∀ x ∈ badAfterElse, s ≠ [x]) → extensions s = [] := by decide
      subst hd
      exact this _ hs rfl (by rintro x hx e; cases e; exact hb hx)
    have he := this _ hs c rfl h
    exact run_sym (s := [c]) hs (by intro x hx; rw [he] at hx; cases hx)
  · apply Same.of_eq
    rw [run_cons, next_plain ⟨?_, ?_, hs⟩]
    · rintro rfl; exact h (by decide)
    · rintro rfl; exact h (by decide)

theorem utf8Bytes_plain {c : Char} (h : IdentChar c) : ∀ d ∈ utf8Bytes c, PlainC d := by
  intro d hd
  unfold utf8Bytes at hd
  split at hd
  · simp at hd; subst hd; exact ident_plain h
  · have big : 128 ≤ d.toNat := by
      simp only [List.mem_cons, List.not_mem_nil, or_false] at hd
      rcases hd with rfl | rfl
      · rw [charOfNat_toNat (by omega)]; omega
      · rw [charOfNat_toNat (by omega)]; omega
    have key : ∀ s ∈ ['"'] :: ['\''] :: symbols, ∀ x ∈ s, x.toNat < 128 := by decide
    refine ⟨?_, ?_, ?_⟩
    · rintro rfl; revert big; decide
    · rintro rfl; revert big; decide
    · intro hm
      have := key [d] (by simp [hm]) d (by simp)
      omega

theorem utf8Bytes_ascii {w : List Char} (h : ∀ c ∈ w, c.toNat < 128) : w.flatMap utf8Bytes = w := by
  induction w with
  | nil => rfl
  | cons c w ih =>
    rw [List.flatMap_cons, ih fun d hd => h d (by simp [hd])]
    unfold utf8Bytes
    rw [if_pos (h c (by simp))]; rfl

theorem split_head {w r w' rest : List Char} (he : w ++ r = w' ++ rest) (hw : ∀ c ∈ w, IdentChar c)
    (hr : NotStarting IdentChar rest) : rest <:+ r := by
  rw [List.append_eq_append_iff] at he
  rcases he with ⟨a, h1, h2⟩ | ⟨a, h1, h2⟩
  · exact ⟨a, h2.symm⟩
  · cases a with
    | nil => simp at h2; rw [h2]; exact List.suffix_refl _
    | cons c a =>
      rw [h2] at hr
      exact absurd (hw c (by rw [h1]; simp)) hr

/-- In an ASCII text what follows a token is a suffix of the text. -/
theorem lexes_suffix {inp rest : List Char} {t : Tok} (h : Lexes true inp t rest) (ha : ∀ c ∈ inp, c.toNat < 128) : rest <:+ inp := by
  cases h with
  | num | word | defn | head => exact ⟨_, rfl⟩
  | chr => exact List.suffix_append_of_suffix ⟨['\''], rfl⟩
  | str => exact List.suffix_append_of_suffix ⟨['"'], rfl⟩
  | @headQuirk w lay r w' rest _ _ hd _ _ hl he _ hw' hr =>
    rw [utf8Bytes_ascii fun c hc => ha c (by simp [hc])] at he
    exact (split_head he hd hr).trans ⟨w ++ lay, by simp⟩
  | @els c | @elsQuirk c => exact ⟨['e', 'l', 's', 'e', c], rfl⟩
  | elsEnd => exact List.nil_suffix
  | sym => exact ⟨_, rfl⟩
  | symNul => exact List.suffix_append_of_suffix ⟨['\x00'], rfl⟩

/-- one token -/
theorem run_token {inp rest : List Char} {t : Tok} (h : Lexes true inp t rest) :
    Same (Mode.run (.code []) inp) (Mode.run (.code []) rest) ∨
    (∃ c ∈ badAfterElse, inp = 'e' :: 'l' :: 's' :: 'e' :: c :: rest ∧ t = .els) := by
  cases h with
  | num _ hd _ => exact .inl (.of_eq (run_plain fun c hc => ident_plain (.inr (.inl (hd c hc)))))
  | chr hi _ => exact .inl (.of_eq (run_quoted (.inr rfl) hi))
  | str hi => exact .inl (.of_eq (run_quoted (.inl rfl) hi))
  | word _ hd _ | defn _ hd _ => exact .inl (.of_eq (run_plain fun c hc => ident_plain (hd c hc)))
  | head _ hd _ _ => exact .inl (.of_eq (run_plain fun c hc => ident_plain (hd c hc)))
  | @headQuirk w lay r w' rest _ _ hd _ _ hl he _ hw' hr =>
    refine .inl (.of_eq ?_)
    rw [run_plain fun c hc => ident_plain (hd c hc), run_layout hl]
    have e1 := run_plain (w := w.flatMap utf8Bytes) (rest := r) (fun c hc => by
      obtain ⟨d, h1, h2⟩ := List.mem_flatMap.1 hc
      exact utf8Bytes_plain (hd d h1) c h2)
    have e2 := run_plain (rest := rest) fun c hc => ident_plain (hw' c hc)
    rw [← e1, he, e2]
  | els hb =>
    rename_i c
    refine .inl (.of_eq ?_)
    refine run_plain (w := ['e', 'l', 's', 'e', c]) ?_
    intro d hd
    simp only [List.mem_cons, List.not_mem_nil, or_false] at hd
    rcases hd with rfl | rfl | rfl | rfl | rfl
    · exact ident_plain (by decide)
    · exact ident_plain (by decide)
    · exact ident_plain (by decide)
    · exact ident_plain (by decide)
    · exact blank_plain hb
  | elsEnd => exact .inl (.of_eq (by decide))
  | @elsQuirk c rest _ _ _ =>
    by_cases hb : c ∈ badAfterElse
    · exact .inr ⟨c, hb, rfl, rfl⟩
    refine .inl (Same.trans (.of_eq (run_plain (w := ['e', 'l', 's', 'e']) ?_)) (run_swallow hb))
    intro d hd
    simp only [List.mem_cons, List.not_mem_nil, or_false] at hd
    rcases hd with rfl | rfl | rfl | rfl <;> exact ident_plain (by decide)
  | sym hm hmm => exact .inl (run_sym hm hmm)
  | @symNul s rest _ hsp =>
    have hm : MaxMunch s ('\x00' :: rest) := by
      intro x hx
      rcases hsp with rfl | rfl
      · have : extensions ['+'] = [['+']] := by decide
        rw [this] at hx; simp at hx; subst hx; simp
      · have : extensions ['-'] = [['-']] := by decide
        rw [this] at hx; simp at hx; subst hx; simp
    exact .inl (Same.trans (run_sym (by rcases hsp with rfl | rfl <;> decide) hm) (run_swallow (by decide)))

theorem run_tokens {inp rest : List Char} {ts : List Tok} (h : TokSeq true inp ts rest) :
    Same (Mode.run (.code []) inp) (Mode.run (.code []) rest) ∨
    ∃ c ∈ badAfterElse, ∃ us vs r, ts = us ++ .els :: vs ∧ TokSeq true inp us ('e' :: 'l' :: 's' :: 'e' :: c :: r) ∧ TokSeq true r vs rest := by
  induction h with
  | nil hl => exact .inl (.of_eq (run_layout hl))
  | @cons lay inp mid rest t ts hl ht hn ih =>
    rcases run_token ht with h1 | ⟨c, hc, rfl, rfl⟩
    · rcases ih with h2 | ⟨c, hc, us, vs, r, rfl, h3, h4⟩
      · exact .inl (Same.trans (.of_eq (run_layout hl)) (Same.trans h1 h2))
      · exact .inr ⟨c, hc, t :: us, vs, r, rfl, .cons hl ht h3, h4⟩
    · exact .inr ⟨c, hc, [], ts, mid, rfl, .nil hl, hn⟩

/-! ## C02 -/

/-- Read as the compiler does, the text has a keyword `else` that is directly followed by the character `c`. -/
def KeywordElse (c : Char) (text : List Char) : Prop :=
  ∃ us vs rest p, TokSeq true text us ('e' :: 'l' :: 's' :: 'e' :: c :: rest) ∧ TokSeq true rest vs [] ∧
    ProgGram prec true (us ++ .els :: vs) p

/-- C02. A text that ends inside a comment is not accepted.
Missing: the character after the keyword `else` is lost, so a comment that begins there is not seen
(`C02_else_counterexample`); the theorem assumes that no keyword `else` is directly followed by a quote or
an operator character other than `*`, `%`, `&`, `|`. -/
theorem C02_program_partial {chars : List Char} {t : Tail} (hs : ∀ c ∈ badAfterElse, ¬ KeywordElse c chars)
    (hc : EndsInComment chars) : ∃ e, compileText chars t = .error e := by
  match h : compileText chars t with
  | .error e => exact ⟨e, rfl⟩
  | .ok m =>
    exfalso
    obtain ⟨p, c, ⟨ts, h1, hg⟩, _⟩ := compileText_sound h
    rcases run_tokens h1 with h2 | ⟨c, hb, us, vs, r, rfl, h3, h4⟩
    · obtain ⟨s, hs'⟩ := h2.1 hc
      cases hs'
    · exact hs c hb ⟨us, vs, r, p, h3, h4, hg⟩

/-- In particular when the word `else` does not occur before such a character. -/
theorem keywordElse_infix {c : Char} {text : List Char} (h : KeywordElse c text) : ['e', 'l', 's', 'e', c] <:+: text ∨ ∃ d ∈ text, 128 ≤ d.toNat := by
  obtain ⟨us, vs, rest, p, h1, -, -⟩ := h
  by_cases ha : ∃ d ∈ text, 128 ≤ d.toNat
  · exact .inr ha
  · left
    have : ∀ {inp r : List Char} {ts : List Tok}, TokSeq true inp ts r → (∀ d ∈ inp, d.toNat < 128) → r <:+ inp := by
      intro inp r ts h
      induction h with
      | nil _ => intro _; exact ⟨_, rfl⟩
      | @cons lay inp mid rest t ts hl ht _ ih =>
        intro ha
        have h2 : mid <:+ inp := lexes_suffix ht fun d hd => ha d (by simp [hd])
        exact ((ih fun d hd => ha d (by have := h2.subset hd; simp [this])).trans h2).trans ⟨lay, rfl⟩
    have h2 := this h1 (fun d hd => by
      by_cases h : d.toNat < 128
      · exact h
      · exact absurd ⟨d, hd, by omega⟩ ha)
    exact List.IsInfix.trans ⟨[], rest, rfl⟩ h2.isInfix

/-- a text that ends in a comment, with strings, operators and `else` in a name and a string before it -/
example : EndsInComment "main(){ x = \"/* else/\" =/ y; } /* open *".toList ∧
    ∀ c ∈ badAfterElse, ¬ KeywordElse c "main(){ x = \"/* else?\" =/ y; } /* open *".toList := by
  refine ⟨⟨true, by decide +kernel⟩, ?_⟩
  intro c hc hk
  rcases keywordElse_infix hk with h | h
  · have : ∀ c ∈ badAfterElse, ¬ ['e', 'l', 's', 'e', c] <:+: "main(){ x = \"/* else?\" =/ y; } /* open *".toList := by decide +kernel
    exact this c hc h
  · exact absurd h (by decide +kernel)

/-- C02 is false after `else`: the `/` is lost and the rest of the text is compiled. -/
theorem C02_else_counterexample : EndsInComment "main(){if(1);else/*f();}".toList ∧
    (∃ m, compileText "main(){if(1);else/*f();}".toList .eof = .ok m) := by
  refine ⟨⟨false, by decide +kernel⟩, ?_⟩
  have : (match compileText "main(){if(1);else/*f();}".toList .eof with | .ok _ => true | .error _ => false) = true := by
    decide +kernel
  match h : compileText "main(){if(1);else/*f();}".toList .eof with
  | .ok m => exact ⟨m, rfl⟩
  | .error e => rw [h] at this; cases this

/-! ## C09 -/

/-- C09. If reading the file fails after some bytes, with anything but end of file, compilation fails. -/
theorem C09_read_error (bytes : List (BitVec 8)) : ∃ e, compileFile bytes .io = .error e := by
  match h : compileFile bytes .io with
  | .error e => exact ⟨e, rfl⟩
  | .ok m =>
    have h' : compileText (bytes.map fun b => Char.ofNat b.toNat) .io = .ok m := h
    obtain ⟨_, _, _, ht, _⟩ := compileText_sound h'
    cases ht

/-- the same bytes with a normal end of file are a program -/
example : (match compileFile ("main(){}".toList.map fun c => BitVec.ofNat 8 c.toNat) .eof with
    | .ok m => m.funcs.map (·.sym) | .error _ => []) = ["main".toList] := by decide +kernel

end Blang.Props
