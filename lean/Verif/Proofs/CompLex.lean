import Verif.Spec.Careful
import Verif.Proofs.SoundStmt
import Verif.Proofs.Scope
/-
Completeness of the parser, first part: what the lexer functions do on a text given by its tokens.
-/
namespace Blang
open Spec

/-- parser state with text `l` and compiler state `c` -/
def st (l : List Char) (c : CState) : PS := ⟨⟨l, .eof⟩, c⟩

/-! ### comparing the parser with the generator -/

/-- The parser result `x` is what the generator result `y` says: both fail, or both succeed with the same value and
compiler state and `K` holds of the remaining text. (Or the fuel was not enough.) -/
def Sim {α : Type} (K : List Char → Prop) (x : R PS α) (y : R CState α) : Prop :=
  x = .err .fuel ∨ ((∃ e, x = .err e) ∧ ∃ e, y = .err e) ∨ ∃ a c m, y = .ok a c ∧ x = .ok a (st m c) ∧ K m

section
variable {α β : Type} {K K' : List Char → Prop} {l : List Char} {c : CState}

theorem Sim.bind {f : P α} {g : B α} {k : α → P β} {k' : α → B β} (h : Sim K (f (st l c)) (g c))
    (hk : ∀ a c' m, g c = .ok a c' → K m → Sim K' (k a (st m c')) (k' a c')) :
    Sim K' ((f >>= k) (st l c)) ((g >>= k') c) := by
  rcases h with h | ⟨⟨e, h⟩, e', h'⟩ | ⟨a, c', m, h', h, hm⟩
  · rw [M.bind_err h]; exact .inl rfl
  · rw [M.bind_err h, M.bind_err h']; exact .inr (.inl ⟨⟨_, rfl⟩, _, rfl⟩)
  · rw [M.bind_ok h, M.bind_ok h']; exact hk a c' m h' hm

theorem Sim.lx {f : L α} {k : α → P β} {a : α} {m : List Char} {y : R CState β}
    (h : f ⟨l, .eof⟩ = .ok a ⟨m, .eof⟩) (hk : Sim K (k a (st m c)) y) : Sim K ((lx f >>= k) (st l c)) y := by
  have : Blang.lx f (st l c) = .ok a (st m c) := by
    show (match f ⟨l, .eof⟩ with | .ok a l => R.ok a { st l.chars c with lex := l } | .err e => .err e) = _
    rw [h]; rfl
  rw [M.bind_ok this]; exact hk

theorem lx_st {f : L α} {a : α} {m : List Char} (h : f ⟨l, .eof⟩ = .ok a ⟨m, .eof⟩) : lx f (st l c) = .ok a (st m c) := by
  show (match f ⟨l, .eof⟩ with | .ok a l => R.ok a { st l.chars c with lex := l } | .err e => .err e) = _
  rw [h]; rfl

theorem lx_st_err {f : L α} {e : Err} (h : f ⟨l, .eof⟩ = .err e) : lx f (st l c) = .err e := by
  show (match f ⟨l, .eof⟩ with | .ok a l => R.ok a { st l.chars c with lex := l } | .err e => .err e) = _
  rw [h]

theorem bd_st {f : B α} {a : α} {c' : CState} (h : f c = .ok a c') : Blang.bd f (st l c) = .ok a (st l c') := by
  show (match f c with | .ok a c' => R.ok a { st l c with c := c' } | .err e => .err e) = _
  rw [h]; rfl

theorem bd_st_err {f : B α} {e : Err} (h : f c = .err e) : Blang.bd f (st l c) = .err e := by
  show (match f c with | .ok a c' => R.ok a { st l c with c := c' } | .err e => .err e) = _
  rw [h]

theorem Sim.bd {f : B α} {k : α → P β} {k' : α → B β}
    (hk : ∀ a c', f c = .ok a c' → Sim K (k a (st l c')) (k' a c')) :
    Sim K ((Blang.bd f >>= k) (st l c)) ((f >>= k') c) := by
  cases h : f c with
  | err e =>
    have : Blang.bd f (st l c) = .err e := by
      show (match f c with | .ok a c' => R.ok a { st l c with c := c' } | .err e => .err e) = _
      rw [h]
    rw [M.bind_err this, M.bind_err h]; exact .inr (.inl ⟨⟨_, rfl⟩, _, rfl⟩)
  | ok a c' =>
    have : Blang.bd f (st l c) = .ok a (st l c') := by
      show (match f c with | .ok a c' => R.ok a { st l c with c := c' } | .err e => .err e) = _
      rw [h]; rfl
    rw [M.bind_ok this, M.bind_ok h]; exact hk a c' h

theorem Sim.bdLast {f : B α} (hk : K l) : Sim K (Blang.bd f (st l c)) (f c) := by
  have : Sim K ((Blang.bd f >>= pure) (st l c)) ((f >>= pure) c) :=
    Sim.bd fun a c' _ => .inr (.inr ⟨a, c', l, rfl, rfl, hk⟩)
  have e1 : (Blang.bd f >>= pure) = Blang.bd f := by
    funext s; rw [M.bind_apply]; cases Blang.bd f s <;> rfl
  have e2 : (f >>= pure) = f := by
    funext s; rw [M.bind_apply]; cases f s <;> rfl
  rw [e1, e2] at this; exact this

theorem Sim.ok {a : α} (hk : K l) : Sim K ((pure a : P α) (st l c)) ((pure a : B α) c) :=
  .inr (.inr ⟨a, c, l, rfl, rfl, hk⟩)

theorem Sim.err {e e' : Err} : Sim (α := α) K (.err e) (.err e') := .inr (.inl ⟨⟨_, rfl⟩, _, rfl⟩)

theorem Sim.fuel {y : R CState α} : Sim K (.err .fuel) y := .inl rfl

theorem Sim.mono {x : R PS α} {y : R CState α} (h : Sim K x y) (hk : ∀ m, K m → K' m) : Sim K' x y := by
  rcases h with h | h | ⟨a, c', m, h', h, hm⟩
  · exact .inl h
  · exact .inr (.inl h)
  · exact .inr (.inr ⟨a, c', m, h', h, hk m hm⟩)
end

theorem M.bind_assoc' {σ α β γ : Type} (x : M σ α) (f : α → M σ β) (g : β → M σ γ) :
    (x >>= f) >>= g = x >>= fun a => f a >>= g := by
  funext s
  simp only [M.bind_apply]
  cases x s <;> rfl

theorem M.pure_bind' {σ α β : Type} (a : α) (f : α → M σ β) : (pure a : M σ α) >>= f = f a := rfl

theorem loop_step {σ β ρ : Type} (n : Nat) (body : β → M σ (Iter β ρ)) (b : β) :
    loop (n + 1) body b = body b >>= fun it => match it with
      | .next b' => loop n body b'
      | .done r => pure r := rfl

/-! ### tokens at the beginning of a text -/

/-- the text after a token -/
def After (t : Tok) (r : List Char) (ts : List Tok) : Prop :=
  ∃ lay rest, r = lay ++ rest ∧ Layout lay ∧ TextE rest ts ∧ (∀ u us, ts = u :: us → Tight t u → lay = [])

theorem After.spaced {t : Tok} {r : List Char} {ts : List Tok} (h : After t r ts) : SpacedE r ts := by
  obtain ⟨lay, rest, h1, h2, h3, _⟩ := h
  exact ⟨lay, rest, h1, h2, h3⟩

theorem After.tight {t u : Tok} {r : List Char} {us : List Tok} (h : After t r (u :: us)) (ht : Tight t u) :
    TextE r (u :: us) := by
  obtain ⟨lay, rest, h1, h2, h3, h4⟩ := h
  have := h4 u us rfl ht
  subst this; rw [h1]; exact h3

theorem Spec.TextE.spaced {l : List Char} {ts : List Tok} (h : TextE l ts) : SpacedE l ts := ⟨[], l, rfl, .nil, h⟩

theorem lexes_quirks {inp rest : List Char} {t : Tok} (h : Lexes false inp t rest) : Lexes true inp t rest := by
  cases h with
  | num h1 h2 h3 => exact .num h1 h2 h3
  | chr h1 h2 => exact .chr h1 h2
  | str h1 => exact .str h1
  | word h1 h2 h3 => exact .word h1 h2 h3
  | defn h1 h2 h3 => exact .defn h1 h2 h3
  | head h1 h2 h3 h4 => exact .head h1 h2 h3 h4
  | headQuirk h => cases h
  | els h => exact .els h
  | elsEnd => exact .elsEnd
  | elsQuirk h => cases h
  | sym h1 h2 => exact .sym h1 h2
  | symNul h => cases h

theorem Spec.LexesE.quirk {a b : List Char} {t : Tok} (h : LexesE a t b) : Lexes true a t b := by
  cases h with
  | swallow n1 n2 => exact .elsQuirk rfl n1 n2
  | doc h => exact lexes_quirks h

theorem text_inv {m : List Char} {t : Tok} {ts : List Tok} (h : TextE m (t :: ts)) :
    ∃ r, LexesE m t r ∧ t.Plain ∧ After t r ts := by
  cases h with
  | cons h1 h2 h3 h4 h5 => exact ⟨_, h1, h2, _, _, rfl, h3, h5, h4⟩

theorem text_nil {m : List Char} (h : TextE m []) : m = [] := by cases h; rfl

theorem text_num {m : List Char} {ds : List Char} {ts : List Tok} (h : TextE m (.num ds :: ts)) :
    ∃ r, m = ds ++ r ∧ ds ≠ [] ∧ (∀ c ∈ ds, Digit c) ∧ NotStarting Digit r ∧ After (.num ds) r ts := by
  obtain ⟨r, h1, _, h2⟩ := text_inv h
  cases h1 with
  | doc h1 =>
    cases h1 with
    | num a b c => exact ⟨_, rfl, a, b, c, h2⟩

theorem text_chr {m : List Char} {vs : List Nat} {ts : List Tok} (h : TextE m (.chr vs :: ts)) :
    ∃ t r, m = '\'' :: t ++ '\'' :: r ∧ Items '\'' t vs ∧ vs.length ≤ 8 ∧ After (.chr vs) r ts := by
  obtain ⟨r, h1, _, h2⟩ := text_inv h
  cases h1 with
  | doc h1 =>
    cases h1 with
    | chr a b => exact ⟨_, _, rfl, a, b, h2⟩

theorem text_str {m : List Char} {vs : List Nat} {ts : List Tok} (h : TextE m (.str vs :: ts)) :
    ∃ t r, m = '"' :: t ++ '"' :: r ∧ Items '"' t vs ∧ After (.str vs) r ts := by
  obtain ⟨r, h1, _, h2⟩ := text_inv h
  cases h1 with
  | doc h1 =>
    cases h1 with
    | str a => exact ⟨_, _, rfl, a, h2⟩

theorem text_word {m : List Char} {w : List Char} {ts : List Tok} (h : TextE m (.word w :: ts)) :
    ∃ r, m = w ++ r ∧ w ≠ [] ∧ (∀ c ∈ w, IdentChar c) ∧ NotStarting IdentChar r ∧
      (w ≠ "else".toList ∧ ¬ "else_".toList <+: w) ∧ After (.word w) r ts := by
  obtain ⟨r, h1, h3, h2⟩ := text_inv h
  cases h1 with
  | doc h1 =>
    cases h1 with
    | word a b c => exact ⟨_, rfl, a, b, c, h3, h2⟩

theorem text_defn {m : List Char} {w : List Char} {ts : List Tok} (h : TextE m (.defn w :: ts)) :
    ∃ r, m = w ++ r ∧ w ≠ [] ∧ (∀ c ∈ w, IdentChar c) ∧ NotStarting IdentChar r ∧ After (.defn w) r ts := by
  obtain ⟨r, h1, h3, h2⟩ := text_inv h
  cases h1 with
  | doc h1 =>
    cases h1 with
    | defn a b c => exact ⟨_, rfl, a, b, c, h2⟩

theorem text_head {m : List Char} {w : List Char} {ts : List Tok} (h : TextE m (.head w :: ts)) :
    ∃ r, m = w ++ r ∧ StartsLetter w ∧ (∀ c ∈ w, IdentChar c) ∧ NotStarting IdentChar r ∧ w ∉ keywords ∧
      ((w ≠ "else".toList ∧ ¬ "else_".toList <+: w) ∧ ∀ c ∈ w, c.toNat < 128) ∧ After (.head w) r ts := by
  obtain ⟨r, h1, h3, h2⟩ := text_inv h
  cases h1 with
  | doc h1 =>
    cases h1 with
    | head a b c d => exact ⟨_, rfl, a, b, c, d, h3, h2⟩
    | headQuirk hq => exact absurd hq (by decide)

theorem text_els {m : List Char} {ts : List Tok} (h : TextE m (.els :: ts)) :
    (∃ b r, (¬ Letter b ∧ ¬ Digit b) ∧ m = 'e' :: 'l' :: 's' :: 'e' :: b :: r ∧ SpacedE r ts) ∨
    (m = ['e', 'l', 's', 'e'] ∧ SpacedE [] ts) := by
  obtain ⟨r, h1, h3, h2⟩ := text_inv h
  cases h1 with
  | doc h1 =>
    cases h1 with
    | els hb => exact .inl ⟨_, _, ⟨fun h => letter_not_blank h hb, fun h => digit_not_blank h hb⟩, rfl, h2.spaced⟩
    | elsEnd => exact .inr ⟨rfl, h2.spaced⟩
    | elsQuirk hq => exact absurd hq (by decide)
  | swallow n1 n2 => exact .inl ⟨_, _, ⟨n1, n2⟩, rfl, h2.spaced⟩

theorem text_sym {m : List Char} {s : List Char} {ts : List Tok} (h : TextE m (.sym s :: ts)) :
    ∃ r, m = s ++ r ∧ s ∈ symbols ∧ MaxMunch s r ∧ After (.sym s) r ts := by
  obtain ⟨r, h1, h3, h2⟩ := text_inv h
  cases h1 with
  | doc h1 =>
    cases h1 with
    | sym a b => exact ⟨_, rfl, a, b, h2⟩
    | symNul hq => exact absurd hq (by decide)

theorem sym_not_blank : ∀ s ∈ symbols, ∀ c, s.head? = some c → ¬ Blank c := by decide

/-- A token never begins with layout. -/
theorem Spec.TextE.stops {m : List Char} {ts : List Tok} (h : TextE m ts) : Stops m .eof := by
  refine ⟨?_, fun h => by cases h⟩
  cases ts with
  | nil => rw [text_nil h]; trivial
  | cons t ts =>
    obtain ⟨r, h1, _, _⟩ := text_inv h
    obtain ⟨c, x, rfl, hc⟩ := lexes_first h1.quirk
    rw [startsSolid_cons]
    cases t with
    | num => exact ⟨digit_not_blank hc, fun h => identChar_ne_slash (.inr (.inl hc)) h.1⟩
    | chr => simp only at hc; subst hc; exact ⟨by decide, fun h => absurd h.1 (by decide)⟩
    | str => simp only at hc; subst hc; exact ⟨by decide, fun h => absurd h.1 (by decide)⟩
    | word | defn => exact ⟨identChar_not_blank hc, fun h => identChar_ne_slash hc h.1⟩
    | head => exact ⟨letter_not_blank hc, fun h => identChar_ne_slash (.inl hc) h.1⟩
    | els => simp only at hc; subst hc; exact ⟨by decide, fun h => absurd h.1 (by decide)⟩
    | sym s =>
      refine ⟨sym_not_blank s hc.2 c hc.1, ?_⟩
      rintro ⟨rfl, hx⟩
      have hs : ∀ s ∈ symbols, s.head? = some '/' → s = ['/'] := by decide
      have := hs s hc.2 hc.1
      subst this
      obtain ⟨r', e, _, hm, _⟩ := text_sym h
      simp at e; subst e
      cases x with
      | nil => simp at hx
      | cons d x =>
        simp at hx; subst hx
        exact hm ['*'] (by rw [ext_div]; simp) ⟨x, rfl⟩

theorem Spec.TextE.ws {m : List Char} {ts : List Tok} (h : TextE m ts) : whitespace ⟨m, .eof⟩ = .ok () ⟨m, .eof⟩ :=
  whitespace_stop h.stops

theorem Spec.SpacedE.ws {l : List Char} {ts : List Tok} (h : SpacedE l ts) :
    ∃ m, TextE m ts ∧ whitespace ⟨l, .eof⟩ = .ok () ⟨m, .eof⟩ := by
  obtain ⟨lay, m, rfl, h1, h2⟩ := h
  exact ⟨m, h2, whitespace_layout h1 h2.stops⟩

theorem Spec.SpacedE.toks {l : List Char} {ts : List Tok} (h : SpacedE l ts) : ∀ t ∈ ts, TokOk t := by
  obtain ⟨lay, m, -, -, h⟩ := h
  induction h with
  | nil => simp
  | cons h1 _ _ _ _ ih =>
    intro t ht
    rcases List.mem_cons.1 ht with rfl | ht
    · exact lexes_tokOk h1.quirk
    · exact ih t ht

/-! ### lexer functions -/

theorem ident_text {l w r : List Char} {lay : List Char} (hl : Layout lay) (e : l = lay ++ (w ++ r)) (hw : w ≠ [])
    (h1 : ∀ c ∈ w, IdentChar c) (h2 : NotStarting IdentChar r) : identifier ⟨l, .eof⟩ = .ok w ⟨r, .eof⟩ := by
  rw [e, identifier_eq hl h1 h2 (fun h => absurd h hw)]
  simp

theorem number_text {ds r : List Char} (hn : ds ≠ []) (h1 : ∀ c ∈ ds, Digit c) (h2 : NotStarting Digit r) :
    number ⟨ds ++ r, .eof⟩ = .ok (BitVec.ofNat 64 (literalValue ds)) ⟨r, .eof⟩ := by
  have := number_digits (lay := []) (t := .eof) .nil hn h1 h2
  simpa using this

theorem item_val {q : Char} {x : List Char} {v : Nat} (h : Item q x v) : (Char.ofNat v).toNat = v := by
  cases h with
  | plain => rw [Char.ofNat_toNat]
  | esc he => exact charOfNat_toNat (by have := escapes_small he; omega)

theorem characterLoop_text {ts : List Char} {vs : List Nat} (h : Items '\'' ts vs) : ∀ (k : Nat), vs.length ≤ k →
    ∀ (V : Nat) (r : List Char), characterLoop k (BitVec.ofNat 64 V) ⟨ts ++ '\'' :: r, .eof⟩ =
      .ok (BitVec.ofNat 64 (V * 256 ^ vs.length + pack (vs.map (· % 256)))) ⟨r, .eof⟩ := by
  induction h with
  | nil =>
    intro k _ V r
    cases k with
    | zero => simp [characterLoop, M.bind_apply, pack]
    | succ k => simp [characterLoop, M.bind_apply, pack]
  | @cons t ts v vs hi _ ih =>
    intro k hk V r
    cases k with
    | zero => simp at hk
    | succ k =>
      obtain ⟨c, xs, rfl, hc, hr⟩ := readItem_item hi (by decide) (ts ++ '\'' :: r) .eof
      unfold characterLoop
      have e : (c :: xs ++ ts) ++ '\'' :: r = c :: (xs ++ (ts ++ '\'' :: r)) := by simp
      rw [e, M.bind_ok (readOrErr_cons _ _ _), if_neg hc, M.bind_ok hr, item_val hi, pack_step', ih k (by simpa using hk)]
      congr 2
      simp only [List.map_cons, pack, List.length_cons, List.length_map]
      rw [Nat.pow_succ, Nat.add_mul, Nat.mul_assoc, Nat.mul_comm 256, Nat.add_assoc]

theorem character_text {ts : List Char} {vs : List Nat} (h : Items '\'' ts vs) (hl : vs.length ≤ 8) (r : List Char) :
    character ⟨ts ++ '\'' :: r, .eof⟩ = .ok (charValue vs) ⟨r, .eof⟩ := by
  have := characterLoop_text h 8 hl 0 r
  simpa [character, wordSize, charValue] using this

end Blang
