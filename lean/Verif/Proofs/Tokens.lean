import Verif.Proofs.Lexer
import Verif.Proofs.Gen
/-
Facts about token sequences, and what the lexer functions of the model consume in terms of tokens.
-/
namespace Blang
open Spec

theorem Spec.Layout.append {a b : List Char} (ha : Layout a) (hb : Layout b) : Layout (a ++ b) := by
  induction ha with
  | nil => exact hb
  | blank h _ ih => exact .blank h ih
  | @comment body s h _ ih => simpa using Layout.comment h ih

namespace Spec.TokSeq
variable {q : Bool}

theorem lay {l a b : List Char} {ts : List Tok} (hl : Layout l) (h : TokSeq q a ts b) : TokSeq q (l ++ a) ts b := by
  cases h with
  | @nil l2 _ h2 => rw [← List.append_assoc]; exact .nil (Layout.append hl h2)
  | @cons l2 inp mid _ _ _ h2 h3 h4 => rw [← List.append_assoc]; exact .cons (Layout.append hl h2) h3 h4

theorem append {a b c : List Char} {ts us : List Tok} (h1 : TokSeq q a ts b) (h2 : TokSeq q b us c) :
    TokSeq q a (ts ++ us) c := by
  induction h1 with
  | nil hl => exact h2.lay hl
  | cons hl ht _ ih => exact .cons hl ht (ih h2)

theorem refl (a : List Char) : TokSeq q a [] a := by simpa using TokSeq.nil (quirks := q) (rest := a) .nil

theorem one {a b : List Char} {t : Tok} (h : Lexes q a t b) : TokSeq q a [t] b := by
  simpa using TokSeq.cons .nil h (TokSeq.refl b)

end Spec.TokSeq

/-- The parser went from `s` to `s'` by consuming the tokens `ts`. -/
def Eats (s : PS) (ts : List Tok) (s' : PS) : Prop :=
  TokSeq true s.lex.chars ts s'.lex.chars ∧ s'.lex.tail = s.lex.tail

theorem Eats.trans {s t u : PS} {a b : List Tok} (h1 : Eats s a t) (h2 : Eats t b u) : Eats s (a ++ b) u :=
  ⟨h1.1.append h2.1, h2.2.trans h1.2⟩

theorem Eats.refl (s : PS) : Eats s [] s := ⟨.refl _, rfl⟩

theorem Eats.bd {s s' : PS} (h : s'.lex = s.lex) : Eats s [] s' := by
  unfold Eats; rw [h]; exact ⟨.refl _, rfl⟩

theorem Eats.cast {s s' : PS} {a b : List Tok} (h : Eats s a s') (e : a = b) : Eats s b s' := e ▸ h

theorem lx_ok {α : Type} {f : L α} {s s' : PS} {a : α} (h : lx f s = .ok a s') :
    f s.lex = .ok a s'.lex ∧ s'.c = s.c := by
  unfold lx at h
  cases hf : f s.lex with
  | err e => rw [hf] at h; cases h
  | ok b l => rw [hf] at h; cases h; exact ⟨rfl, rfl⟩

theorem bd_ok {α : Type} {f : B α} {s s' : PS} {a : α} (h : bd f s = .ok a s') :
    f s.c = .ok a s'.c ∧ s'.lex = s.lex := by
  unfold bd at h
  cases hf : f s.c with
  | err e => rw [hf] at h; cases h
  | ok b l => rw [hf] at h; cases h; exact ⟨rfl, rfl⟩

theorem ws_ok {s s' : PS} (h : lx whitespace s = .ok () s') :
    Eats s [] s' ∧ s'.c = s.c ∧ Stops s'.lex.chars s.lex.tail := by
  obtain ⟨h, hc⟩ := lx_ok h
  obtain ⟨lay, h1, h2, h3, h4⟩ := whitespace_ok h
  refine ⟨⟨?_, h4⟩, hc, h3⟩
  rw [h1]; exact .nil h2

theorem readChar_ok {l l' : Lex} {r : RC} (h : readChar l = .ok r l') :
    (∃ c, r = .ch c ∧ l.chars = c :: l'.chars ∧ l'.tail = l.tail) ∨
    (r = .eof ∧ l.chars = [] ∧ l.tail = .eof ∧ l' = l) ∨
    (r = .io ∧ l.chars = [] ∧ l.tail = .io ∧ l' = l) := by
  obtain ⟨cs, t⟩ := l
  cases cs with
  | nil => cases t <;> (simp [readChar] at h; obtain ⟨rfl, rfl⟩ := h; simp)
  | cons c cs => simp [readChar] at h; obtain ⟨rfl, rfl⟩ := h; simp

theorem rd_ok {s s' : PS} {r : RC} (h : lx readChar s = .ok r s') :
    s'.c = s.c ∧ s'.lex.tail = s.lex.tail ∧
    ((∃ c, r = .ch c ∧ s.lex.chars = c :: s'.lex.chars) ∨
     (r = .eof ∧ s.lex.chars = [] ∧ s.lex.tail = .eof ∧ s'.lex.chars = []) ∨
     (r = .io ∧ s.lex.chars = [] ∧ s.lex.tail = .io ∧ s'.lex.chars = [])) := by
  obtain ⟨h, hc⟩ := lx_ok h
  rcases readChar_ok h with ⟨c, h1, h2, h3⟩ | ⟨h1, h2, h3, h4⟩ | ⟨h1, h2, h3, h4⟩
  · exact ⟨hc, h3, .inl ⟨c, h1, h2⟩⟩
  · exact ⟨hc, by rw [h4], .inr (.inl ⟨h1, h2, h3, by rw [h4]; exact h2⟩)⟩
  · exact ⟨hc, by rw [h4], .inr (.inr ⟨h1, h2, h3, by rw [h4]; exact h2⟩)⟩

theorem un_ok {s s' : PS} {c : Char} (h : lx (unreadChar c) s = .ok () s') :
    s'.c = s.c ∧ s'.lex.tail = s.lex.tail ∧ s'.lex.chars = c :: s.lex.chars := by
  obtain ⟨h, hc⟩ := lx_ok h
  unfold unreadChar at h; cases h' : s'.lex; rw [h'] at h; cases h
  exact ⟨hc, rfl, rfl⟩

theorem re_ok {s s' : PS} {c : Char} (h : lx readOrErr s = .ok c s') :
    s'.c = s.c ∧ s'.lex.tail = s.lex.tail ∧ s.lex.chars = c :: s'.lex.chars := by
  obtain ⟨h, hc⟩ := lx_ok h
  obtain ⟨h1, h2⟩ := readOrErr_ok h
  exact ⟨hc, h2, h1⟩

theorem exp_ok {s s' : PS} {c : Char} {m : String} (h : lx (expectChar c m) s = .ok () s') :
    s'.c = s.c ∧ s'.lex.tail = s.lex.tail ∧ s.lex.chars = c :: s'.lex.chars := by
  obtain ⟨h, hc⟩ := lx_ok h
  obtain ⟨h1, h2⟩ := expectChar_ok h
  exact ⟨hc, h2, h1⟩

/-- `unreadRC` puts back what `readChar` read. -/
theorem unRC_ok {s t u : PS} {r : RC} (h : lx readChar s = .ok r t) (h2 : lx (unreadRC r) t = .ok () u) :
    u = s := by
  obtain ⟨⟨cs, tl⟩, c⟩ := s
  cases cs with
  | nil =>
    cases tl <;> (simp [lx, readChar] at h; obtain ⟨rfl, rfl⟩ := h; simp [lx, unreadRC] at h2; exact h2.symm)
  | cons d cs =>
    simp [lx, readChar] at h; obtain ⟨rfl, rfl⟩ := h; simp [lx, unreadRC, unreadChar] at h2; exact h2.symm

theorem rd_un {s t u : PS} {c : Char} (h : lx readChar s = .ok (.ch c) t) (h2 : lx (unreadChar c) t = .ok () u) :
    u = s := unRC_ok h h2

theorem ps_ext {s t : PS} (h1 : s.lex.chars = t.lex.chars) (h2 : s.lex.tail = t.lex.tail) (h3 : s.c = t.c) : s = t := by
  obtain ⟨⟨a, b⟩, c⟩ := s
  obtain ⟨⟨d, e⟩, f⟩ := t
  simp at h1 h2 h3
  subst h1 h2 h3; rfl

/-- a symbol at the current position -/
theorem eats_sym {s s' : PS} {x : List Char} (hm : x ∈ symbols) (hx : s.lex.chars = x ++ s'.lex.chars)
    (hmax : MaxMunch x s'.lex.chars) (ht : s'.lex.tail = s.lex.tail) : Eats s [.sym x] s' := by
  refine ⟨?_, ht⟩
  rw [hx]; exact .one (.sym hm hmax)

theorem munch_nil {x r : List Char} (h : extensions x = []) : MaxMunch x r := by
  intro y hy; rw [h] at hy; cases hy

/-- symbols that are no prefix of another symbol -/
theorem eats_sym1 {s s' : PS} {x : Char} (hm : [x] ∈ symbols) (hx : s.lex.chars = x :: s'.lex.chars)
    (he : extensions [x] = []) (ht : s'.lex.tail = s.lex.tail) : Eats s [.sym [x]] s' :=
  eats_sym hm hx (munch_nil he) ht

theorem munch_one {x r : List Char} {c : Char} (he : extensions x = [[c]]) (h : r.head? ≠ some c) : MaxMunch x r := by
  intro y hy; rw [he] at hy; simp at hy; subst hy
  rintro ⟨t, rfl⟩; simp at h

theorem munch_two {x r : List Char} {c d : Char} (he : extensions x = [[c], [d]]) (h : r.head? ≠ some c)
    (h2 : r.head? ≠ some d) : MaxMunch x r := by
  intro y hy; rw [he] at hy; simp at hy
  rcases hy with rfl | rfl
  · rintro ⟨t, rfl⟩; simp at h
  · rintro ⟨t, rfl⟩; simp at h2

/-- the value of a character constant -/
theorem pack_step' (value x : Nat) :
    (BitVec.ofNat 64 value <<< 8 ||| BitVec.ofNat 64 (x % 256) : W) = BitVec.ofNat 64 (value * 256 + x % 256) := by
  have h := pack_step (value := value) (v := x % 256) (Nat.mod_lt _ (by decide))
  rw [charOfNat_toNat (by omega), Nat.mod_mod] at h
  exact h

theorem characterLoop_value {k : Nat} {value w : W} {l l' : Lex} {V : Nat} (hV : value = BitVec.ofNat 64 V)
    (h : characterLoop k value l = .ok w l') :
    ∃ ts vs, Items '\'' ts vs ∧ vs.length ≤ k ∧ l.chars = ts ++ '\'' :: l'.chars ∧ l'.tail = l.tail ∧
      w = BitVec.ofNat 64 (V * 256 ^ vs.length + pack (vs.map (· % 256))) := by
  induction k generalizing value l V with
  | zero =>
    unfold characterLoop at h
    rw [M.bind_eq_ok] at h; obtain ⟨rc, l1, hr, h⟩ := h
    rcases readChar_ok hr with ⟨c, rfl, h2, h3⟩ | ⟨rfl, h2, h3, h4⟩ | ⟨rfl, h2, h3, h4⟩
    · simp only [M.ite_apply'] at h
      split at h
      · cases h
      · rename_i hc
        simp at hc h; obtain ⟨rfl, rfl⟩ := h
        refine ⟨[], [], .nil, by simp, by simp [h2, hc], h3, ?_⟩
        simp [pack, hV]
    · cases h
    · cases h
  | succ k ih =>
    unfold characterLoop at h
    rw [M.bind_eq_ok] at h; obtain ⟨c, l1, hr, h⟩ := h
    obtain ⟨h2, h3⟩ := readOrErr_ok hr
    rw [M.ite_apply'] at h
    split at h
    · rename_i hc
      simp at h; obtain ⟨rfl, rfl⟩ := h
      refine ⟨[], [], .nil, by simp, by simp [h2, hc], h3, ?_⟩
      simp [pack, hV]
    · rename_i hc
      rw [M.bind_eq_ok] at h; obtain ⟨d, l2, hi, h⟩ := h
      obtain ⟨x, v, i1, i2, i3, i4⟩ := readItem_ok (q := '\'') hc hi
      have hv : (Char.ofNat v).toNat = v := by
        cases i1 with
        | plain => rw [Char.ofNat_toNat]
        | esc he => exact charOfNat_toNat (by have := escapes_small he; omega)
      have := ih (V := V * 256 + v % 256) (by rw [hV, i4, hv]; exact pack_step' V v) h
      obtain ⟨ts, vs, j1, j2, j3, j4, j5⟩ := this
      refine ⟨x ++ ts, v :: vs, .cons i1 j1, by simp; omega, ?_, by rw [j4, i3, h3], ?_⟩
      · rw [h2, i2, j3]; simp
      · rw [j5]
        simp only [List.map_cons, pack, List.length_cons, List.length_map]
        congr 1
        rw [Nat.pow_succ, Nat.add_mul, Nat.mul_assoc, Nat.mul_comm 256, Nat.add_assoc]

theorem character_ok {l l' : Lex} {w : W} (h : character l = .ok w l') :
    ∃ ts vs, Items '\'' ts vs ∧ vs.length ≤ 8 ∧ l.chars = ts ++ '\'' :: l'.chars ∧ l'.tail = l.tail ∧
      w = charValue vs := by
  obtain ⟨ts, vs, h1, h2, h3, h4, h5⟩ := characterLoop_value (V := 0) rfl h
  exact ⟨ts, vs, h1, h2, h3, h4, by simpa [charValue] using h5⟩

end Blang
