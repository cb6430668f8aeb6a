import Verif.Spec.Careful
import Verif.Proofs.Tokens
/-
Texts one after the other, on separate lines.
-/
namespace Blang
open Spec

theorem ns_join {p : Char → Prop} (hp : ¬ p '\n') {a : List Char} (b : List Char) (h : NotStarting p a) : NotStarting p (a ++ '\n' :: b) := by
  cases a with
  | nil => exact hp
  | cons c a => exact h

theorem prefix_join {x a b : List Char} (hx : '\n' ∉ x) (h : x <+: a ++ '\n' :: b) : x <+: a := by
  induction x generalizing a with
  | nil => exact List.nil_prefix
  | cons c x ih =>
    cases a with
    | nil =>
      simp only [List.nil_append, List.cons_prefix_cons] at h
      exact absurd h.1.symm (fun e => hx (by rw [e]; simp))
    | cons d a =>
      simp only [List.cons_append, List.cons_prefix_cons] at h ⊢
      exact ⟨h.1, ih (fun hm => hx (List.mem_cons_of_mem _ hm)) h.2⟩

theorem ext_no_newline {s x : List Char} (h : x ∈ extensions s) : '\n' ∉ x := by
  simp only [extensions, List.mem_filterMap] at h
  obtain ⟨t, ht, h⟩ := h
  split at h
  · cases h
    intro hm
    have h1 := List.mem_of_mem_drop hm
    have : ∀ t ∈ (['/', '*'] :: symbols), '\n' ∉ t := by decide
    exact this t ht h1
  · cases h

theorem munch_join {s a : List Char} (b : List Char) (h : MaxMunch s a) : MaxMunch s (a ++ '\n' :: b) :=
  fun x hx hp => h x hx (prefix_join (ext_no_newline hx) hp)

theorem blank_newline : Blank '\n' := by decide

/-- the text begins with the same token if a line is added -/
theorem lexes_join {q : Bool} {inp rest : List Char} {t : Tok} (b : List Char) (h : Lexes q inp t rest) :
    Lexes q (inp ++ '\n' :: b) t (rest ++ '\n' :: b) ∨ inp = ['e', 'l', 's', 'e'] ∧ rest = [] ∧ Lexes q (inp ++ '\n' :: b) t b := by
  have nd : ¬ Digit '\n' := by decide
  have ni : ¬ IdentChar '\n' := by decide
  cases h with
  | num h1 h2 h3 => left; rw [List.append_assoc]; exact .num h1 h2 (ns_join nd b h3)
  | @chr t rest vs h1 h2 =>
    left
    have := Lexes.chr (quirks := q) (rest := rest ++ '\n' :: b) h1 h2
    simpa using this
  | @str t rest vs h1 =>
    left
    have := Lexes.str (quirks := q) (rest := rest ++ '\n' :: b) h1
    simpa using this
  | word h1 h2 h3 => left; rw [List.append_assoc]; exact .word h1 h2 (ns_join ni b h3)
  | defn h1 h2 h3 => left; rw [List.append_assoc]; exact .defn h1 h2 (ns_join ni b h3)
  | head h1 h2 h3 h4 => left; rw [List.append_assoc]; exact .head h1 h2 (ns_join ni b h3) h4
  | @headQuirk w lay r w' rest h1 h2 h3 h4 h5 h6 h7 h8 h9 h10 =>
    left
    rw [List.append_assoc, List.append_assoc]
    refine .headQuirk h1 h2 h3 ?_ h5 h6 (by rw [← List.append_assoc, h7, List.append_assoc]) h8 h9 (ns_join ni b h10)
    rw [← List.append_assoc]; exact ns_join ni b h4
  | els h1 => left; exact .els h1
  | elsEnd => right; exact ⟨rfl, rfl, .els blank_newline⟩
  | elsQuirk h1 h2 h3 => left; exact .elsQuirk h1 h2 h3
  | sym h1 h2 => left; rw [List.append_assoc]; exact .sym h1 (munch_join b h2)
  | symNul h1 h2 => left; rw [List.append_assoc]; exact .symNul h1 h2

theorem lexes_nil {q : Bool} {t : Tok} {inp rest : List Char} (h : Lexes q inp t rest) : inp ≠ [] := by
  intro e
  cases h with
  | num h1 _ _ => rw [List.append_eq_nil_iff] at e; exact h1 e.1
  | chr _ _ => simp at e
  | str _ => simp at e
  | word h1 _ _ => rw [List.append_eq_nil_iff] at e; exact h1 e.1
  | defn h1 _ _ => rw [List.append_eq_nil_iff] at e; exact h1 e.1
  | head h1 _ _ _ => rw [List.append_eq_nil_iff] at e; rw [e.1] at h1; exact h1
  | headQuirk _ h1 _ _ _ _ _ _ _ _ => rw [List.append_eq_nil_iff] at e; rw [e.1] at h1; exact h1
  | els _ => cases e
  | elsEnd => cases e
  | elsQuirk _ _ _ => cases e
  | sym h1 _ =>
    rw [List.append_eq_nil_iff] at e
    rw [e.1] at h1
    revert h1
    decide
  | symNul _ _ => simp at e

theorem toks_nil {q : Bool} {ts : List Tok} {rest inp : List Char} (h : TokSeq q inp ts rest) (e : inp = []) : ts = [] := by
  cases h with
  | nil _ => rfl
  | cons _ h1 _ =>
    rw [List.append_eq_nil_iff] at e
    exact absurd e.2 (lexes_nil h1)

/-- layout before the first token -/
theorem toks_layout {q : Bool} {lay inp rest : List Char} {ts : List Tok} (hl : Layout lay) (h : TokSeq q inp ts rest) :
    TokSeq q (lay ++ inp) ts rest := by
  cases h with
  | nil h2 => rw [← List.append_assoc]; exact .nil (Layout.append hl h2)
  | cons h2 h3 h4 => rw [← List.append_assoc]; exact .cons (Layout.append hl h2) h3 h4

theorem toks_join {q : Bool} {b : List Char} {us : List Tok} (hb : TokSeq q b us []) {a e : List Char} {ts : List Tok} (ha : TokSeq q a ts e)
    (he : e = []) : TokSeq q (a ++ '\n' :: b) (ts ++ us) [] := by
  have hnl : Layout ['\n'] := .blank blank_newline .nil
  induction ha with
  | @nil lay rest hl =>
    subst he
    rw [List.append_nil]
    have := toks_layout (Layout.append hl hnl) hb
    rwa [List.append_assoc] at this
  | @cons lay inp mid rest t ts hl h1 h2 ih =>
    rw [List.append_assoc]
    rcases lexes_join b h1 with h3 | ⟨e1, e2, h3⟩
    · exact .cons hl h3 (ih he)
    · have := toks_nil h2 e2
      subst this
      exact .cons hl h3 hb

theorem prog_append {pr : Bop → Nat} {q : Bool} {ts us : List Tok} {p r : Program} (h1 : ProgGram pr q ts p) (h2 : ProgGram pr q us r) :
    ProgGram pr q (ts ++ us) (p ++ r) := by
  induction h1 with
  | nil => exact h2
  | cons h _ ih => rw [List.append_assoc]; exact .cons h ih

/-- **Texts on separate lines** are the declarations of the one and then those of the other. -/
theorem reads_join {q : Bool} {a b : List Char} {p r : Program} (h1 : Reads q a p) (h2 : Reads q b r) : Reads q (a ++ '\n' :: b) (p ++ r) := by
  obtain ⟨ts, t1, g1⟩ := h1
  obtain ⟨us, t2, g2⟩ := h2
  exact ⟨ts ++ us, toks_join t2 t1 rfl, prog_append g1 g2⟩

/-! ### carefully laid out texts -/

theorem decl_starts {pr : Bop → Nat} {q : Bool} {ts : List Tok} {d : Decl} (h : DeclGram pr q ts d) : ∃ x us, ts = .defn x :: us := by
  cases h <;> exact ⟨_, _, rfl⟩

theorem prog_starts {pr : Bop → Nat} {q : Bool} {u : Tok} {us ts : List Tok} {p : Program} (h : ProgGram pr q ts p) (e : ts = u :: us) : ∃ x, u = .defn x := by
  cases h with
  | nil => cases e
  | cons h _ =>
    obtain ⟨x, vs, rfl⟩ := decl_starts h
    simp only [List.cons_append, List.cons.injEq] at e
    exact ⟨x, e.1.symm⟩

theorem tight_defn (t : Tok) (x : List Char) : ¬ Tight t (.defn x) := by
  cases t <;> exact id

theorem text_join {b lay : List Char} {us : List Tok} (hl : Layout lay) (hb : Text b us) (hu : ∀ u vs, us = u :: vs → ∃ x, u = .defn x)
    {a : List Char} {ts : List Tok} (ha : Text a ts) (hne : ts ≠ []) : Text (a ++ '\n' :: (lay ++ b)) (ts ++ us) := by
  have hnl : Layout ['\n'] := .blank blank_newline .nil
  induction ha with
  | nil => exact absurd rfl hne
  | @cons inp lay1 rest t ts h1 h2 h3 h4 h5 ih =>
    cases ts with
    | nil =>
      cases h5
      have tg : ∀ (l : List Char) (u : Tok) (vs : List Tok), [] ++ us = u :: vs → Tight t u → l = [] := fun l u vs e hT => by
        obtain ⟨x, rfl⟩ := hu u vs e
        exact absurd hT (tight_defn t x)
      rcases lexes_join (lay ++ b) h1 with h | ⟨e1, e2, h⟩
      · refine .cons (lay := lay1 ++ ['\n'] ++ lay) (rest := b) ?_ h2 (Layout.append (Layout.append h3 hnl) hl) (tg _) hb
        have e : lay1 ++ ['\n'] ++ lay ++ b = lay1 ++ [] ++ '\n' :: (lay ++ b) := by simp
        rw [e]; exact h
      · exact .cons h h2 hl (tg _) hb
    | cons u ts =>
      have ih := ih (by simp)
      rcases lexes_join (lay ++ b) h1 with h | ⟨e1, e2, h⟩
      · rw [List.append_assoc] at h
        exact .cons h h2 h3 (fun v vs e hT => h4 u ts rfl (by cases e; exact hT)) ih
      · have : rest = [] := (List.append_eq_nil_iff.1 e2).2
        cases h5 with
        | cons g _ _ _ _ => exact absurd this (lexes_nil g)

theorem careful_join {pr : Bop → Nat} {a b : List Char} {p r : Program} (h1 : Careful pr a p) (h2 : Careful pr b r) :
    Careful pr (a ++ '\n' :: b) (p ++ r) := by
  obtain ⟨ts, ⟨l1, x1, rfl, y1, t1⟩, g1⟩ := h1
  obtain ⟨us, ⟨l2, x2, rfl, y2, t2⟩, g2⟩ := h2
  have hnl : Layout ['\n'] := .blank blank_newline .nil
  refine ⟨ts ++ us, ?_, prog_append g1 g2⟩
  by_cases hne : ts = []
  · subst hne
    cases t1
    exact ⟨l1 ++ ['\n'] ++ l2, x2, by simp, Layout.append (Layout.append y1 hnl) y2, t2⟩
  · exact ⟨l1, _, by rw [List.append_assoc], y1, text_join y2 t2 (fun u vs e => prog_starts g2 e) t1 hne⟩

end Blang
