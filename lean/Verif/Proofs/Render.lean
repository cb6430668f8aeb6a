import Verif.Spec.Careful
/-
Concrete careful texts: a text is put together from tokens and the layout after them, and a decidable
check says that it is careful.  (Used for examples.)
-/
namespace Blang
open Spec

/-- the letter of the escape sequence with which the character is written between quotes `q`, if it is -/
def escLetter (q : Char) (v : Nat) : Option Char :=
  if v = 10 then some 'n' else if v = 9 then some 't' else if v = 13 then some 'r' else if v = 0 then some '0'
  else if v = 42 then some '*' else if v = q.toNat then some q else none

/-- a character between quotes `q` -/
def charSpell (q : Char) (v : Nat) : List Char := match escLetter q v with
  | some x => ['*', x]
  | none => [Char.ofNat v]

/-- A spelling of the token. (`else` needs a blank behind it, which counts as layout here.) -/
def tokSpell : Tok → List Char
  | .num ds => ds
  | .chr vs => '\'' :: vs.flatMap (charSpell '\'') ++ ['\'']
  | .str vs => '"' :: vs.flatMap (charSpell '"') ++ ['"']
  | .word w | .defn w | .head w => w
  | .els => "else".toList
  | .sym s => s

/-- the text of tokens, each followed by layout -/
def render : List (Tok × List Char) → List Char
  | [] => []
  | (t, lay) :: r => tokSpell t ++ (lay ++ render r)

instance (p : Char → Prop) [DecidablePred p] (l : List Char) : Decidable (NotStarting p l) :=
  match l with
  | [] => .isTrue trivial
  | c :: _ => inferInstanceAs (Decidable (¬ p c))

instance (w : List Char) : Decidable (StartsLetter w) :=
  match w with
  | [] => .isFalse id
  | c :: _ => inferInstanceAs (Decidable (Letter c))

instance (s r : List Char) : Decidable (MaxMunch s r) := inferInstanceAs (Decidable (∀ x ∈ extensions s, ¬ x <+: r))

/-- the token, spelled so, can be followed by `rest` -/
def TokFits : Tok → List Char → Prop
  | .num ds, rest => ds ≠ [] ∧ (∀ c ∈ ds, Digit c) ∧ NotStarting Digit rest
  | .chr vs, _ => vs.length ≤ 8 ∧ ∀ v ∈ vs, v < 128
  | .str vs, _ => ∀ v ∈ vs, v < 128
  | .word w, rest | .defn w, rest => w ≠ [] ∧ (∀ c ∈ w, IdentChar c) ∧ NotStarting IdentChar rest
  | .head w, rest => StartsLetter w ∧ (∀ c ∈ w, IdentChar c) ∧ NotStarting IdentChar rest ∧ w ∉ keywords
  | .els, rest => rest.head?.any (fun c => decide (Blank c)) = true
  | .sym s, rest => s ∈ symbols ∧ MaxMunch s rest

instance (t : Tok) (r : List Char) : Decidable (TokFits t r) := by
  cases t <;> simp only [TokFits] <;> infer_instance

instance (t : Tok) : Decidable t.Plain := by
  cases t <;> simp only [Tok.Plain] <;> infer_instance

instance (t u : Tok) : Decidable (Tight t u) := by
  cases t <;> cases u <;> simp only [Tight] <;> infer_instance

theorem ofNat_toNat {v : Nat} (h : v < 128) : (Char.ofNat v).toNat = v := by
  have : v.isValidChar := .inl (by omega)
  simp [Char.ofNat, this, Char.toNat, Char.ofNatAux]

theorem item_spell {q : Char} (hq : q = '\'' ∨ q = '"') {v : Nat} (h : v < 128) : Item q (charSpell q v) v := by
  unfold charSpell escLetter
  by_cases h1 : v = 10
  · subst h1; exact .esc (by decide)
  by_cases h2 : v = 9
  · subst h2; exact .esc (by decide)
  by_cases h3 : v = 13
  · subst h3; exact .esc (by decide)
  by_cases h4 : v = 0
  · subst h4; exact .esc (by decide)
  by_cases h5 : v = 42
  · subst h5; exact .esc (by decide)
  by_cases h6 : v = q.toNat
  · rw [if_neg h1, if_neg h2, if_neg h3, if_neg h4, if_neg h5, if_pos h6, h6]
    rcases hq with rfl | rfl
    · exact .esc (by decide)
    · exact .esc (by decide)
  · rw [if_neg h1, if_neg h2, if_neg h3, if_neg h4, if_neg h5, if_neg h6]
    have e := ofNat_toNat h
    have := Item.plain (q := q) (c := Char.ofNat v) (by intro e'; rw [e'] at e; exact h6 e.symm)
      (by intro e'; rw [e'] at e; exact h5 e.symm)
    rwa [e] at this

theorem items_spell {q : Char} (hq : q = '\'' ∨ q = '"') {vs : List Nat} (h : ∀ v ∈ vs, v < 128) :
    Items q (vs.flatMap (charSpell q)) vs := by
  induction vs with
  | nil => exact .nil
  | cons v vs ih =>
    rw [List.flatMap_cons]
    exact Items.cons (item_spell hq (h v (by simp))) (ih fun w hw => h w (by simp [hw]))

/-- the layout behind the token without the blank that belongs to `else` -/
def afterTok (t : Tok) (lay : List Char) : List Char := match t with
  | .els => lay.tail
  | _ => lay

theorem tokFits_lexes {t : Tok} {lay rest : List Char} (h : TokFits t (lay ++ rest)) (hl : t = .els → lay ≠ []) :
    Lexes false (tokSpell t ++ (lay ++ rest)) t (afterTok t lay ++ rest) := by
  cases t with
  | num ds => exact .num h.1 h.2.1 h.2.2
  | chr vs =>
    have := Lexes.chr (quirks := false) (rest := lay ++ rest) (items_spell (q := '\'') (.inl rfl) h.2) h.1
    simpa [tokSpell, afterTok] using this
  | str vs =>
    have := Lexes.str (quirks := false) (rest := lay ++ rest) (items_spell (q := '"') (.inr rfl) h)
    simpa [tokSpell, afterTok] using this
  | word w => exact .word h.1 h.2.1 h.2.2
  | defn w => exact .defn h.1 h.2.1 h.2.2
  | head w => exact .head h.1 h.2.1 h.2.2.1 h.2.2.2
  | els =>
    cases lay with
    | nil => exact absurd rfl (hl rfl)
    | cons c lay => exact Lexes.els (c := c) (by simpa [TokFits] using h)
  | sym s => exact .sym h.1 h.2

/-- the text is layout (`true`: the rest of a comment and then layout) -/
def layoutOk : Bool → List Char → Bool
  | false, [] => true
  | true, [] => false
  | false, '/' :: '*' :: cs => layoutOk true cs
  | true, '*' :: '/' :: cs => layoutOk false cs
  | true, _ :: cs => layoutOk true cs
  | false, c :: cs => decide (Blank c) && layoutOk false cs

theorem layoutOk_sound (b : Bool) (s : List Char) : layoutOk b s = true →
    (b = false → Layout s) ∧ (b = true → ∃ body r, s = body ++ '*' :: '/' :: r ∧ NoClose body ∧ Layout r) := by
  fun_induction layoutOk b s with
  | case1 => exact fun _ => ⟨fun _ => .nil, by simp⟩
  | case2 => simp
  | case3 cs ih =>
    intro h
    obtain ⟨body, r, rfl, h1, h2⟩ := (ih h).2 rfl
    exact ⟨fun _ => .comment h1 h2, by simp⟩
  | case4 cs ih =>
    intro h
    exact ⟨by simp, fun _ => ⟨[], cs, rfl, by simp [NoClose], (ih h).1 rfl⟩⟩
  | case5 c cs hn ih =>
    intro h
    obtain ⟨body, r, rfl, h1, h2⟩ := (ih h).2 rfl
    refine ⟨by simp, fun _ => ⟨c :: body, r, rfl, ?_, h2⟩⟩
    intro hi
    rcases List.infix_cons_iff.1 hi with hp | hi
    · cases body with
      | nil => simp [List.cons_prefix_cons] at hp
      | cons d body =>
        simp only [List.cons_prefix_cons, List.nil_prefix, and_true] at hp
        obtain ⟨rfl, rfl⟩ := hp
        exact hn _ rfl rfl
    · exact h1 hi
  | case6 c cs hn ih =>
    intro h
    simp only [Bool.and_eq_true, decide_eq_true_eq] at h
    exact ⟨fun _ => .blank h.1 ((ih h.2).1 rfl), by simp⟩

/-- the check for a whole text -/
def renderOk : List (Tok × List Char) → Bool
  | [] => true
  | (t, lay) :: r => decide (TokFits t (lay ++ render r)) && decide t.Plain && layoutOk false (afterTok t lay) &&
      (match t with | .els => !lay.isEmpty | _ => true) &&
      (match r with | [] => true | (u, _) :: _ => !decide (Tight t u) || (afterTok t lay).isEmpty) && renderOk r

theorem text_render {r : List (Tok × List Char)} (h : renderOk r = true) : Text (render r) (r.map (·.1)) := by
  induction r with
  | nil => exact .nil
  | cons x r ih =>
    obtain ⟨t, lay⟩ := x
    simp only [renderOk, Bool.and_eq_true, decide_eq_true_eq] at h
    obtain ⟨⟨⟨⟨⟨h1, h2⟩, h3⟩, h6⟩, h4⟩, h5⟩ := h
    refine .cons (tokFits_lexes h1 (fun e => by subst e; simpa using h6)) h2 ((layoutOk_sound _ _ h3).1 rfl) ?_ (ih h5)
    intro u us e ht
    cases r with
    | nil => simp at e
    | cons y r =>
      simp only [List.map_cons, List.cons.injEq] at e
      obtain ⟨rfl, _⟩ := e
      simpa [ht] using h4

theorem spaced_render {r : List (Tok × List Char)} {lay : List Char} (hl : layoutOk false lay = true)
    (h : renderOk r = true) : Spaced (lay ++ render r) (r.map (·.1)) :=
  ⟨lay, _, rfl, (layoutOk_sound _ _ hl).1 rfl, text_render h⟩

end Blang
