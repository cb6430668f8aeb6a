import Verif.Spec.Outside
import Verif.Proofs.Fuel
import Verif.Props.Comments
/-
Two runs of the compiler, on a text and on the text with layout inserted behind a blank: rules and the lexer.
-/
namespace Blang.Blanks
open Blang Blang.Spec Blang.Props

/-! ### two runs side by side -/

section
variable {D : Prop} {σ E α β ρ : Type} {mk : List Char → E → σ}

/-- `f` on the text `x` and `g` on the text `y`: unless one of them runs out of fuel they both fail (with the same error, or `D` holds) or succeed with
the same result, the rests of the texts being related by `Q` and everything else being the same. -/
def Tw (D : Prop) (mk : List Char → E → σ) (f g : M σ α) (x y : List Char) (Q : α → List Char → List Char → Prop) : Prop :=
  ∀ e, f (mk x e) = .err .fuel ∨ g (mk y e) = .err .fuel ∨ (∃ er er', f (mk x e) = .err er ∧ g (mk y e) = .err er' ∧ (D ∨ er = er')) ∨
    ∃ a x' y' e', f (mk x e) = .ok a (mk x' e') ∧ g (mk y e) = .ok a (mk y' e') ∧ Q a x' y'

theorem tw_pure {a : α} {x y : List Char} {Q : α → List Char → List Char → Prop} (h : Q a x y) : Tw D mk (pure a) (pure a) x y Q :=
  fun e => .inr (.inr (.inr ⟨a, x, y, e, rfl, rfl, h⟩))

theorem tw_throw {er : Err} {x y : List Char} {Q : α → List Char → List Char → Prop} : Tw D mk (M.throw er) (M.throw er) x y Q :=
  fun _ => .inr (.inr (.inl ⟨er, er, rfl, rfl, .inr rfl⟩))

/-- different errors -/
theorem tw_errs (hD : D) {er er' : Err} {x y : List Char} {Q : α → List Char → List Char → Prop} : Tw D mk (M.throw er) (M.throw er') x y Q :=
  fun _ => .inr (.inr (.inl ⟨er, er', rfl, rfl, .inl hD⟩))

theorem tw_fuelL {g : M σ α} {x y : List Char} {Q : α → List Char → List Char → Prop} : Tw D mk (M.throw .fuel) g x y Q :=
  fun _ => .inl rfl

theorem tw_fuelR {f : M σ α} {x y : List Char} {Q : α → List Char → List Char → Prop} : Tw D mk f (M.throw .fuel) x y Q :=
  fun _ => .inr (.inl rfl)

theorem tw_bind {f g : M σ α} {k k' : α → M σ β} {x y : List Char} {R : α → List Char → List Char → Prop}
    {Q : β → List Char → List Char → Prop} (h : Tw D mk f g x y R) (hk : ∀ a x' y', R a x' y' → Tw D mk (k a) (k' a) x' y' Q) :
    Tw D mk (f >>= k) (g >>= k') x y Q := by
  intro e
  rw [M.bind_apply, M.bind_apply]
  rcases h e with h1 | h1 | ⟨er, er', h1, h2, hd⟩ | ⟨a, x', y', e', h1, h2, h3⟩
  · rw [h1]; exact .inl rfl
  · rw [h1]; exact .inr (.inl rfl)
  · rw [h1, h2]; exact .inr (.inr (.inl ⟨er, er', rfl, rfl, hd⟩))
  · rw [h1, h2]; exact hk a x' y' h3 e'

theorem tw_mono {f g : M σ α} {x y : List Char} {R Q : α → List Char → List Char → Prop} (h : Tw D mk f g x y R)
    (hq : ∀ a x' y', R a x' y' → Q a x' y') : Tw D mk f g x y Q := by
  intro e
  rcases h e with h1 | h1 | ⟨er, er', h1, h2, hd⟩ | ⟨a, x', y', e', h1, h2, h3⟩
  · exact .inl h1
  · exact .inr (.inl h1)
  · exact .inr (.inr (.inl ⟨er, er', h1, h2, hd⟩))
  · exact .inr (.inr (.inr ⟨a, x', y', e', h1, h2, hq _ _ _ h3⟩))

theorem tw_ite {c : Prop} [Decidable c] {f f' g g' : M σ α} {x y : List Char} {Q : α → List Char → List Char → Prop}
    (h1 : c → Tw D mk f f' x y Q) (h2 : ¬ c → Tw D mk g g' x y Q) : Tw D mk (if c then f else g) (if c then f' else g') x y Q := by
  by_cases hc : c
  · rw [if_pos hc, if_pos hc]; exact h1 hc
  · rw [if_neg hc, if_neg hc]; exact h2 hc

/-- two tests that both succeed -/
theorem tw_yes {c c' : Prop} [Decidable c] [Decidable c'] {f f' g g' : M σ α} {x y : List Char} {Q : α → List Char → List Char → Prop}
    (hc : c) (hc' : c') (h : Tw D mk f f' x y Q) : Tw D mk (if c then f else g) (if c' then f' else g') x y Q := by
  rw [if_pos hc, if_pos hc']; exact h

/-- two tests that both fail -/
theorem tw_not {c c' : Prop} [Decidable c] [Decidable c'] {f f' g g' : M σ α} {x y : List Char} {Q : α → List Char → List Char → Prop}
    (hc : ¬ c) (hc' : ¬ c') (h : Tw D mk g g' x y Q) : Tw D mk (if c then f else g) (if c' then f' else g') x y Q := by
  rw [if_neg hc, if_neg hc']; exact h

theorem tw_assoc {γ : Type} {f f' : M σ α} {g g' : α → M σ β} {k k' : β → M σ γ} {x y : List Char} {Q : γ → List Char → List Char → Prop}
    (h : Tw D mk (f >>= fun a => g a >>= k) (f' >>= fun a => g' a >>= k') x y Q) : Tw D mk ((f >>= g) >>= k) ((f' >>= g') >>= k') x y Q := by
  have e : ∀ (f : M σ α) (g : α → M σ β) (k : β → M σ γ) (s : σ), ((f >>= g) >>= k) s = (f >>= fun a => g a >>= k) s := by
    intro f g k s
    rw [M.bind_apply, M.bind_apply, M.bind_apply]
    cases f s <;> rfl
  intro v
  rw [e, e]
  exact h v

/-- result of an iteration -/
def Round (I : β → List Char → List Char → Prop) (Q : ρ → List Char → List Char → Prop) : Iter β ρ → List Char → List Char → Prop
  | .next b, x, y => I b x y
  | .done r, x, y => Q r x y

theorem tw_loop {body body' : β → M σ (Iter β ρ)} {I : β → List Char → List Char → Prop} {Q : ρ → List Char → List Char → Prop}
    (hb : ∀ b x y, I b x y → Tw D mk (body b) (body' b) x y (Round I Q)) : ∀ (n n' : Nat) (b : β) (x y : List Char), I b x y →
    Tw D mk (loop n body b) (loop n' body' b) x y Q
  | 0, _, _, _, _, _ => tw_fuelL
  | _ + 1, 0, _, _, _, _ => tw_fuelR
  | n + 1, n' + 1, b, x, y, h => by
    refine tw_bind (hb b x y h) fun i x' y' hi => ?_
    cases i with
    | next b' => exact tw_loop hb n n' b' x' y' hi
    | done r => exact tw_pure hi
end

/-- side by side in the lexer -/
abbrev TwL (D : Prop) {α : Type} (f g : L α) := Tw D (fun x (t : Tail) => (⟨x, t⟩ : Lex)) f g
/-- side by side in the parser -/
abbrev TwP (D : Prop) {α : Type} (f g : P α) := Tw D (fun x (e : Tail × CState) => (⟨⟨x, e.1⟩, e.2⟩ : PS)) f g

section
variable {D : Prop}

theorem tw_lx {α : Type} {f g : L α} {x y : List Char} {Q : α → List Char → List Char → Prop} (h : TwL D f g x y Q) : TwP D (lx f) (lx g) x y Q := by
  intro e
  simp only [lx]
  rcases h e.1 with h1 | h1 | ⟨er, er', h1, h2, hd⟩ | ⟨a, x', y', e', h1, h2, h3⟩
  · rw [h1]; exact .inl rfl
  · rw [h1]; exact .inr (.inl rfl)
  · rw [h1, h2]; exact .inr (.inr (.inl ⟨er, er', rfl, rfl, hd⟩))
  · rw [h1, h2]; exact .inr (.inr (.inr ⟨a, x', y', (e', e.2), rfl, rfl, h3⟩))

theorem tw_bd {α β : Type} {f : B α} {k k' : α → P β} {x y : List Char} {Q : β → List Char → List Char → Prop}
    (h : ∀ a, TwP D (k a) (k' a) x y Q) : TwP D (bd f >>= k) (bd f >>= k') x y Q := by
  refine tw_bind (R := fun _ x' y' => x' = x ∧ y' = y) ?_ ?_
  · intro e
    simp only [bd]
    cases hf : f e.2 with
    | ok a c => exact .inr (.inr (.inr ⟨a, x, y, (e.1, c), rfl, rfl, rfl, rfl⟩))
    | err er => exact .inr (.inr (.inl ⟨er, er, rfl, rfl, .inr rfl⟩))
  · rintro a x' y' ⟨rfl, rfl⟩; exact h a

theorem tw_bd' {α : Type} {f : B α} {x y : List Char} {Q : α → List Char → List Char → Prop} (h : ∀ a, Q a x y) : TwP D (bd f) (bd f) x y Q := by
  intro e
  simp only [bd]
  cases hf : f e.2 with
  | ok a c => exact .inr (.inr (.inr ⟨a, x, y, (e.1, c), rfl, rfl, h a⟩))
  | err er => exact .inr (.inr (.inl ⟨er, er, rfl, rfl, .inr rfl⟩))

theorem tw_get {β : Type} {k k' : PS → P β} {x y : List Char} {Q : β → List Char → List Char → Prop}
    (h : ∀ t c, TwP D (k ⟨⟨x, t⟩, c⟩) (k' ⟨⟨y, t⟩, c⟩) x y Q) : TwP D (M.get >>= k) (M.get >>= k') x y Q :=
  fun e => h e.1 e.2 e

theorem tw_fail {α : Type} {m : String} {x y : List Char} {Q : α → List Char → List Char → Prop} : TwP D (fail m) (fail m) x y Q := tw_throw

theorem tw_fails (hD : D) {α : Type} {m m' : String} {x y : List Char} {Q : α → List Char → List Char → Prop} : TwP D (fail m) (fail m') x y Q :=
  tw_errs hD
end

/-! ### the two texts -/

/-- a property of texts that their ends inherit -/
def Ends (G : List Char → Prop) : Prop := ∀ c a, G (c :: a) → G a

/-- The texts are the same, or the second one has layout behind a blank that is outside comments and literals (when one begins in mode `m`), and if `D` holds
possibly another blank; `G` holds of what precedes this blank. -/
inductive Near (D : Prop) (G : List Char → Prop) (m : Mode) : List Char → List Char → Prop where
  | same (x : List Char) : Near D G m x x
  | apart {a lay b : List Char} {s s' : Char} : Blank s → Blank s' → (D ∨ s = s') → Layout lay → (∃ z, m.run a = .code z) → G a →
    Near D G m (a ++ s :: b) (a ++ s' :: (lay ++ b))

/-- ... or the layout is what comes next -/
def Loose (D : Prop) (G : List Char → Prop) (x y : List Char) : Prop := Near D G (.code []) x y ∨ ∃ lay, Layout lay ∧ y = lay ++ x

section
variable {D : Prop} {G : List Char → Prop} {m : Mode} {x y : List Char}

theorem Near.nil (h : Near D G m [] y) : y = [] := by
  generalize hx : ([] : List Char) = x at h
  cases h with
  | same => rfl
  | @apart a => cases a <;> cases hx

theorem Near.nil' (h : Near D G m x []) : x = [] := by
  generalize hx : ([] : List Char) = y at h
  cases h with
  | same => rfl
  | @apart a => cases a <;> cases hx

/-- the first characters -/
theorem Near.heads {c : Char} (h : Near D G m (c :: x) y) :
    ∃ c' y', y = c' :: y' ∧ (c = c' ∨ D ∧ Blank c ∧ Blank c' ∧ ∃ z, m = .code z) := by
  generalize hx : c :: x = x0 at h
  cases h with
  | same => exact ⟨c, x, hx.symm, .inl rfl⟩
  | @apart a _ _ _ _ h1 h2 h3 _ h4 =>
    cases a with
    | nil =>
      cases hx
      rcases h3 with h3 | h3
      · exact ⟨_, _, rfl, .inr ⟨h3, h1, h2, h4⟩⟩
      · exact ⟨_, _, rfl, .inl h3⟩
    | cons d a => cases hx; exact ⟨_, _, rfl, .inl rfl⟩

/-- the first character -/
theorem Near.head {c : Char} (h : Near D G m (c :: x) y) (hc : ¬ Blank c) : ∃ y', y = c :: y' := by
  obtain ⟨c', y', h1, h2 | h2⟩ := h.heads
  · exact ⟨y', by rw [h1, h2]⟩
  · exact absurd h2.2.1 hc

/-- behind the first character -/
theorem Near.tail (hG : Ends G) {c : Char} (h : Near D G m (c :: x) (c :: y)) : Near D G (m.next c) x y ∨ Blank c ∧ (∃ z, m = .code z) ∧ Loose D G x y := by
  generalize hx : c :: x = x0 at h
  generalize hy : c :: y = y0 at h
  cases h with
  | same => rw [← hy] at hx; cases hx; exact .inl (.same _)
  | @apart a _ _ _ _ h1 h1' hd h2 h3 h4 =>
    cases a with
    | nil => cases hx; cases hy; exact .inr ⟨h1, h3, .inr ⟨_, h2, rfl⟩⟩
    | cons d a => cases hx; cases hy; exact .inl (.apart h1 h1' hd h2 h3 (hG _ _ h4))

/-- the first character is not a blank -/
theorem Near.solid (hG : Ends G) {c : Char} (h : Near D G m (c :: x) (c :: y)) (hc : ¬ Blank c) : Near D G (m.next c) x y := by
  rcases Near.tail hG h with h | ⟨h, _⟩
  · exact h
  · exact absurd h hc

/-- inside a literal -/
theorem Near.inside (hG : Ends G) {c : Char} (h : Near D G m (c :: x) (c :: y)) (hm : ∀ z, m ≠ .code z) : Near D G (m.next c) x y := by
  rcases Near.tail hG h with h | ⟨_, ⟨z, h⟩, _⟩
  · exact h
  · exact absurd h (hm z)

theorem Near.mono {G' : List Char → Prop} (h : Near D G m x y) (hg : ∀ a, G a → G' a) : Near D G' m x y := by
  cases h with
  | same => exact .same _
  | apart h1 h1' hd h2 h3 h4 => exact .apart h1 h1' hd h2 h3 (hg _ h4)

/-- the automaton does not remember the symbol if the next character does not continue it -/
theorem Near.reset {z : List Char} (h : Near D G (.code z) x y) (hx : ∀ c r, x = c :: r → z ++ [c] ≠ ['/', '*'] ∧ z ++ [c] ∉ symbols) :
    Near D G (.code []) x y := by
  cases h with
  | same => exact .same _
  | @apart a lay b s s' h1 h1' hd h2 h3 h4 =>
    refine .apart h1 h1' hd h2 ?_ h4
    cases a with
    | nil => exact ⟨[], rfl⟩
    | cons c a =>
      obtain ⟨w, hw⟩ := h3
      obtain ⟨e1, e2⟩ := hx c _ rfl
      refine ⟨w, ?_⟩
      rw [run_cons] at hw ⊢
      rw [← hw]
      congr 1
      simp only [Mode.next]
      rw [if_neg (by simp), if_neg (by simp), if_neg e1, if_neg (fun h => e2 h.1)]

/-- ... and a blank does not -/
theorem Near.forget {z : List Char} {c c' : Char} (h : Near D G (.code z) (c :: x) (c' :: y)) (hc : Blank c) : Near D G (.code []) (c :: x) (c' :: y) := by
  refine h.reset fun d r hd => ?_
  cases hd
  have key : ∀ s ∈ ['/', '*'] :: symbols, ∀ d ∈ s, ¬ Blank d := by decide
  exact ⟨fun e => key ['/', '*'] List.mem_cons_self c (by rw [← e]; simp) hc, fun e => key _ (List.mem_cons_of_mem _ e) c (by simp) hc⟩

/-- no symbol is longer by one character -/
def Closed (z : List Char) : Prop := ∀ s ∈ ['/', '*'] :: symbols, s.dropLast ≠ z

instance (z : List Char) : Decidable (Closed z) := inferInstanceAs (Decidable (∀ s ∈ _, _))

theorem Near.closed {z : List Char} (h : Near D G (.code z) x y) (hz : Closed z) : Near D G (.code []) x y := by
  refine h.reset fun c r _ => ⟨fun e => hz ['/', '*'] (List.mem_cons_self) ?_, fun e => hz _ (List.mem_cons_of_mem _ e) ?_⟩
  · rw [← e]; simp
  · simp

/-- reading a complete symbol -/
theorem Near.op (hG : Ends G) {c : Char} (h : Near D G m (c :: x) (c :: y)) (hc : ¬ Blank c) {z : List Char} (hz : m.next c = .code z) (hz' : Closed z) :
    Near D G (.code []) x y := by
  have := Near.solid hG h hc
  rw [hz] at this
  exact this.closed hz'

/-- a symbol that is complete -/
def Whole : Mode → Prop
  | .code z => Closed z
  | _ => False

instance : (m : Mode) → Decidable (Whole m)
  | .code z => inferInstanceAs (Decidable (Closed z))
  | .comment _ => inferInstanceAs (Decidable False)
  | .quoted _ _ => inferInstanceAs (Decidable False)

theorem Near.whole (hG : Ends G) {c : Char} (h : Near D G m (c :: x) (c :: y)) (hc : ¬ Blank c) (hz : Whole (m.next c)) : Near D G (.code []) x y := by
  cases hm : m.next c with
  | code z => rw [hm] at hz; exact Near.op hG h hc hm hz
  | comment _ => rw [hm] at hz; exact hz.elim
  | quoted _ _ => rw [hm] at hz; exact hz.elim

/-- reading a character of a name or number -/
theorem Near.plain (hG : Ends G) {c : Char} (h : Near D G (.code []) (c :: x) (c :: y)) (hp : PlainC c) (hb : ¬ Blank c) : Near D G (.code []) x y := by
  have := Near.solid hG h hb
  rwa [next_plain hp] at this
end

/-! ### skipping layout -/

theorem layout_append {a b : List Char} (h : Layout a) (h' : Layout b) : Layout (a ++ b) := by
  induction h with
  | nil => exact h'
  | blank h1 _ ih => exact .blank h1 ih
  | @comment body s h1 _ ih =>
    have : '/' :: '*' :: body ++ '*' :: '/' :: s ++ b = '/' :: '*' :: body ++ '*' :: '/' :: (s ++ b) := by simp
    rw [this]; exact .comment h1 ih

/-- layout in front makes no difference -/
theorem whitespace_skip {lay : List Char} (hl : Layout lay) (x : List Char) (t : Tail) : whitespace ⟨lay ++ x, t⟩ = whitespace ⟨x, t⟩ := by
  obtain ⟨l2, rest, rfl, h2, hr⟩ := layout_cases x
  have hll := layout_append hl h2
  rw [← List.append_assoc]
  rcases hr with hr | ⟨body, rfl, hb⟩
  · by_cases hst : t = .io → rest ≠ [] ∧ rest ≠ ['/']
    · rw [whitespace_layout hll ⟨hr, hst⟩, whitespace_layout h2 ⟨hr, hst⟩]
    · have ht : t = .io := Classical.byContradiction fun h => hst fun h' => absurd h' h
      subst ht
      by_cases h0 : rest = []
      · subst h0; rw [whitespace_layout_err hll (e := .io) rfl, whitespace_layout_err h2 (e := .io) rfl]
      · have h1 : rest = ['/'] := Classical.byContradiction fun h => hst fun _ => ⟨h0, h⟩
        subst h1; rw [whitespace_layout_err hll (e := .io) rfl, whitespace_layout_err h2 (e := .io) rfl]
  · rw [whitespace_layout_err hll (whitespaceBody_open hb t), whitespace_layout_err h2 (whitespaceBody_open hb t)]

/-- a comment that one leaves is closed -/
theorem comment_closed : ∀ (a : List Char) (star : Bool), (∃ z, (Mode.comment star).run a = .code z) →
    (star = true ∧ ∃ r, a = '/' :: r) ∨ ∃ body r, a = body ++ '*' :: '/' :: r ∧ NoClose body ∧ (star = true → body.head? ≠ some '/')
  | [], star, ⟨z, h⟩ => by cases h
  | c :: a, star, ⟨z, h⟩ => by
    rw [run_cons] at h
    by_cases hc : star = true ∧ c = '/'
    · obtain ⟨rfl, rfl⟩ := hc; exact .inl ⟨rfl, a, rfl⟩
    · have : Mode.next (.comment star) c = .comment (c = '*') := by
        simp only [Mode.next]; rw [if_neg hc]
      rw [this] at h
      right
      rcases comment_closed a _ ⟨z, h⟩ with ⟨h1, r, rfl⟩ | ⟨body, r, rfl, h2, h3⟩
      · have : c = '*' := by simpa using h1
        subst this
        exact ⟨[], r, rfl, noClose_nil, by simp⟩
      · refine ⟨c :: body, r, rfl, noClose_cons.2 ⟨?_, h2⟩, ?_⟩
        · rintro ⟨rfl, h4⟩; exact h3 (by simp) h4
        · intro hs he
          simp only [List.head?_cons, Option.some.injEq] at he
          exact hc ⟨hs, he⟩

section
variable {D : Prop} {G : List Char → Prop} {x y : List Char}

theorem Ends.append (hG : Ends G) : ∀ (u a : List Char), G (u ++ a) → G a
  | [], _, h => h
  | _ :: u, a, h => Ends.append hG u a (hG _ _ h)

/-- what skipping layout yields: texts that do not begin with layout -/
def Solid2 (D : Prop) (G : List Char → Prop) (x y : List Char) : Prop := Near D G (.code []) x y ∧ StartsSolid x

/-- skipping layout -/
theorem tw_whitespace (hG : Ends G) (h : Loose D G x y) : TwL D whitespace whitespace x y fun _ x' y' => Solid2 D G x' y' := by
  have hsame : ∀ x t, whitespace ⟨x, t⟩ = .err .fuel ∨ whitespace ⟨x, t⟩ = .err .fuel ∨
      (∃ er er', whitespace ⟨x, t⟩ = .err er ∧ whitespace ⟨x, t⟩ = .err er' ∧ (D ∨ er = er')) ∨
      ∃ a x' y' e', whitespace ⟨x, t⟩ = .ok a ⟨x', e'⟩ ∧ whitespace ⟨x, t⟩ = .ok a ⟨y', e'⟩ ∧ Solid2 D G x' y' := by
    intro x t
    cases hw : whitespace ⟨x, t⟩ with
    | err er => exact .inr (.inr (.inl ⟨er, er, rfl, rfl, .inr rfl⟩))
    | ok a l =>
      obtain ⟨lay, _, _, h3, _⟩ := whitespace_ok hw
      exact .inr (.inr (.inr ⟨a, l.chars, l.chars, l.tail, rfl, rfl, .same _, h3.1⟩))
  rcases h with h | ⟨lay, hl, rfl⟩
  · cases h with
    | same => exact hsame _
    | @apart a lay b s s' h1 h1' hd h2 h3 h4 =>
      intro t
      have key : ∀ n a, a.length = n → (∃ z, Mode.run (.code []) a = .code z) → G a →
          (whitespace ⟨a ++ s :: b, t⟩ = .err .fuel ∨ whitespace ⟨a ++ s' :: (lay ++ b), t⟩ = .err .fuel ∨
          (∃ er er', whitespace ⟨a ++ s :: b, t⟩ = .err er ∧ whitespace ⟨a ++ s' :: (lay ++ b), t⟩ = .err er' ∧ (D ∨ er = er')) ∨
          ∃ r x' y' e', whitespace ⟨a ++ s :: b, t⟩ = .ok r ⟨x', e'⟩ ∧ whitespace ⟨a ++ s' :: (lay ++ b), t⟩ = .ok r ⟨y', e'⟩ ∧ Solid2 D G x' y') := by
        intro n
        induction n using Nat.strongRecOn with
        | ind n ih =>
          intro a hn h3 h4
          cases a with
          | nil =>
            have e1 := whitespace_skip (.blank h1 .nil) b t
            have e2 := whitespace_skip (.blank h1' h2) b t
            simp only [List.cons_append, List.nil_append] at e1 e2 ⊢
            rw [e1, e2]
            exact hsame b t
          | cons c a =>
            by_cases hc : Blank c
            · have e1 := whitespace_skip (.blank hc .nil) (a ++ s :: b) t
              have e2 := whitespace_skip (.blank hc .nil) (a ++ s' :: (lay ++ b)) t
              simp only [List.cons_append, List.nil_append] at e1 e2 ⊢
              rw [e1, e2]
              rw [run_cons, next_plain (blank_plain hc)] at h3
              exact ih a.length (by simp at hn; omega) a rfl h3 (hG _ _ h4)
            · by_cases hs : c = '/' ∧ a.head? = some '*'
              · obtain ⟨rfl, hs⟩ := hs
                cases a with
                | nil => simp at hs
                | cons d a =>
                  simp only [List.head?_cons, Option.some.injEq] at hs; subst hs
                  have h5 : ∃ z, (Mode.comment false).run a = .code z := h3
                  rcases comment_closed a false h5 with ⟨h, _⟩ | ⟨body, r, rfl, hb, _⟩
                  · cases h
                  · have e1 := whitespace_skip (.comment hb .nil) (r ++ s :: b) t
                    have e2 := whitespace_skip (.comment hb .nil) (r ++ s' :: (lay ++ b)) t
                    simp only [List.cons_append, List.nil_append, List.append_assoc] at e1 e2 ⊢
                    rw [e1, e2]
                    rw [run_comment hb false (by simp)] at h5
                    refine ih r.length (by simp at hn; omega) r rfl h5 (Ends.append hG ('/' :: '*' :: body ++ ['*', '/']) r ?_)
                    simpa using h4
              · have e : ∀ s w, Blank s → StartsSolid (c :: (a ++ s :: w)) := by
                  intro s w h1
                  refine startsSolid_cons.2 ⟨hc, fun hh => hs ⟨hh.1, ?_⟩⟩
                  cases a with
                  | nil =>
                    have := hh.2
                    simp only [List.nil_append, List.head?_cons, Option.some.injEq] at this
                    subst this; exact absurd h1 (by decide)
                  | cons d a => simpa using hh.2
                have e' : ∀ s w, Blank s → Stops (c :: (a ++ s :: w)) t := fun s w h1 => ⟨e s w h1, fun _ => ⟨by simp, by cases a <;> simp⟩⟩
                refine .inr (.inr (.inr ⟨(), c :: (a ++ s :: b), c :: (a ++ s' :: (lay ++ b)), t, whitespace_stop (e' s b h1), whitespace_stop (e' s' _ h1'), ?_, e s b h1⟩))
                exact .apart (a := c :: a) h1 h1' hd h2 h3 h4
      exact key _ a rfl h3 h4
  · intro t
    simp only [whitespace_skip hl]
    exact hsame x t
end

/-! ### reading characters -/

section
variable {D : Prop} {G : List Char → Prop} {m : Mode} {x y : List Char}

/-- what is to be shown when two different blanks are read -/
abbrev Blanks2 (D : Prop) (G : List Char → Prop) (m : Mode) (x y : List Char) (K : Char → Char → List Char → List Char → Prop) : Prop :=
  ∀ c c' x' y', x = c :: x' ∧ y = c' :: y' → D → Blank c → Blank c' → (∃ z, m = .code z) → Near D G m (c :: x') (c' :: y') → K c c' x' y'

/-- behind layout there is no blank -/
theorem solidB (hs : StartsSolid x) {K : Char → Char → List Char → List Char → Prop} : Blanks2 D G m x y K := by
  rintro c c' x' y' ⟨rfl, _⟩ _ hb
  exact absurd hb (startsSolid_cons.1 hs).1

/-- in a literal blanks are characters -/
theorem insideB (hm : ∀ z, m ≠ .code z) {K : Char → Char → List Char → List Char → Prop} : Blanks2 D G m x y K := by
  rintro c c' x' y' _ _ _ _ ⟨z, hz⟩
  exact absurd hz (hm z)

variable {β : Type} {Q : β → List Char → List Char → Prop}

theorem rdL {k k' : RC → L β} (h : Near D G m x y) (hB : Blanks2 D G m x y fun c c' x' y' => TwL D (k (.ch c)) (k' (.ch c')) x' y' Q)
    (h1 : ∀ c x' y', x = c :: x' ∧ y = c :: y' → Near D G m (c :: x') (c :: y') → TwL D (k (.ch c)) (k' (.ch c)) x' y' Q)
    (h2 : TwL D (k .eof) (k' .eof) [] [] Q) (h3 : TwL D (k .io) (k' .io) [] [] Q) : TwL D (readChar >>= k) (readChar >>= k') x y Q := by
  intro t
  rw [M.bind_apply, M.bind_apply]
  cases x with
  | nil =>
    rw [h.nil]
    cases t with
    | eof => exact h2 .eof
    | io => exact h3 .io
  | cons c x' =>
    obtain ⟨c', y', rfl, rfl | ⟨hD, hc, hc', hm⟩⟩ := h.heads
    · exact h1 c x' y' ⟨rfl, rfl⟩ h t
    · exact hB c c' x' y' ⟨rfl, rfl⟩ hD hc hc' hm h t

theorem rdP {k k' : RC → P β} (h : Near D G m x y) (hB : Blanks2 D G m x y fun c c' x' y' => TwP D (k (.ch c)) (k' (.ch c')) x' y' Q)
    (h1 : ∀ c x' y', x = c :: x' ∧ y = c :: y' → Near D G m (c :: x') (c :: y') → TwP D (k (.ch c)) (k' (.ch c)) x' y' Q)
    (h2 : TwP D (k .eof) (k' .eof) [] [] Q) (h3 : TwP D (k .io) (k' .io) [] [] Q) : TwP D (lx readChar >>= k) (lx readChar >>= k') x y Q := by
  rintro ⟨t, e⟩
  rw [M.bind_apply, M.bind_apply]
  cases x with
  | nil =>
    rw [h.nil]
    cases t with
    | eof => exact h2 (.eof, e)
    | io => exact h3 (.io, e)
  | cons c x' =>
    obtain ⟨c', y', rfl, rfl | ⟨hD, hc, hc', hm⟩⟩ := h.heads
    · exact h1 c x' y' ⟨rfl, rfl⟩ h (t, e)
    · exact hB c c' x' y' ⟨rfl, rfl⟩ hD hc hc' hm h (t, e)

/-- reading a known character -/
theorem rdC {c : Char} {k k' : RC → P β} (h : TwP D (k (.ch c)) (k' (.ch c)) x y Q) : TwP D (lx readChar >>= k) (lx readChar >>= k') (c :: x) (c :: y) Q := by
  refine tw_bind (R := fun r x' y' => r = .ch c ∧ x' = x ∧ y' = y) (tw_lx fun t => .inr (.inr (.inr ⟨_, _, _, t, rfl, rfl, rfl, rfl, rfl⟩))) ?_
  rintro _ _ _ ⟨rfl, rfl, rfl⟩
  exact h

/-- skipping layout where there is none -/
theorem wsC {c : Char} (hb : ¬ Blank c) (hs : c ≠ '/') {k k' : Unit → P β} (h : TwP D (k ()) (k' ()) (c :: x) (c :: y) Q) :
    TwP D (lx whitespace >>= k) (lx whitespace >>= k') (c :: x) (c :: y) Q := by
  refine tw_bind (R := fun r x' y' => x' = c :: x ∧ y' = c :: y) (tw_lx fun t => .inr (.inr (.inr ⟨(), c :: x, c :: y, t, ?_, ?_, rfl, rfl⟩))) ?_
  · exact whitespace_stop (stops_cons hb hs)
  · exact whitespace_stop (stops_cons hb hs)
  · rintro _ _ _ ⟨rfl, rfl⟩; exact h

theorem reL {k k' : Char → L β} (h : Near D G m x y) (hB : Blanks2 D G m x y fun c c' x' y' => TwL D (k c) (k' c') x' y' Q)
    (h1 : ∀ c x' y', x = c :: x' ∧ y = c :: y' → Near D G m (c :: x') (c :: y') → TwL D (k c) (k' c) x' y' Q) :
    TwL D (readOrErr >>= k) (readOrErr >>= k') x y Q :=
  tw_assoc (rdL h hB h1 tw_throw tw_throw)

theorem reP {k k' : Char → P β} (h : Near D G m x y) (hB : Blanks2 D G m x y fun c c' x' y' => TwP D (k c) (k' c') x' y' Q)
    (h1 : ∀ c x' y', x = c :: x' ∧ y = c :: y' → Near D G m (c :: x') (c :: y') → TwP D (k c) (k' c) x' y' Q) :
    TwP D (lx readOrErr >>= k) (lx readOrErr >>= k') x y Q := by
  rintro ⟨t, e⟩
  rw [M.bind_apply, M.bind_apply]
  cases x with
  | nil =>
    rw [h.nil]
    cases t with
    | eof => exact .inr (.inr (.inl ⟨_, _, rfl, rfl, .inr rfl⟩))
    | io => exact .inr (.inr (.inl ⟨_, _, rfl, rfl, .inr rfl⟩))
  | cons c x' =>
    obtain ⟨c', y', rfl, rfl | ⟨hD, hc, hc', hm⟩⟩ := h.heads
    · exact h1 c x' y' ⟨rfl, rfl⟩ h (t, e)
    · exact hB c c' x' y' ⟨rfl, rfl⟩ hD hc hc' hm h (t, e)

theorem unL {c c' : Char} {k k' : Unit → L β} (h : TwL D (k ()) (k' ()) (c :: x) (c' :: y) Q) :
    TwL D (unreadChar c >>= k) (unreadChar c' >>= k') x y Q :=
  tw_bind (R := fun _ x' y' => x' = c :: x ∧ y' = c' :: y) (fun t => .inr (.inr (.inr ⟨(), _, _, t, rfl, rfl, rfl, rfl⟩)))
    (by rintro _ _ _ ⟨rfl, rfl⟩; exact h)

theorem unP {c c' : Char} {k k' : Unit → P β} (h : TwP D (k ()) (k' ()) (c :: x) (c' :: y) Q) :
    TwP D (lx (unreadChar c) >>= k) (lx (unreadChar c') >>= k') x y Q :=
  tw_bind (R := fun _ x' y' => x' = c :: x ∧ y' = c' :: y) (tw_lx fun t => .inr (.inr (.inr ⟨(), _, _, t, rfl, rfl, rfl, rfl⟩)))
    (by rintro _ _ _ ⟨rfl, rfl⟩; exact h)

theorem blank_ne {c d : Char} (hc : Blank c) (hd : ¬ Blank d) : c ≠ d := fun e => hd (e ▸ hc)

/-- two blanks that are none of the characters asked for -/
macro "blanks " h:term:max h':term:max : tactic =>
  `(tactic| repeat refine tw_not (blank_ne $h (by decide)) (blank_ne $h' (by decide)) ?_)

theorem wsL (hG : Ends G) {k k' : Unit → L β} (h : Loose D G x y)
    (h1 : ∀ x' y', Near D G (.code []) x' y' → StartsSolid x' → TwL D (k ()) (k' ()) x' y' Q) : TwL D (whitespace >>= k) (whitespace >>= k') x y Q :=
  tw_bind (tw_whitespace hG h) fun _ x' y' hr => h1 x' y' hr.1 hr.2

theorem wsP (hG : Ends G) {k k' : Unit → P β} (h : Loose D G x y)
    (h1 : ∀ x' y', Near D G (.code []) x' y' → StartsSolid x' → TwP D (k ()) (k' ()) x' y' Q) : TwP D (lx whitespace >>= k) (lx whitespace >>= k') x y Q :=
  tw_bind (tw_lx (tw_whitespace hG h)) fun _ x' y' hr => h1 x' y' hr.1 hr.2

/-- a character that is a symbol of its own and the beginning of no other -/
def Own (c : Char) : Prop := ¬ Blank c ∧ Mode.next (.code []) c = .code [c] ∧ Closed [c]

instance (c : Char) : Decidable (Own c) := inferInstanceAs (Decidable (_ ∧ _))

theorem Near.own (hG : Ends G) {c : Char} (h : Near D G (.code []) (c :: x) (c :: y)) (hc : Own c) : Near D G (.code []) x y := Near.op hG h hc.1 hc.2.1 hc.2.2

theorem tw_expectChar (hG : Ends G) {e : Char} {msg : String} (h : Near D G (.code []) x y) (he : Own e) :
    TwL D (expectChar e msg) (expectChar e msg) x y fun _ x' y' => Near D G (.code []) x' y' ∧ x = e :: x' := by
  refine rdL h (fun c c' x' y' _ hD hb hb' _ _ => tw_yes (blank_ne hb he.1) (blank_ne hb' he.1) (tw_errs hD))
    (fun c x' y' ex hn => tw_ite (fun _ => tw_throw) (fun hc => tw_pure ?_)) tw_throw tw_throw
  have hc : c = e := Classical.not_not.1 hc
  subst hc
  exact ⟨Near.own hG hn he, ex.1⟩

theorem exP (hG : Ends G) {e : Char} {msg : String} {k k' : Unit → P β} (h : Near D G (.code []) x y) (he : Own e)
    (h1 : ∀ x' y', Near D G (.code []) x' y' → TwP D (k ()) (k' ()) x' y' Q) : TwP D (lx (expectChar e msg) >>= k) (lx (expectChar e msg) >>= k') x y Q :=
  tw_bind (tw_lx (tw_expectChar hG h he)) fun _ x' y' hr => h1 x' y' hr.1

/-! ### words, numbers and literals -/

theorem tw_lexLoop {β ρ : Type} {body : β → L (Iter β ρ)} {I : β → List Char → List Char → Prop} {Q : ρ → List Char → List Char → Prop}
    (hb : ∀ b x y, I b x y → TwL D (body b) (body b) x y (Round I Q)) (b : β) (x y : List Char) (h : I b x y) :
    TwL D (lexLoop body b) (lexLoop body b) x y Q :=
  fun t => tw_loop hb (x.length + 1) (y.length + 1) b x y h t

theorem tw_identifier (hG : Ends G) (h : Loose D G x y) : TwL D identifier identifier x y fun n x' y' => Near D G (.code []) x' y' ∧ ∀ c ∈ n, IdentChar c := by
  refine wsL hG h fun x1 y1 h1 _ => ?_
  refine tw_lexLoop (I := fun n x y => Near D G (.code []) x y ∧ ∀ c ∈ n, IdentChar c) ?_ [] x1 y1 ⟨h1, by simp⟩
  rintro n x y ⟨h, hn⟩
  have test : ∀ c, Blank c → (!isLetter c && !isDigit c && decide (c ≠ '_')) = true := by
    intro c hc
    rw [identTest]
    cases hh : isIdent c with
    | true => exact absurd hc (identChar_not_blank ((isIdent_iff c).1 hh))
    | false => rfl
  refine rdL h (fun c c' x' y' _ _ hb hb' _ hc => tw_yes (test c hb) (test c' hb') (unL (tw_pure ⟨hc, hn⟩))) (fun c x' y' _ hc => ?_) (tw_pure ⟨.same _, hn⟩) tw_throw
  refine tw_ite (fun _ => unL (tw_pure ⟨hc, hn⟩)) (fun hi => tw_pure ?_)
  have hi : IdentChar c := by
    refine (isIdent_iff c).1 ?_
    have := identTest c
    cases hh : isIdent c with
    | true => rfl
    | false => rw [hh] at this; exact absurd (by simpa using this) hi
  refine ⟨Near.plain hG hc (ident_plain hi) (identChar_not_blank hi), fun d hd => ?_⟩
  rcases List.mem_append.1 hd with hd | hd
  · exact hn d hd
  · simp only [List.mem_singleton] at hd; subst hd; exact hi

theorem tw_numberGo (hG : Ends G) (radix : W) : ∀ (n n' : Nat) (w : W) (c c' : Char) (x y : List Char), (c = c' ∨ D ∧ Blank c ∧ Blank c') →
    Near D G (.code []) (c :: x) (c' :: y) →
    TwL D (loop n (numberBody radix) (w, c)) (loop n' (numberBody radix) (w, c')) x y fun _ x' y' => Near D G (.code []) x' y'
  | 0, _, _, _, _, _, _, _, _ => tw_fuelL
  | _ + 1, 0, _, _, _, _, _, _, _ => tw_fuelR
  | n + 1, n' + 1, w, c, c', x, y, hc, h => by
    have nd : ∀ c, Blank c → ¬ isDigit c = true := fun c hb hd => digit_not_blank ((isDigit_iff c).1 hd) hb
    have e1 : ∀ c, isDigit c = true → numberBody radix (w, c) = readChar >>= fun r => (match r with
        | .eof => pure (.done (w * radix + digitVal c))
        | .io => M.throw .io
        | .ch c' => pure (.next (w * radix + digitVal c, c')) : L (Iter (W × Char) W)) := fun c h => if_pos h
    have e2 : ∀ c, ¬ isDigit c = true → numberBody radix (w, c) = unreadChar c >>= fun _ => pure (.done w) := fun c h => if_neg h
    unfold loop
    rcases hc with rfl | ⟨hD, hb, hb'⟩
    · by_cases hd : isDigit c = true
      · rw [e1 c hd]
        have hd := (isDigit_iff c).1 hd
        refine tw_assoc (rdL (Near.plain hG h (ident_plain (.inr (.inl hd))) (digit_not_blank hd)) ?_ ?_ ?_ tw_throw)
        · intro d d' x' y' _ hD hb hb' _ hn
          exact tw_numberGo hG radix n n' _ d d' x' y' (.inr ⟨hD, hb, hb'⟩) hn
        · intro d x' y' _ hn
          exact tw_numberGo hG radix n n' _ d d x' y' (.inl rfl) hn
        · exact tw_pure (.same _)
      · rw [e2 c hd]
        exact tw_assoc (unL (tw_pure h))
    · rw [e2 c (nd c hb), e2 c' (nd c' hb')]
      exact tw_assoc (unL (tw_pure h))

theorem tw_numberLoop (hG : Ends G) {c : Char} (h : Near D G (.code []) (c :: x) (c :: y)) :
    TwL D (numberLoop c) (numberLoop c) x y fun _ x' y' => Near D G (.code []) x' y' := by
  intro t
  exact tw_numberGo hG _ _ _ _ c c x y (.inl rfl) h t

theorem tw_number (hG : Ends G) (h : Loose D G x y) : TwL D number number x y fun _ x' y' => Near D G (.code []) x' y' := by
  refine wsL hG h fun x1 y1 h1 hs => ?_
  exact reL h1 (solidB hs) fun c x' y' _ hn => tw_numberLoop hG hn

theorem tw_readItem (hG : Ends G) {q c : Char} (hc : c ≠ q) (h : Near D G (.quoted q false) (c :: x) (c :: y)) :
    TwL D (readItem c) (readItem c) x y fun _ x' y' => Near D G (.quoted q false) x' y' := by
  have h1 := Near.inside hG h (by simp)
  simp only [Mode.next, if_neg hc] at h1
  refine tw_ite (fun hs => ?_) (fun hs => ?_)
  · rw [decide_eq_true hs] at h1
    refine reL h1 (insideB (by simp)) fun d x' y' _ h2 => ?_
    have h3 : Near D G (.quoted q false) x' y' := Near.inside hG h2 (by simp)
    repeat' first
      | exact tw_pure h3
      | exact tw_throw
      | refine tw_ite (fun hc => ?_) (fun hc => ?_)
  · rw [decide_eq_false hs] at h1
    exact tw_pure h1

theorem tw_characterLoop (hG : Ends G) : ∀ (k : Nat) (v : W) (x y : List Char), Near D G (.quoted '\'' false) x y →
    TwL D (characterLoop k v) (characterLoop k v) x y fun _ x' y' => Near D G (.code []) x' y'
  | 0, v, x, y, h => by
    refine rdL h (insideB (by simp)) (fun c x' y' _ hn => tw_ite (fun _ => tw_throw) (fun hc => tw_pure ?_)) tw_throw tw_throw
    have hc : c = '\'' := Classical.not_not.1 hc
    subst hc
    exact Near.inside hG hn (by simp)
  | k + 1, v, x, y, h => by
    refine reL h (insideB (by simp)) fun c x' y' _ hn => tw_ite (fun hc => tw_pure ?_) (fun hc => ?_)
    · subst hc; exact Near.inside hG hn (by simp)
    · exact tw_bind (tw_readItem hG hc hn) fun d x2 y2 h2 => tw_characterLoop hG k _ x2 y2 h2

/-- a character constant, its quote being read -/
theorem tw_character (hG : Ends G) (h : Near D G (.code []) ('\'' :: x) ('\'' :: y)) :
    TwL D character character x y fun _ x' y' => Near D G (.code []) x' y' :=
  tw_characterLoop hG _ _ _ _ (Near.solid hG h (by decide))

/-- a string, its quote being read -/
theorem tw_stringLit (hG : Ends G) (h : Near D G (.code []) ('"' :: x) ('"' :: y)) :
    TwL D stringLit stringLit x y fun _ x' y' => Near D G (.code []) x' y' := by
  refine tw_lexLoop (I := fun _ x y => Near D G (.quoted '"' false) x y) ?_ [] x y (Near.solid hG h (by decide))
  intro b x y h
  refine rdL h (insideB (by simp)) (fun c x' y' _ hn => tw_ite (fun hc => tw_pure ?_) (fun hc => ?_)) tw_throw tw_throw
  · subst hc; exact Near.inside hG hn (by simp)
  · exact tw_bind (tw_readItem hG hc hn) fun d x2 y2 h2 => tw_pure h2

theorem tw_orMsg {α : Type} {f : L α} {msg : String} {R : α → List Char → List Char → Prop} (hf : ∀ l, f l ≠ .err .fuel) (h : TwL D f f x y R) :
    TwL D (orMsg f msg) (orMsg f msg) x y R := by
  intro t
  simp only [orMsg]
  rcases h t with h1 | h1 | ⟨er, er', h1, h2, hd⟩ | ⟨a, x', y', e', h1, h2, h3⟩
  · exact absurd h1 (hf _)
  · exact absurd h1 (hf _)
  · rw [h1, h2]; exact .inr (.inr (.inl ⟨_, _, rfl, rfl, .inr rfl⟩))
  · rw [h1, h2]; exact .inr (.inr (.inr ⟨a, x', y', e', rfl, rfl, h3⟩))

theorem wp_no {α : Type} {f : L α} {Q : Lex → α → Lex → Prop} (h : ∀ l, wp f l (Q l)) (l : Lex) : f l ≠ .err .fuel := by
  intro he
  have := h l
  unfold wp at this
  rw [he] at this
  exact this rfl

theorem tw_identOr (hG : Ends G) {msg : String} (h : Loose D G x y) :
    TwL D (identOr msg) (identOr msg) x y fun n x' y' => Near D G (.code []) x' y' ∧ ∀ c ∈ n, IdentChar c :=
  tw_bind (tw_orMsg (wp_no identifier_wp) (tw_identifier hG h)) fun _ _ _ hr => tw_ite (fun _ => tw_throw) (fun _ => tw_pure hr)
end

end Blang.Blanks
