import Verif.Proofs.SoundExpr
/-
The grammar of expressions is unambiguous, for every table of levels between 3 and 12.

Method: `PE`, `PU`, `PP`, `PL`, `PA`, `EL` describe a deterministic parser on tokens. Every derivation
of the grammar is followed by that parser (`egram_pe`), so there is only one.
-/
namespace Blang
open Spec

def bops : List Bop := [.mul, .div, .mod, .add, .sub, .shl, .shr, .lt, .le, .gt, .ge, .eq, .ne, .band, .bor]

section
variable (pr : Bop → Nat)

/-- level of the operator that a symbol is after an operand -/
def opLev (s : List Char) : Option Nat :=
  if s = ['('] ∨ s = ['['] ∨ s = ['+', '+'] ∨ s = ['-', '-'] then some 1
  else if s = ['?'] then some 13
  else if s = ['='] then some 14
  else match bops.find? (fun o => o.text = s) with
    | some o => some (pr o)
    | none => match bops.find? (fun o => '=' :: o.text = s) with
      | some _ => some 14
      | none => none

/-- the next token is no operator of level `L` or tighter -/
def Halt (L : Nat) (us : List Tok) : Prop := ∀ s rest, us = .sym s :: rest → ∀ k, opLev pr s = some k → L < k

def mkCall : Ex → List Ex → Ex
  | .var x, as => .callName x as
  | f, as => .call f as

def asg (o : Option Bop) : List Char :=
  match o with
  | none => ['=']
  | some o => '=' :: o.text

mutual
inductive PE : Nat → List Tok → Ex → List Tok → Prop where
  | mk {L : Nat} {ts us vs : List Tok} {e e' : Ex} : PU ts e us → EL L e us e' vs → PE L ts e' vs

inductive PU : List Tok → Ex → List Tok → Prop where
  | pre {ts us : List Tok} {d : Dir} {e : Ex} : PU ts e us → PU (.sym d.text :: ts) (.pre d e) us
  | not {ts us : List Tok} {e : Ex} : PU ts e us → PU (.sym ['!'] :: ts) (.not e) us
  | neg {ts us : List Tok} {e : Ex} : PU ts e us → PU (.sym ['-'] :: ts) (.neg e) us
  | deref {ts us : List Tok} {e : Ex} : PU ts e us → PU (.sym ['*'] :: ts) (.deref e) us
  | addr {ts us : List Tok} {e : Ex} : PU ts e us → PU (.sym ['&'] :: ts) (.addr e) us
  | post {ts us vs : List Tok} {e e' : Ex} : PP ts e us → PL e us e' vs → PU ts e' vs

/-- primary expressions -/
inductive PP : List Tok → Ex → List Tok → Prop where
  | num {ds : List Char} {us : List Tok} : PP (.num ds :: us) (.num (BitVec.ofNat 64 (literalValue ds))) us
  | chr {vs : List Nat} {us : List Tok} : PP (.chr vs :: us) (.num (charValue vs)) us
  | str {vs : List Nat} {us : List Tok} : PP (.str vs :: us) (.str vs) us
  | var {x : List Char} {us : List Tok} : PP (.word x :: us) (.var x) us
  | paren {ts us : List Tok} {e : Ex} : PE 15 ts e (.sym [')'] :: us) → PP (.sym ['('] :: ts) (.paren e) us

/-- postfix operators -/
inductive PL : Ex → List Tok → Ex → List Tok → Prop where
  | stop {e : Ex} {us : List Tok} : Halt pr 1 us → PL e us e us
  | index {e i e' : Ex} {ts us vs : List Tok} : PE 15 ts i (.sym [']'] :: us) → PL (.index e i) us e' vs →
      PL e (.sym ['['] :: ts) e' vs
  | call {e e' : Ex} {as : List Ex} {ts us vs : List Tok} : PA ts as us → PL (mkCall e as) us e' vs →
      PL e (.sym ['('] :: ts) e' vs
  | post {e e' : Ex} {d : Dir} {us vs : List Tok} : PL (.post d e) us e' vs → PL e (.sym d.text :: us) e' vs

/-- arguments -/
inductive PA : List Tok → List Ex → List Tok → Prop where
  | nil {us : List Tok} : PA (.sym [')'] :: us) [] us
  | last {ts us : List Tok} {e : Ex} : PE 15 ts e (.sym [')'] :: us) → PA ts [e] us
  | cons {ts us vs : List Tok} {e : Ex} {es : List Ex} : PE 15 ts e (.sym [','] :: us) → PA us es vs → PA ts (e :: es) vs

/-- binary operators, `?:` and assignment -/
inductive EL : Nat → Ex → List Tok → Ex → List Tok → Prop where
  | stop {L : Nat} {e : Ex} {us : List Tok} : Halt pr L us → EL L e us e us
  | bin {L : Nat} {o : Bop} {e r e' : Ex} {ts us vs : List Tok} : pr o ≤ L → PE (pr o - 1) ts r us → EL L (.bin o e r) us e' vs →
      EL L e (.sym o.text :: ts) e' vs
  | cond {L : Nat} {e t f e' : Ex} {ts us vs ws : List Tok} : 13 ≤ L → PE 12 ts t (.sym [':'] :: us) → PE 13 us f vs →
      EL L (.cond e t f) vs e' ws → EL L e (.sym ['?'] :: ts) e' ws
  | assign {L : Nat} {o : Option Bop} {e r e' : Ex} {ts us vs : List Tok} : 14 ≤ L → PE 14 ts r us →
      EL L (.assign o e r) us e' vs → EL L e (.sym (asg o) :: ts) e' vs
end

variable {pr}

theorem opLev_bop (o : Bop) : opLev pr o.text = some (pr o) := by cases o <;> rfl
theorem opLev_asg (o : Option Bop) : opLev pr (asg o) = some 14 := by
  cases o with
  | none => rfl
  | some o => cases o <;> rfl
theorem opLev_dir (d : Dir) : opLev pr d.text = some 1 := by cases d <;> rfl
theorem bop_inj {o o' : Bop} (h : o.text = o'.text) : o = o' := by
  revert h; cases o <;> cases o' <;> decide
theorem asg_inj {o o' : Option Bop} (h : asg o = asg o') : o = o' := by
  revert h; cases o with
  | none => cases o' with
    | none => simp
    | some o' => cases o' <;> decide
  | some o => cases o' with
    | none => cases o <;> decide
    | some o' => intro h; simp [asg] at h; rw [bop_inj h]
theorem dir_inj {d d' : Dir} (h : d.text = d'.text) : d = d' := by
  revert h; cases d <;> cases d' <;> decide
theorem bop_asg {o : Bop} {o' : Option Bop} (h : o.text = asg o') : False := by
  revert h; cases o' with
  | none => cases o <;> decide
  | some o' => cases o <;> cases o' <;> decide

theorem Halt.absurd {L k : Nat} {s : List Char} {us : List Tok} (h : Halt pr L (.sym s :: us)) (hs : opLev pr s = some k) (hk : k ≤ L) : False := by
  have := h s us rfl k hs
  omega

/-- a parsed expression does not begin with a closing parenthesis -/
theorem pe_start {L : Nat} {ts us : List Tok} {e : Ex} (h : PE pr L ts e us) : ∀ r, ts ≠ .sym [')'] :: r := by
  have hp : ∀ {ts us e}, PP pr ts e us → ∀ r, ts ≠ .sym [')'] :: r := by
    intro ts us e h r
    cases h <;> simp
  have hu : ∀ {ts us e}, PU pr ts e us → ∀ r, ts ≠ .sym [')'] :: r := by
    intro ts us e h r
    cases h with
    | @pre _ _ d => cases d <;> simp [Dir.text]
    | post h _ => exact hp h r
    | _ => simp
  cases h with
  | mk h _ => exact hu h

theorem pu_inv {ts us : List Tok} {e : Ex} (h : PU pr ts e us) :
    (∃ d r e0, ts = .sym d.text :: r ∧ e = .pre d e0 ∧ PU pr r e0 us) ∨ (∃ r e0, ts = .sym ['!'] :: r ∧ e = .not e0 ∧ PU pr r e0 us) ∨
    (∃ r e0, ts = .sym ['-'] :: r ∧ e = .neg e0 ∧ PU pr r e0 us) ∨ (∃ r e0, ts = .sym ['*'] :: r ∧ e = .deref e0 ∧ PU pr r e0 us) ∨
    (∃ r e0, ts = .sym ['&'] :: r ∧ e = .addr e0 ∧ PU pr r e0 us) ∨ ∃ e0 vs, PP pr ts e0 vs ∧ PL pr e0 vs e us := by
  cases h with
  | pre h => exact .inl ⟨_, _, _, rfl, rfl, h⟩
  | not h => exact .inr (.inl ⟨_, _, rfl, rfl, h⟩)
  | neg h => exact .inr (.inr (.inl ⟨_, _, rfl, rfl, h⟩))
  | deref h => exact .inr (.inr (.inr (.inl ⟨_, _, rfl, rfl, h⟩)))
  | addr h => exact .inr (.inr (.inr (.inr (.inl ⟨_, _, rfl, rfl, h⟩))))
  | post h1 h2 => exact .inr (.inr (.inr (.inr (.inr ⟨_, _, h1, h2⟩))))

theorem pp_start {ts us : List Tok} {e : Ex} (h : PP pr ts e us) : ∀ s r, ts = .sym s :: r → s = ['('] := by
  intro s r e
  cases h <;> simp at e
  exact e.1.symm

theorem pl_inv {e0 : Ex} {ts us : List Tok} {e : Ex} (h : PL pr e0 ts e us) :
    (Halt pr 1 ts ∧ e = e0 ∧ us = ts) ∨ (∃ r i vs, ts = .sym ['['] :: r ∧ PE pr 15 r i (.sym [']'] :: vs) ∧ PL pr (.index e0 i) vs e us) ∨
    (∃ r as vs, ts = .sym ['('] :: r ∧ PA pr r as vs ∧ PL pr (mkCall e0 as) vs e us) ∨
    ∃ d r, ts = .sym d.text :: r ∧ PL pr (.post d e0) r e us := by
  cases h with
  | stop h => exact .inl ⟨h, rfl, rfl⟩
  | index h1 h2 => exact .inr (.inl ⟨_, _, _, rfl, h1, h2⟩)
  | call h1 h2 => exact .inr (.inr (.inl ⟨_, _, _, rfl, h1, h2⟩))
  | post h => exact .inr (.inr (.inr ⟨_, _, rfl, h⟩))

theorem el_inv {L : Nat} {e0 : Ex} {ts us : List Tok} {e : Ex} (h : EL pr L e0 ts e us) :
    (Halt pr L ts ∧ e = e0 ∧ us = ts) ∨
    (∃ o r x vs, pr o ≤ L ∧ ts = .sym o.text :: r ∧ PE pr (pr o - 1) r x vs ∧ EL pr L (.bin o e0 x) vs e us) ∨
    (∃ r t f vs ws, 13 ≤ L ∧ ts = .sym ['?'] :: r ∧ PE pr 12 r t (.sym [':'] :: vs) ∧ PE pr 13 vs f ws ∧ EL pr L (.cond e0 t f) ws e us) ∨
    ∃ o r x vs, 14 ≤ L ∧ ts = .sym (asg o) :: r ∧ PE pr 14 r x vs ∧ EL pr L (.assign o e0 x) vs e us := by
  cases h with
  | stop h => exact .inl ⟨h, rfl, rfl⟩
  | bin h0 h1 h2 => exact .inr (.inl ⟨_, _, _, _, h0, rfl, h1, h2⟩)
  | cond h0 h1 h2 h3 => exact .inr (.inr (.inl ⟨_, _, _, _, _, h0, rfl, h1, h2, h3⟩))
  | assign h0 h1 h2 => exact .inr (.inr (.inr ⟨_, _, _, _, h0, rfl, h1, h2⟩))

theorem bop_ne_q (o : Bop) : o.text ≠ ['?'] := by cases o <;> decide
theorem asg_ne_q (o : Option Bop) : asg o ≠ ['?'] := by
  cases o with
  | none => decide
  | some o => cases o <;> decide

mutual
theorem pe_det {L : Nat} {ts us us' : List Tok} {e e' : Ex} (h : PE pr L ts e us) (h' : PE pr L ts e' us') : e = e' ∧ us = us' := by
  match h with
  | .mk h1 h2 =>
    cases h' with
    | mk h3 h4 =>
      obtain ⟨rfl, rfl⟩ := pu_det h1 h3
      exact el_det h2 h4
termination_by structural h

theorem pu_det {ts us us' : List Tok} {e e' : Ex} (h : PU pr ts e us) (h' : PU pr ts e' us') : e = e' ∧ us = us' := by
  match h with
  | .pre (d := d) h1 =>
    rcases pu_inv h' with ⟨d', r, e0, e1, rfl, h2⟩ | ⟨r, e0, e1, rfl, h2⟩ | ⟨r, e0, e1, rfl, h2⟩ | ⟨r, e0, e1, rfl, h2⟩ | ⟨r, e0, e1, rfl, h2⟩ | ⟨e0, vs, h2, h3⟩
    · simp only [List.cons.injEq, Tok.sym.injEq] at e1
      obtain ⟨e1, rfl⟩ := e1
      rw [dir_inj e1]
      obtain ⟨rfl, rfl⟩ := pu_det h1 h2
      exact ⟨rfl, rfl⟩
    all_goals first | (exfalso; have := pp_start h2 _ _ rfl; revert this; cases d <;> decide) | (cases d <;> simp [Dir.text] at e1)
  | .not h1 =>
    rcases pu_inv h' with ⟨d', r, e0, e1, rfl, h2⟩ | ⟨r, e0, e1, rfl, h2⟩ | ⟨r, e0, e1, rfl, h2⟩ | ⟨r, e0, e1, rfl, h2⟩ | ⟨r, e0, e1, rfl, h2⟩ | ⟨e0, vs, h2, h3⟩
    all_goals first
      | (exfalso; have := pp_start h2 _ _ rfl; revert this; decide)
      | (cases d' <;> simp [Dir.text] at e1; done)
      | (simp at e1; done)
      | (simp only [List.cons.injEq, true_and] at e1; subst e1; obtain ⟨rfl, rfl⟩ := pu_det h1 h2; exact ⟨rfl, rfl⟩)
  | .neg h1 =>
    rcases pu_inv h' with ⟨d', r, e0, e1, rfl, h2⟩ | ⟨r, e0, e1, rfl, h2⟩ | ⟨r, e0, e1, rfl, h2⟩ | ⟨r, e0, e1, rfl, h2⟩ | ⟨r, e0, e1, rfl, h2⟩ | ⟨e0, vs, h2, h3⟩
    all_goals first
      | (exfalso; have := pp_start h2 _ _ rfl; revert this; decide)
      | (cases d' <;> simp [Dir.text] at e1; done)
      | (simp at e1; done)
      | (simp only [List.cons.injEq, true_and] at e1; subst e1; obtain ⟨rfl, rfl⟩ := pu_det h1 h2; exact ⟨rfl, rfl⟩)
  | .deref h1 =>
    rcases pu_inv h' with ⟨d', r, e0, e1, rfl, h2⟩ | ⟨r, e0, e1, rfl, h2⟩ | ⟨r, e0, e1, rfl, h2⟩ | ⟨r, e0, e1, rfl, h2⟩ | ⟨r, e0, e1, rfl, h2⟩ | ⟨e0, vs, h2, h3⟩
    all_goals first
      | (exfalso; have := pp_start h2 _ _ rfl; revert this; decide)
      | (cases d' <;> simp [Dir.text] at e1; done)
      | (simp at e1; done)
      | (simp only [List.cons.injEq, true_and] at e1; subst e1; obtain ⟨rfl, rfl⟩ := pu_det h1 h2; exact ⟨rfl, rfl⟩)
  | .addr h1 =>
    rcases pu_inv h' with ⟨d', r, e0, e1, rfl, h2⟩ | ⟨r, e0, e1, rfl, h2⟩ | ⟨r, e0, e1, rfl, h2⟩ | ⟨r, e0, e1, rfl, h2⟩ | ⟨r, e0, e1, rfl, h2⟩ | ⟨e0, vs, h2, h3⟩
    all_goals first
      | (exfalso; have := pp_start h2 _ _ rfl; revert this; decide)
      | (cases d' <;> simp [Dir.text] at e1; done)
      | (simp at e1; done)
      | (simp only [List.cons.injEq, true_and] at e1; subst e1; obtain ⟨rfl, rfl⟩ := pu_det h1 h2; exact ⟨rfl, rfl⟩)
  | .post h1 h3 =>
    rcases pu_inv h' with ⟨d', r, e0, e1, rfl, h2⟩ | ⟨r, e0, e1, rfl, h2⟩ | ⟨r, e0, e1, rfl, h2⟩ | ⟨r, e0, e1, rfl, h2⟩ | ⟨r, e0, e1, rfl, h2⟩ | ⟨e0, vs, h2, h4⟩
    · exfalso
      have := pp_start h1 _ _ e1
      revert this; cases d' <;> decide
    · exact absurd (pp_start h1 _ _ e1) (by decide)
    · exact absurd (pp_start h1 _ _ e1) (by decide)
    · exact absurd (pp_start h1 _ _ e1) (by decide)
    · exact absurd (pp_start h1 _ _ e1) (by decide)
    · obtain ⟨rfl, rfl⟩ := pp_det h1 h2
      exact pl_det h3 h4
termination_by structural h

theorem pp_det {ts us us' : List Tok} {e e' : Ex} (h : PP pr ts e us) (h' : PP pr ts e' us') : e = e' ∧ us = us' := by
  match h with
  | .num => cases h' with | num => exact ⟨rfl, rfl⟩
  | .chr => cases h' with | chr => exact ⟨rfl, rfl⟩
  | .str => cases h' with | str => exact ⟨rfl, rfl⟩
  | .var => cases h' with | var => exact ⟨rfl, rfl⟩
  | .paren h1 =>
    cases h' with
    | paren h2 =>
      obtain ⟨rfl, e⟩ := pe_det h1 h2
      cases e; exact ⟨rfl, rfl⟩
termination_by structural h

theorem pl_det {e0 : Ex} {ts us us' : List Tok} {e e' : Ex} (h : PL pr e0 ts e us) (h' : PL pr e0 ts e' us') : e = e' ∧ us = us' := by
  match h with
  | .stop h1 =>
    rcases pl_inv h' with ⟨h2, rfl, rfl⟩ | ⟨r, i, vs, rfl, h2, h3⟩ | ⟨r, as, vs, rfl, h2, h3⟩ | ⟨d, r, rfl, h3⟩
    · exact ⟨rfl, rfl⟩
    · exact (h1.absurd rfl (Nat.le_refl 1)).elim
    · exact (h1.absurd rfl (Nat.le_refl 1)).elim
    · exact (h1.absurd (opLev_dir d) (Nat.le_refl 1)).elim
  | .index h1 h4 =>
    rcases pl_inv h' with ⟨h2, rfl, rfl⟩ | ⟨r, i, vs, e, h2, h3⟩ | ⟨r, as, vs, e, h2, h3⟩ | ⟨d, r, e, h3⟩
    · exact (h2.absurd rfl (Nat.le_refl 1)).elim
    · cases e
      obtain ⟨rfl, e⟩ := pe_det h1 h2
      cases e
      exact pl_det h4 h3
    · simp at e
    · cases d <;> simp [Dir.text] at e
  | .call h1 h4 =>
    rcases pl_inv h' with ⟨h2, rfl, rfl⟩ | ⟨r, i, vs, e, h2, h3⟩ | ⟨r, as, vs, e, h2, h3⟩ | ⟨d, r, e, h3⟩
    · exact (h2.absurd rfl (Nat.le_refl 1)).elim
    · simp at e
    · cases e
      obtain ⟨rfl, rfl⟩ := pa_det h1 h2
      exact pl_det h4 h3
    · cases d <;> simp [Dir.text] at e
  | .post (d := d) h4 =>
    rcases pl_inv h' with ⟨h2, rfl, rfl⟩ | ⟨r, i, vs, e, h2, h3⟩ | ⟨r, as, vs, e, h2, h3⟩ | ⟨d', r, e, h3⟩
    · exact (h2.absurd (opLev_dir d) (Nat.le_refl 1)).elim
    · cases d <;> simp [Dir.text] at e
    · cases d <;> simp [Dir.text] at e
    · simp only [List.cons.injEq, Tok.sym.injEq] at e
      obtain ⟨e1, rfl⟩ := e
      cases dir_inj e1
      exact pl_det h4 h3
termination_by structural h

theorem pa_det {ts us us' : List Tok} {e e' : List Ex} (h : PA pr ts e us) (h' : PA pr ts e' us') : e = e' ∧ us = us' := by
  match h with
  | .nil =>
    cases h' with
    | nil => exact ⟨rfl, rfl⟩
    | last h => exact absurd rfl (pe_start h _)
    | cons h _ => exact absurd rfl (pe_start h _)
  | .last h1 =>
    cases h' with
    | nil => exact absurd rfl (pe_start h1 _)
    | last h2 => obtain ⟨rfl, e⟩ := pe_det h1 h2; cases e; exact ⟨rfl, rfl⟩
    | cons h2 _ => obtain ⟨rfl, e⟩ := pe_det h1 h2; simp at e
  | .cons h1 h3 =>
    cases h' with
    | nil => exact absurd rfl (pe_start h1 _)
    | last h2 => obtain ⟨rfl, e⟩ := pe_det h1 h2; simp at e
    | cons h2 h4 =>
      obtain ⟨rfl, e⟩ := pe_det h1 h2; cases e
      obtain ⟨rfl, rfl⟩ := pa_det h3 h4; exact ⟨rfl, rfl⟩
termination_by structural h

theorem el_det {L : Nat} {e0 : Ex} {ts us us' : List Tok} {e e' : Ex} (h : EL pr L e0 ts e us) (h' : EL pr L e0 ts e' us') : e = e' ∧ us = us' := by
  match h with
  | .stop h1 =>
    rcases el_inv h' with ⟨h2, rfl, rfl⟩ | ⟨o, r, x, vs, h0, rfl, h2, h3⟩ | ⟨r, t, f, vs, ws, h0, rfl, h2, h3, h4⟩ | ⟨o, r, x, vs, h0, rfl, h2, h3⟩
    · exact ⟨rfl, rfl⟩
    · exact (h1.absurd (opLev_bop o) h0).elim
    · exact (h1.absurd rfl h0).elim
    · exact (h1.absurd (opLev_asg o) h0).elim
  | .bin (o := o) h0' h5 h6 =>
    rcases el_inv h' with ⟨h2, rfl, rfl⟩ | ⟨o', r, x, vs, h0, e, h2, h3⟩ | ⟨r, t, f, vs, ws, h0, e, h2, h3, h4⟩ | ⟨o', r, x, vs, h0, e, h2, h3⟩
    · exact (h2.absurd (opLev_bop o) h0').elim
    · simp only [List.cons.injEq, Tok.sym.injEq] at e
      obtain ⟨e1, rfl⟩ := e
      cases bop_inj e1
      obtain ⟨rfl, rfl⟩ := pe_det h5 h2
      exact el_det h6 h3
    · simp only [List.cons.injEq, Tok.sym.injEq] at e
      exact absurd e.1 (bop_ne_q o)
    · simp only [List.cons.injEq, Tok.sym.injEq] at e
      exact (bop_asg e.1).elim
  | .cond h0' h5 h6 h7 =>
    rcases el_inv h' with ⟨h2, rfl, rfl⟩ | ⟨o', r, x, vs, h0, e, h2, h3⟩ | ⟨r, t, f, vs, ws, h0, e, h2, h3, h4⟩ | ⟨o', r, x, vs, h0, e, h2, h3⟩
    · exact (h2.absurd rfl h0').elim
    · simp only [List.cons.injEq, Tok.sym.injEq] at e
      exact absurd e.1.symm (bop_ne_q o')
    · cases e
      obtain ⟨rfl, e⟩ := pe_det h5 h2
      cases e
      obtain ⟨rfl, rfl⟩ := pe_det h6 h3
      exact el_det h7 h4
    · simp only [List.cons.injEq, Tok.sym.injEq] at e
      exact absurd e.1.symm (asg_ne_q o')
  | .assign (o := o) h0' h5 h6 =>
    rcases el_inv h' with ⟨h2, rfl, rfl⟩ | ⟨o', r, x, vs, h0, e, h2, h3⟩ | ⟨r, t, f, vs, ws, h0, e, h2, h3, h4⟩ | ⟨o', r, x, vs, h0, e, h2, h3⟩
    · exact (h2.absurd (opLev_asg o) h0').elim
    · simp only [List.cons.injEq, Tok.sym.injEq] at e
      exact (bop_asg e.1.symm).elim
    · simp only [List.cons.injEq, Tok.sym.injEq] at e
      exact absurd e.1 (asg_ne_q o)
    · simp only [List.cons.injEq, Tok.sym.injEq] at e
      obtain ⟨e1, rfl⟩ := e
      cases asg_inj e1
      obtain ⟨rfl, rfl⟩ := pe_det h5 h2
      exact el_det h6 h3
termination_by structural h
end

variable (pr) in
/-- level of an expression -/
def lvl : Ex → Nat
  | .num _ | .str _ | .var _ | .paren _ => 0
  | .index .. | .callName .. | .call .. | .post .. => 1
  | .pre .. | .not _ | .neg _ | .deref _ | .addr _ => 2
  | .bin o _ _ => pr o
  | .cond .. => 13
  | .assign .. => 14

variable (pr) in
/-- level at which the last operand is read -/
def rlv : Ex → Nat
  | .bin o _ _ => pr o - 1
  | .cond .. => 13
  | .assign .. => 14
  | _ => 1

theorem egram_lvl {L : Nat} {ts : List Tok} {e : Ex} (h : EGram pr L ts e) : lvl pr e ≤ L := by
  cases h <;> simp only [lvl] <;> omega

theorem Halt.anti {L L' : Nat} {us : List Tok} (h : Halt pr L us) (hL : L' ≤ L) : Halt pr L' us :=
  fun s rest e k hk => Nat.lt_of_le_of_lt hL (h s rest e k hk)

theorem Halt.sym {L k : Nat} {s : List Char} {us : List Tok} (hs : opLev pr s = some k) (h : L < k) : Halt pr L (.sym s :: us) := by
  intro s' r e k' hk
  cases e
  rw [hs] at hk; cases hk; exact h

theorem Halt.none {L : Nat} {s : List Char} {us : List Tok} (hs : opLev pr s = .none) : Halt pr L (.sym s :: us) := by
  intro s' r e k' hk
  cases e
  rw [hs] at hk; cases hk

variable (pr) in
structure Fol (ts : List Tok) (e : Ex) : Prop where
  a : ∀ {L us e' r}, lvl pr e ≤ L → Halt pr (rlv pr e) us → EL pr L e us e' r → PE pr L (ts ++ us) e' r
  u : lvl pr e ≤ 2 → ∀ {us}, Halt pr 1 us → PU pr (ts ++ us) e us
  p : lvl pr e ≤ 1 → ∀ {us e' r}, PL pr e us e' r → PU pr (ts ++ us) e' r

theorem Fol.full {L : Nat} {ts us : List Tok} {e : Ex} (h : Fol pr ts e) (hl : lvl pr e ≤ L) (hr : rlv pr e ≤ L) (hs : Halt pr L us) :
    PE pr L (ts ++ us) e us := h.a hl (hs.anti hr) (.stop hs)

/-- expressions that end in a postfix operator or are primary -/
theorem Fol.ofP {ts : List Tok} {e : Ex} (hr : rlv pr e = 1) (h : ∀ {us e' r}, PL pr e us e' r → PU pr (ts ++ us) e' r) : Fol pr ts e :=
  ⟨fun _ hs hel => .mk (h (.stop (by rw [hr] at hs; exact hs))) hel, fun _ _ hs => h (.stop hs), fun _ => h⟩

theorem Fol.ofU {ts : List Tok} {e : Ex} (hr : rlv pr e = 1) (hl : lvl pr e = 2) (h : ∀ {us}, Halt pr 1 us → PU pr (ts ++ us) e us) : Fol pr ts e :=
  ⟨fun _ hs hel => .mk (h (by rw [hr] at hs; exact hs)) hel, fun _ _ hs => h hs, fun h => by omega⟩

theorem Fol.ofA {ts : List Tok} {e : Ex} (hl : 2 < lvl pr e)
    (h : ∀ {L us e' r}, lvl pr e ≤ L → Halt pr (rlv pr e) us → EL pr L e us e' r → PE pr L (ts ++ us) e' r) : Fol pr ts e :=
  ⟨h, fun h => by omega, fun h => by omega⟩

theorem rlv_le (hp : ∀ o, 3 ≤ pr o ∧ pr o ≤ 12) (e : Ex) : rlv pr e ≤ max 1 (lvl pr e) := by
  cases e <;> simp only [rlv, lvl] <;> omega

theorem rlv_lt (hp : ∀ o, 3 ≤ pr o ∧ pr o ≤ 12) {e : Ex} {k : Nat} (h : lvl pr e ≤ k) (hk : 2 ≤ k) (hk' : k ≤ 12) : rlv pr e < k := by
  cases e with
  | bin o => simp only [rlv, lvl] at *; have := hp o; omega
  | _ => simp only [rlv, lvl] at *; omega

mutual
theorem egram_fol (hp : ∀ o, 3 ≤ pr o ∧ pr o ≤ 12) {L : Nat} {ts : List Tok} {e : Ex} (h : EGram pr L ts e) : Fol pr ts e := by
  match h with
  | .num => exact .ofP rfl fun h => .post .num h
  | .chr => exact .ofP rfl fun h => .post .chr h
  | .str => exact .ofP rfl fun h => .post .str h
  | .var _ => exact .ofP rfl fun h => .post .var h
  | .paren h1 =>
    refine .ofP rfl fun {us} {e'} {r} h => ?_
    have := (egram_fol hp h1).full (L := 15) (us := .sym [')'] :: us) (egram_lvl h1) (by have := rlv_le hp; have := egram_lvl h1; grind) (.none rfl)
    simpa using PU.post (.paren this) h
  | .index _ h1 h2 =>
    refine .ofP rfl fun {us} {e'} {r} h => ?_
    have := (egram_fol hp h2).full (L := 15) (us := .sym [']'] :: us) (egram_lvl h2) (by have := rlv_le hp; have := egram_lvl h2; grind) (.none rfl)
    simpa using (egram_fol hp h1).p (egram_lvl h1) (.index this h)
  | .callName (x := x) _ _ h2 =>
    refine .ofP rfl fun {us} {e'} {r} h => ?_
    simpa using PU.post (.var (x := x)) (.call (agram_fol hp h2) h)
  | .call _ h1 hf h2 =>
    refine .ofP rfl fun {us} {e'} {r} h => ?_
    have hm : ∀ {f as}, (∀ x, f ≠ .var x) → mkCall f as = .call f as := by
      intro f as hf
      unfold mkCall
      split
      · exact absurd rfl (hf _)
      · rfl
    rw [← hm hf] at h
    simpa using (egram_fol hp h1).p (egram_lvl h1) (.call (agram_fol hp h2) h)
  | .post _ h1 =>
    refine .ofP rfl fun {us} {e'} {r} h => ?_
    simpa using (egram_fol hp h1).p (egram_lvl h1) (.post h)
  | .pre _ h1 => exact .ofU rfl rfl fun hs => .pre ((egram_fol hp h1).u (egram_lvl h1) hs)
  | .not _ h1 => exact .ofU rfl rfl fun hs => .not ((egram_fol hp h1).u (egram_lvl h1) hs)
  | .neg _ h1 => exact .ofU rfl rfl fun hs => .neg ((egram_fol hp h1).u (egram_lvl h1) hs)
  | .deref _ h1 => exact .ofU rfl rfl fun hs => .deref ((egram_fol hp h1).u (egram_lvl h1) hs)
  | .addr _ h1 => exact .ofU rfl rfl fun hs => .addr ((egram_fol hp h1).u (egram_lvl h1) hs)
  | .bin (o := o) _ h1 h2 =>
    have ho := hp o
    refine .ofA (by simp only [lvl]; omega) fun {L} {us} {e'} {r} hl hs hel => ?_
    simp only [lvl, rlv] at hl hs
    have l1 := egram_lvl h1
    have l2 := egram_lvl h2
    have := (egram_fol hp h2).full l2 (by have := rlv_le hp; grind) hs
    have := (egram_fol hp h1).a (L := L) (by omega) (.sym (opLev_bop o) (rlv_lt hp l1 (by omega) (by omega))) (.bin hl this hel)
    simpa using this
  | .cond (vs := vs) _ h1 h2 h3 =>
    refine .ofA (by simp only [lvl]; omega) fun {L} {us} {e'} {r} hl hs hel => ?_
    simp only [lvl, rlv] at hl hs
    have l1 := egram_lvl h1
    have l2 := egram_lvl h2
    have l3 := egram_lvl h3
    have a3 := (egram_fol hp h3).full l3 (by have := rlv_le hp; grind) hs
    have a2 := (egram_fol hp h2).full (us := .sym [':'] :: (vs ++ us)) l2 (by have := rlv_le hp; grind) (.none rfl)
    have := (egram_fol hp h1).a (L := L) (by omega) (.sym (k := 13) rfl (by have := rlv_lt hp l1 (by omega) (by omega); omega)) (.cond hl a2 a3 hel)
    simpa using this
  | .assign _ h1 h2 =>
    refine .ofA (by simp only [lvl]; omega) fun {L} {us} {e'} {r} hl hs hel => ?_
    simp only [lvl, rlv] at hl hs
    have l1 := egram_lvl h1
    have l2 := egram_lvl h2
    have a2 := (egram_fol hp h2).full l2 (by have := rlv_le hp; grind) hs
    have := (egram_fol hp h1).a (L := L) (by omega) (.sym (opLev_asg .none) (by have := rlv_lt hp l1 (by omega) (by omega); omega)) (.assign hl a2 hel)
    simpa [asg] using this
  | .assignOp (o := o) _ h1 h2 =>
    refine .ofA (by simp only [lvl]; omega) fun {L} {us} {e'} {r} hl hs hel => ?_
    simp only [lvl, rlv] at hl hs
    have l1 := egram_lvl h1
    have l2 := egram_lvl h2
    have a2 := (egram_fol hp h2).full l2 (by have := rlv_le hp; grind) hs
    have := (egram_fol hp h1).a (L := L) (by omega) (.sym (opLev_asg (some o)) (by have := rlv_lt hp l1 (by omega) (by omega); omega)) (.assign hl a2 hel)
    simpa [asg] using this
termination_by structural h

theorem agram_fol (hp : ∀ o, 3 ≤ pr o ∧ pr o ≤ 12) {ts : List Tok} {es : List Ex} (h : AGram pr ts es) :
    ∀ {us}, PA pr (ts ++ us) es us := by
  intro us
  match h with
  | .nil => exact .nil
  | .last h1 =>
    have := (egram_fol hp h1).full (L := 15) (us := .sym [')'] :: us) (egram_lvl h1) (by have := rlv_le hp; have := egram_lvl h1; grind) (.none rfl)
    exact .last (by simpa using this)
  | .cons (us := us') h1 h2 =>
    have := (egram_fol hp h1).full (L := 15) (us := .sym [','] :: (us' ++ us)) (egram_lvl h1) (by have := rlv_le hp; have := egram_lvl h1; grind) (.none rfl)
    exact .cons (by simpa using this) (agram_fol hp h2)
termination_by structural h
end

/-- The grammar of expressions is unambiguous. -/
theorem egram_unique (hp : ∀ o, 3 ≤ pr o ∧ pr o ≤ 12) {ts : List Tok} {e e' : Ex} (h : EGram pr 15 ts e) (h' : EGram pr 15 ts e') : e = e' := by
  have key : ∀ {e}, EGram pr 15 ts e → PE pr 15 (ts ++ []) e [] := fun h =>
    (egram_fol hp h).full (egram_lvl h) (by have := rlv_le hp; have := egram_lvl h; grind) (fun s r e => by cases e)
  exact (pe_det (key h) (key h')).1
end

end Blang
