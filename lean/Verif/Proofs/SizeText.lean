import Verif.Proofs.Size
/-
The code of a program is bounded by the length of its text: tokens.
-/
namespace Blang
open Spec

/-- what a token contributes to the length of the text: its characters if it is a string, else one -/
def tokWeight : Tok → Nat
  | .str vs => vs.length + 2
  | _ => 1

def weight (ts : List Tok) : Nat := (ts.map tokWeight).sum

@[simp] theorem weight_nil : weight [] = 0 := rfl
@[simp] theorem weight_cons (t : Tok) (ts : List Tok) : weight (t :: ts) = tokWeight t + weight ts := rfl
@[simp] theorem weight_append (ts us : List Tok) : weight (ts ++ us) = weight ts + weight us := by simp [weight]

/-! ### the tree costs at most six units a token -/

mutual
theorem cost_expr {pr : Bop → Nat} {L : Nat} {ts : List Tok} {e : Ex} (h : EGram pr L ts e) : costE e + 4 ≤ 6 * weight ts := by
  cases h with
  | num => simp [costE, tokWeight]
  | chr => simp [costE, tokWeight]
  | str => simp [costE, tokWeight]; omega
  | var _ => simp [costE, tokWeight]
  | paren h => have := cost_expr h; simp [costE, tokWeight]; omega
  | index _ h1 h2 => have := cost_expr h1; have := cost_expr h2; simp [costE, tokWeight]; omega
  | callName _ _ h => have := cost_args h; simp [costE, tokWeight]; omega
  | call _ h1 _ h2 => have := cost_expr h1; have := cost_args h2; simp [costE, tokWeight]; omega
  | post _ h => have := cost_expr h; simp [costE, tokWeight]; omega
  | pre _ h => have := cost_expr h; simp [costE, tokWeight]; omega
  | not _ h => have := cost_expr h; simp [costE, tokWeight]; omega
  | neg _ h => have := cost_expr h; simp [costE, tokWeight]; omega
  | deref _ h => have := cost_expr h; simp [costE, tokWeight]; omega
  | addr _ h => have := cost_expr h; simp [costE, tokWeight]; omega
  | bin _ h1 h2 => have := cost_expr h1; have := cost_expr h2; simp [costE, tokWeight]; omega
  | cond _ h1 h2 h3 =>
    have := cost_expr h1; have := cost_expr h2; have := cost_expr h3; simp [costE, tokWeight]; omega
  | assign _ h1 h2 => have := cost_expr h1; have := cost_expr h2; simp [costE, tokWeight]; omega
  | assignOp _ h1 h2 => have := cost_expr h1; have := cost_expr h2; simp [costE, tokWeight]; omega

theorem cost_args {pr : Bop → Nat} {ts : List Tok} {es : List Ex} (h : AGram pr ts es) : costA es + 2 ≤ 6 * weight ts := by
  cases h with
  | nil => simp [costA, tokWeight]
  | last h => have := cost_expr h; simp [costA, tokWeight]; omega
  | cons h1 h2 => have := cost_expr h1; have := cost_args h2; simp [costA, tokWeight]; omega
end

theorem cost_autos {ts : List Tok} {ds : List (List Char × Option Word)} (h : DsGram ts ds) : 5 * ds.length ≤ 6 * weight ts := by
  induction h with
  | last _ => simp [tokWeight]; omega
  | cons _ _ ih => simp [tokWeight]; omega

theorem cost_names {close : List Char} {ts : List Tok} {xs : List (List Char)} (h : NsGram close ts xs) : 2 * xs.length ≤ weight ts := by
  induction h with
  | last => simp [tokWeight]
  | cons _ ih => simp [tokWeight]; omega

theorem _root_.Blang.Spec.NsGram.pos {close : List Char} {ts : List Tok} {xs : List (List Char)} (h : NsGram close ts xs) : 1 ≤ weight ts := by
  cases h <;> simp [tokWeight] <;> omega

mutual
theorem cost_stmt {pr : Bop → Nat} {q : Bool} {ts : List Tok} {s : St} (h : SGram pr q ts s) : costS s ≤ 6 * weight ts := by
  match h with
  | .block h => have := cost_stmts h; simp [tokWeight]; omega
  | .empty => simp [costS]
  | .exprHead h => have := cost_expr h; simp [costS, tokWeight] at *; omega
  | .expr h _ => have := cost_expr h; simp [costS, tokWeight]; omega
  | .ret0 => simp [costS, tokWeight]
  | .ret h => have := cost_expr h; simp [costS, tokWeight]; omega
  | .auto h => have := cost_autos h; simp [costS, tokWeight]; omega
  | .extrn h => have := cost_names h; simp [costS, tokWeight]; omega
  | .ifThen h1 h2 => have := cost_expr h1; have := cost_stmt h2; simp [costS, tokWeight]; omega
  | .ifElse h1 h2 _ h3 =>
    have := cost_expr h1; have := cost_stmt h2; have := cost_stmt h3; simp [costS, tokWeight]; omega
  | .while h1 h2 => have := cost_expr h1; have := cost_stmt h2; simp [costS, tokWeight]; omega
  | .switch h1 h2 _ => have := cost_expr h1; have := cost_stmt h2; simp [costS, tokWeight]; omega
  | .case _ h => have := cost_stmt h; simp [costS, tokWeight]; omega
  | .label _ _ h => have := cost_stmt h; simp [costS, tokWeight]; omega
  | .goto => simp [costS, tokWeight]

theorem cost_stmts {pr : Bop → Nat} {q : Bool} {ts : List Tok} {s : St} (h : SsGram pr q ts s) : costS s ≤ 6 * weight ts := by
  match h with
  | .nil => simp [costS]
  | .cons h1 h2 => have := cost_stmt h1; have := cost_stmts h2; simp [costS]; omega
end

theorem cost_ival {q : Bool} {ts : List Tok} {v : Ival} (h : IGram q ts v) : costV v ≤ 6 * weight ts := by
  cases h <;> simp [costV, tokWeight]
  omega

theorem cost_ivals {q : Bool} {ts : List Tok} {vs : List Ival} (h : IsGram q ts vs) : costVs vs ≤ 6 * weight ts := by
  induction h with
  | last h => have := cost_ival h; simp [costVs, tokWeight]; omega
  | cons h _ ih => have := cost_ival h; simp [costVs, tokWeight] at *; omega

theorem cost_oivals {q : Bool} {ts : List Tok} {vs : List Ival} (h : OIsGram q ts vs) : costVs vs ≤ 6 * weight ts := by
  cases h with
  | none => simp [costVs]
  | some h => exact cost_ivals h

theorem cost_decl {pr : Bop → Nat} {q : Bool} {ts : List Tok} {d : Decl} (h : DeclGram pr q ts d) :
    costD d ≤ 6 * weight ts + Decl.filled d := by
  cases h with
  | global h => have := cost_oivals h; simp [costD, tokWeight]; omega
  | vector h1 h2 => have := cost_oivals h2; simp [costD, tokWeight]; omega
  | func h1 h2 =>
    have := cost_stmt h2
    cases h1 with
    | none => simp [costD, tokWeight]; omega
    | some h =>
      have := cost_names h
      have := h.pos
      simp [costD, tokWeight]; omega

theorem cost_prog {pr : Bop → Nat} {q : Bool} {ts : List Tok} {p : Program} (h : ProgGram pr q ts p) :
    (p.map costD).sum ≤ 6 * weight ts + p.filled := by
  induction h with
  | nil => simp [Program.filled]
  | cons h _ ih => have := cost_decl h; simp [Program.filled] at *; omega

/-! ### the word at the beginning of a statement is followed by a symbol -/

/-- every `head` is followed by a symbol -/
def HeadOk : List Tok → Prop
  | [] => True
  | .head _ :: ts => (∃ s us, ts = .sym s :: us) ∧ HeadOk ts
  | _ :: ts => HeadOk ts

def NotHead : Tok → Prop
  | .head _ => False
  | _ => True

theorem HeadOk.cons {t : Tok} {ts : List Tok} (ht : NotHead t) (h : HeadOk ts) : HeadOk (t :: ts) := by
  cases t <;> first | exact h | exact ht.elim

theorem HeadOk.append : ∀ {ts us : List Tok}, HeadOk ts → HeadOk us → HeadOk (ts ++ us)
  | [], us, _, h => h
  | t :: ts, us, h1, h2 => by
    cases t <;> try exact HeadOk.append (ts := ts) h1 h2
    obtain ⟨⟨s, vs, rfl⟩, h1⟩ := h1
    exact ⟨⟨s, vs ++ us, rfl⟩, HeadOk.append h1 h2⟩

theorem HeadOk.of_not : ∀ {ts : List Tok}, (∀ t ∈ ts, NotHead t) → HeadOk ts
  | [], _ => trivial
  | t :: ts, h => HeadOk.cons (h _ (by simp)) (HeadOk.of_not fun u hu => h u (by simp [hu]))

mutual
theorem expr_nohead {pr : Bop → Nat} {L : Nat} {ts : List Tok} {e : Ex} (h : EGram pr L ts e) : ∀ t ∈ ts, NotHead t := by
  cases h with
  | num => simp [NotHead]
  | chr => simp [NotHead]
  | str => simp [NotHead]
  | var _ => simp [NotHead]
  | paren h => have := expr_nohead h; simp [or_imp, forall_and, NotHead]; exact this
  | index _ h1 h2 => have := expr_nohead h1; have := expr_nohead h2; simp [or_imp, forall_and, NotHead]; exact ⟨‹_›, ‹_›⟩
  | callName _ _ h => have := args_nohead h; simp [or_imp, forall_and, NotHead]; exact this
  | call _ h1 _ h2 => have := expr_nohead h1; have := args_nohead h2; simp [or_imp, forall_and, NotHead]; exact ⟨‹_›, ‹_›⟩
  | post _ h => have := expr_nohead h; simp [or_imp, forall_and, NotHead]; exact this
  | pre _ h => have := expr_nohead h; simp [or_imp, forall_and, NotHead]; exact this
  | not _ h => have := expr_nohead h; simp [or_imp, forall_and, NotHead]; exact this
  | neg _ h => have := expr_nohead h; simp [or_imp, forall_and, NotHead]; exact this
  | deref _ h => have := expr_nohead h; simp [or_imp, forall_and, NotHead]; exact this
  | addr _ h => have := expr_nohead h; simp [or_imp, forall_and, NotHead]; exact this
  | bin _ h1 h2 => have := expr_nohead h1; have := expr_nohead h2; simp [or_imp, forall_and, NotHead]; exact ⟨‹_›, ‹_›⟩
  | cond _ h1 h2 h3 =>
    have a := expr_nohead h1; have b := expr_nohead h2; have c := expr_nohead h3
    simp [or_imp, forall_and, NotHead]; exact ⟨a, b, c⟩
  | assign _ h1 h2 => have := expr_nohead h1; have := expr_nohead h2; simp [or_imp, forall_and, NotHead]; exact ⟨‹_›, ‹_›⟩
  | assignOp _ h1 h2 => have := expr_nohead h1; have := expr_nohead h2; simp [or_imp, forall_and, NotHead]; exact ⟨‹_›, ‹_›⟩

theorem args_nohead {pr : Bop → Nat} {ts : List Tok} {es : List Ex} (h : AGram pr ts es) : ∀ t ∈ ts, NotHead t := by
  cases h with
  | nil => simp [NotHead]
  | last h => have := expr_nohead h; simp [or_imp, forall_and, NotHead]; exact this
  | cons h1 h2 => have := expr_nohead h1; have := args_nohead h2; simp [or_imp, forall_and, NotHead]; exact ⟨‹_›, ‹_›⟩
end

theorem expr_pos {pr : Bop → Nat} {L : Nat} {ts : List Tok} {e : Ex} (h : EGram pr L ts e) : ts ≠ [] := by
  intro e; subst e; have := cost_expr h; simp at this

/-- nothing, or a symbol -/
def SymNext (ts : List Tok) : Prop := ts = [] ∨ ∃ s us, ts = .sym s :: us

theorem SymNext.append {a : List Tok} {s : List Char} {b : List Tok} (h : SymNext a) : SymNext (a ++ .sym s :: b) := by
  rcases h with rfl | ⟨s', us, rfl⟩
  · exact .inr ⟨_, _, rfl⟩
  · exact .inr ⟨_, _, rfl⟩

/-- if the first token is a word, a symbol follows -/
def WordNext (vs : List Tok) : Prop := ∀ x ts, vs = .word x :: ts → SymNext ts

theorem WordNext.split {a : List Tok} {s : List Char} {b : List Tok} (ha : a ≠ []) (ih : WordNext a) : WordNext (a ++ .sym s :: b) := by
  intro x ts e
  cases a with
  | nil => exact absurd rfl ha
  | cons t a =>
    simp only [List.cons_append, List.cons.injEq] at e
    obtain ⟨rfl, rfl⟩ := e
    exact (ih _ _ rfl).append

theorem WordNext.sym {s : List Char} {ts : List Tok} : WordNext (.sym s :: ts) := by intro x us e; cases e

mutual
theorem word_next {pr : Bop → Nat} {L : Nat} {e : Ex} {vs : List Tok} (h : EGram pr L vs e) : WordNext vs := by
  match h with
  | .num => intro x ts e; cases e
  | .chr => intro x ts e; cases e
  | .str => intro x ts e; cases e
  | .var _ => intro x ts e; cases e; exact .inl rfl
  | .paren _ => exact .sym
  | .index _ h1 _ => simpa using WordNext.split (expr_pos h1) (word_next h1)
  | .callName _ _ _ => intro x ts e; cases e; exact .inr ⟨_, _, rfl⟩
  | .call _ h1 _ _ => exact WordNext.split (expr_pos h1) (word_next h1)
  | .post _ h => exact WordNext.split (expr_pos h) (word_next h)
  | .pre _ _ => exact .sym
  | .not _ _ => exact .sym
  | .neg _ _ => exact .sym
  | .deref _ _ => exact .sym
  | .addr _ _ => exact .sym
  | .bin _ h1 _ => exact WordNext.split (expr_pos h1) (word_next h1)
  | .cond _ h1 _ _ => simpa using WordNext.split (expr_pos h1) (word_next h1)
  | .assign _ h1 _ => exact WordNext.split (expr_pos h1) (word_next h1)
  | .assignOp _ h1 _ => exact WordNext.split (expr_pos h1) (word_next h1)
end

theorem HeadOk.sym {s : List Char} {ts : List Tok} (h : HeadOk ts) : HeadOk (.sym s :: ts) := h
theorem HeadOk.els {ts : List Tok} (h : HeadOk ts) : HeadOk (.els :: ts) := h
theorem HeadOk.nil : HeadOk [] := trivial

theorem autos_headOk {ts : List Tok} {ds : List (List Char × Option Word)} (h : DsGram ts ds) : HeadOk ts := by
  have one : ∀ {ts : List Tok} {d : List Char × Option Word}, DGram ts d → HeadOk ts := by
    intro ts d h
    cases h with
    | scalar => exact trivial
    | vec0 => exact trivial
    | vec h => cases h <;> exact trivial
  induction h with
  | last h => exact (one h).append trivial
  | cons h _ ih => exact (one h).append ih

theorem names_headOk {close : List Char} {ts : List Tok} {xs : List (List Char)} (h : NsGram close ts xs) : HeadOk ts := by
  induction h with
  | last => exact trivial
  | cons _ ih => exact ih

theorem expr_headOk {pr : Bop → Nat} {L : Nat} {ts : List Tok} {e : Ex} (h : EGram pr L ts e) : HeadOk ts := .of_not (expr_nohead h)

mutual
theorem stmt_headOk {pr : Bop → Nat} {q : Bool} {ts : List Tok} {s : St} (h : SGram pr q ts s) : HeadOk ts := by
  match h with
  | .block h => exact (stmts_headOk h :)
  | .empty => exact trivial
  | .exprHead h =>
    refine ⟨?_, HeadOk.append (expr_headOk h :) trivial⟩
    rcases word_next h _ _ rfl with rfl | ⟨s, us, rfl⟩
    · exact ⟨_, _, rfl⟩
    · exact ⟨_, _, rfl⟩
  | .expr h _ => exact (expr_headOk h).append trivial
  | .ret0 => exact trivial
  | .ret h => exact ((expr_headOk h).append (HeadOk.nil.sym.sym) :)
  | .auto h => exact (autos_headOk h :)
  | .extrn h => exact (names_headOk h :)
  | .ifThen h1 h2 => exact ((expr_headOk h1).append (stmt_headOk h2).sym :)
  | .ifElse h1 h2 _ h3 =>
    have := (expr_headOk h1).append ((stmt_headOk h2).sym (s := [')']))
    exact (this.append (stmt_headOk h3).els :)
  | .while h1 h2 => exact ((expr_headOk h1).append (stmt_headOk h2).sym :)
  | .switch h1 h2 _ => exact ((expr_headOk h1).append (stmt_headOk h2) :)
  | .case h1 h =>
    cases h1 <;> exact (stmt_headOk h :)
  | .label _ _ h => exact (stmt_headOk h :)
  | .goto => exact trivial

theorem stmts_headOk {pr : Bop → Nat} {q : Bool} {ts : List Tok} {s : St} (h : SsGram pr q ts s) : HeadOk ts := by
  match h with
  | .nil => exact trivial
  | .cons h1 h2 => exact (stmt_headOk h1).append (stmts_headOk h2)
end

theorem oivals_headOk {q : Bool} {ts : List Tok} {vs : List Ival} (h : OIsGram q ts vs) : HeadOk ts := by
  have one : ∀ {ts : List Tok} {v : Ival}, IGram q ts v → HeadOk ts := by
    intro ts v h
    cases h <;> exact trivial
  cases h with
  | none => exact trivial
  | some h =>
    induction h with
    | last h => exact (one h).append trivial
    | cons h _ ih => exact (one h).append ih

theorem prog_headOk {pr : Bop → Nat} {q : Bool} {ts : List Tok} {p : Program} (h : ProgGram pr q ts p) : HeadOk ts := by
  induction h with
  | nil => exact trivial
  | cons h _ ih =>
    refine HeadOk.append ?_ ih
    cases h with
    | global h => exact (oivals_headOk h :)
    | vector h1 h2 =>
      cases h1 with
      | none => exact (oivals_headOk h2 :)
      | num => exact (oivals_headOk h2 :)
    | func h1 h2 =>
      cases h1 with
      | none => exact (stmt_headOk h2 :)
      | some h => exact ((names_headOk h).append (stmt_headOk h2) :)

/-! ### the tokens are no longer than the text -/

theorem ident_code {c : Char} (h : IdentChar c) : c.toNat < 256 ∧ c.toNat ≠ 47 ∧ (¬ Blank c) ∧ ∀ s ∈ symbols, s.head? ≠ some c := by
  have key : ∀ n < 256, IdentChar (Char.ofNat n) → n ≠ 47 ∧ ¬ Blank (Char.ofNat n) ∧ ∀ s ∈ symbols, s.head? ≠ some (Char.ofNat n) := by
    decide +kernel
  have hc : c.toNat < 256 := by
    rcases h with h | h | rfl
    · unfold Letter at h; omega
    · unfold Digit at h; omega
    · decide
  have := key c.toNat hc (by rw [Char.ofNat_toNat]; exact h)
  rw [Char.ofNat_toNat] at this
  exact ⟨hc, this⟩

/-- the bytes of an identifier: identifier characters, and other characters above 127, each after an identifier character -/
theorem ident_bytes {c : Char} (h : IdentChar c) : utf8Bytes c = [c] ∨
    ∃ a b, utf8Bytes c = [a, b] ∧ IdentChar a ∧ 128 ≤ b.toNat := by
  have hc := (ident_code h).1
  unfold utf8Bytes
  split
  · exact .inl rfl
  · rename_i hn
    refine .inr ⟨_, _, rfl, ?_, ?_⟩
    · have : 192 + c.toNat / 64 % 32 = 194 ∨ 192 + c.toNat / 64 % 32 = 195 := by omega
      rcases this with e | e <;> rw [e] <;> decide
    · rw [charOfNat_toNat (by omega)]; omega

/-- a character in the bytes of an identifier that is no identifier character is above 127, and what follows it is the end or an
identifier character -/
theorem ident_next {x : Char} {v : List Char} (hx : ¬ IdentChar x) : ∀ {w u : List Char}, (∀ c ∈ w, IdentChar c) →
    w.flatMap utf8Bytes = u ++ x :: v → 128 ≤ x.toNat ∧ (v = [] ∨ ∃ d v', v = d :: v' ∧ IdentChar d)
  | [], u, _, e => by simp at e
  | c :: w, u, hw, e => by
    have hc := hw c (by simp)
    have hw' : ∀ c ∈ w, IdentChar c := fun d hd => hw d (by simp [hd])
    have first : ∀ {y : List Char}, w.flatMap utf8Bytes = y → y = [] ∨ ∃ d v', y = d :: v' ∧ IdentChar d := by
      rintro y rfl
      cases w with
      | nil => exact .inl rfl
      | cons d w =>
        have hd := hw' d (by simp)
        rcases ident_bytes hd with e | ⟨a, b, e, ha, _⟩
        · exact .inr ⟨d, _, by rw [List.flatMap_cons, e]; rfl, hd⟩
        · exact .inr ⟨a, _, by rw [List.flatMap_cons, e]; rfl, ha⟩
    rw [List.flatMap_cons] at e
    rcases ident_bytes hc with eb | ⟨a, b, eb, ha, hb⟩
    · rw [eb] at e
      cases u with
      | nil =>
        simp only [List.cons_append, List.nil_append, List.cons.injEq] at e
        exact absurd (e.1 ▸ hc) hx
      | cons y u =>
        simp only [List.cons_append, List.nil_append, List.cons.injEq] at e
        exact ident_next hx hw' e.2
    · rw [eb] at e
      match u with
      | [] =>
        simp only [List.cons_append, List.nil_append, List.cons.injEq] at e
        exact absurd (e.1 ▸ ha) hx
      | [y] =>
        simp only [List.cons_append, List.nil_append, List.cons.injEq] at e
        obtain ⟨_, rfl, e⟩ := e
        exact ⟨hb, first e⟩
      | y :: z :: u =>
        simp only [List.cons_append, List.nil_append, List.cons.injEq] at e
        exact ident_next hx hw' e.2.2

theorem items_length {q : Char} {t : List Char} {vs : List Nat} (h : Items q t vs) : vs.length ≤ t.length := by
  induction h with
  | nil => simp
  | cons h _ ih => cases h <;> simp <;> omega

theorem symbols_pos {s : List Char} (h : s ∈ symbols) : ∃ c s', s = c :: s' ∧ c.toNat < 128 := by
  have : ∀ s ∈ symbols, ∃ c, s.head? = some c ∧ c.toNat < 128 := by decide
  obtain ⟨c, h1, h2⟩ := this s h
  cases s with
  | nil => cases h1
  | cons a s => cases h1; exact ⟨_, _, rfl, h2⟩

/-- what a symbol is read from -/
theorem lexes_sym {inp rest s : List Char} (h : Lexes true inp (.sym s) rest) : s ∈ symbols ∧ ∃ x, inp = s ++ x := by
  cases h with
  | sym h _ => exact ⟨h, _, rfl⟩
  | symNul _ h => exact ⟨by rcases h with rfl | rfl <;> decide, _, rfl⟩

/-- The layout that the compiler takes out of a word at the beginning of a statement is no new text. -/
theorem head_rest {w r w' mid lay2 s x : List Char} (hw : ∀ c ∈ w, IdentChar c) (e : w.flatMap utf8Bytes ++ r = w' ++ mid)
    (hm : NotStarting IdentChar mid) (hl : Layout lay2) (hs : s ∈ symbols) (e2 : mid = lay2 ++ (s ++ x)) :
    (s ++ x).length ≤ r.length := by
  obtain ⟨k, s', rfl, hk⟩ := symbols_pos hs
  rcases List.append_eq_append_iff.1 e with ⟨a, _, h2⟩ | ⟨a, h1, h2⟩
  · rw [h2, e2]; simp; omega
  · cases a with
    | nil => rw [List.nil_append] at h2; rw [← h2, e2]; simp
    | cons c a =>
      rw [h2] at hm e2
      obtain ⟨hc, hn⟩ := ident_next hm hw h1
      have c47 : c ≠ '/' := by rintro rfl; revert hc; decide
      cases hl with
      | nil =>
        simp only [List.cons_append, List.nil_append, List.cons.injEq] at e2
        rw [e2.1] at hc; omega
      | comment _ _ =>
        simp only [List.cons_append, List.cons.injEq] at e2
        exact absurd e2.1 c47
      | blank hb hl =>
        simp only [List.cons_append, List.cons.injEq] at e2
        obtain ⟨rfl, e2⟩ := e2
        rcases hn with rfl | ⟨d, v, rfl, hd⟩
        · rw [List.nil_append] at e2; rw [e2]; simp
        · obtain ⟨_, d1, d2, d3⟩ := ident_code hd
          cases hl with
          | nil =>
            simp only [List.cons_append, List.nil_append, List.cons.injEq] at e2
            exact absurd (by rw [e2.1]; rfl) (d3 _ hs)
          | comment _ _ =>
            simp only [List.cons_append, List.cons.injEq] at e2
            exact absurd (by rw [e2.1]; rfl) d1
          | blank hb' _ =>
            simp only [List.cons_append, List.cons.injEq] at e2
            exact absurd (e2.1 ▸ hb') d2

/-- the tokens are no longer than the text -/
theorem tokens_weight {inp rest : List Char} {ts : List Tok} (h : TokSeq true inp ts rest) : HeadOk ts →
    ∃ lay i, inp = lay ++ i ∧ Layout lay ∧ weight ts + rest.length ≤ i.length ∧
      ∀ s us, ts = .sym s :: us → s ∈ symbols ∧ ∃ x, i = s ++ x := by
  induction h with
  | nil hl => exact fun _ => ⟨_, _, rfl, hl, by simp, by intro s us e; cases e⟩
  | @cons lay inp mid rest t ts hl hx hr ih =>
    intro ho
    have hts : HeadOk ts := by
      cases t <;> first | exact ho | exact ho.2
    obtain ⟨lay2, i, e1, hl2, h2, h3⟩ := ih hts
    have hi : i.length ≤ mid.length := by rw [e1]; simp
    refine ⟨lay, inp, rfl, hl, ?_, ?_⟩
    · cases hx with
      | num h _ _ => simp [tokWeight]; have := List.length_pos_iff.2 h; omega
      | chr _ _ => simp [tokWeight]; omega
      | str h => have := items_length h; simp [tokWeight]; omega
      | word h _ _ => simp [tokWeight]; have := List.length_pos_iff.2 h; omega
      | defn h _ _ => simp [tokWeight]; have := List.length_pos_iff.2 h; omega
      | @head w _ h _ _ _ =>
        have : w ≠ [] := by rintro rfl; exact h
        simp [tokWeight]; have := List.length_pos_iff.2 this; omega
      | @headQuirk w lay3 r w' _ _ h hw _ _ _ e _ _ hm =>
        have : w ≠ [] := by rintro rfl; exact h
        have := List.length_pos_iff.2 this
        obtain ⟨⟨s, us, rfl⟩, _⟩ := ho
        obtain ⟨hs, x, rfl⟩ := h3 s us rfl
        have := head_rest hw e hm hl2 hs e1
        simp [tokWeight] at *; omega
      | els _ => simp [tokWeight]; omega
      | elsEnd => rw [List.length_nil] at hi; simp [tokWeight]; omega
      | elsQuirk _ _ _ => simp [tokWeight]; omega
      | sym h _ =>
        obtain ⟨c, s', rfl, _⟩ := symbols_pos h
        simp [tokWeight]; omega
      | symNul _ h => rcases h with rfl | rfl <;> simp [tokWeight] <;> omega
    · rintro s us ⟨⟩
      exact lexes_sym hx

/-- the size of a module in terms of the text -/
theorem size_text {chars : List Char} {p : Program} {c : CState} (h1 : Reads true chars p) (h : genProg p newCompiler = .ok () c) :
    moduleUnits ⟨c.globals, c.funcs⟩ ≤ 6 * chars.length + p.filled := by
  have h2 := between_of_gen h
  have h4 := reads_names h1
  obtain ⟨ts, k1, k2⟩ := h1
  obtain ⟨lay, i, e, _, k3, _⟩ := tokens_weight k1 (prog_headOk k2)
  have k4 := cost_prog k2
  have k5 := (Grow.between h2 ProgInv.init rfl h4).1
  have k6 : i.length ≤ chars.length := by rw [e]; simp
  simp only [csize, newCompiler, moduleUnits, List.length_nil, List.map_nil, List.sum_nil] at *
  omega

end Blang
