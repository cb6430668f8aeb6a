import Verif.Spec.Precedence
import Verif.Proofs.Tokens
import Verif.Proofs.CompDecl
/-
Documented programs without mixed shifts are read the same way by the compiler; careful texts are
readable texts.
-/
namespace Blang
open Spec

theorem docPrec_bounds (o : Bop) : 3 ≤ docPrec o ∧ docPrec o ≤ 12 := by cases o <;> decide
theorem prec_bounds (o : Bop) : 3 ≤ prec o ∧ prec o ≤ 12 := by cases o <;> decide

theorem not_isShift {e : Ex} (h : ∀ o l r, e ≠ .bin o l r) : ¬ e.IsShift := by
  rintro ⟨o, l, r, e1, _⟩; exact h o l r e1

theorem low_noshift {L : Nat} {ts : List Tok} {e : Ex} (h : EGram docPrec L ts e) (hl : L ≤ 4) : ¬ e.IsShift := by
  rintro ⟨o, l, r, rfl, hs⟩
  cases h with
  | bin h => rcases hs with rfl | rfl <;> simp [docPrec] at h <;> omega

mutual
theorem egram_prec {L L' : Nat} {ts : List Tok} {e : Ex} (h : EGram docPrec L ts e) (hu : e.Unmixed) (hl : L ≤ L')
    (hs : e.IsShift → 6 ≤ L') : EGram prec L' ts e := by
  match h with
  | .num => exact .num
  | .chr => exact .chr
  | .str => exact .str
  | .var h => exact .var h
  | .paren h => exact .paren (egram_prec h hu (Nat.le_refl _) (by omega))
  | .index h1 h2 h3 => exact .index (by omega) (egram_prec h2 hu.1 (Nat.le_refl _) fun hx => (low_noshift h2 (by decide) hx).elim) (egram_prec h3 hu.2 (Nat.le_refl _) (by omega))
  | .callName h1 h2 h3 => exact .callName (by omega) h2 (agram_prec h3 hu)
  | .call h1 h2 h3 h4 => exact .call (by omega) (egram_prec h2 hu.1 (Nat.le_refl _) fun hx => (low_noshift h2 (by decide) hx).elim) h3 (agram_prec h4 hu.2)
  | .post h1 h2 => exact .post (by omega) (egram_prec h2 hu (Nat.le_refl _) fun hx => (low_noshift h2 (by decide) hx).elim)
  | .pre h1 h2 => exact .pre (by omega) (egram_prec h2 hu (Nat.le_refl _) fun hx => (low_noshift h2 (by decide) hx).elim)
  | .not h1 h2 => exact .not (by omega) (egram_prec h2 hu (Nat.le_refl _) fun hx => (low_noshift h2 (by decide) hx).elim)
  | .neg h1 h2 => exact .neg (by omega) (egram_prec h2 hu (Nat.le_refl _) fun hx => (low_noshift h2 (by decide) hx).elim)
  | .deref h1 h2 => exact .deref (by omega) (egram_prec h2 hu (Nat.le_refl _) fun hx => (low_noshift h2 (by decide) hx).elim)
  | .addr h1 h2 => exact .addr (by omega) (egram_prec h2 hu (Nat.le_refl _) fun hx => (low_noshift h2 (by decide) hx).elim)
  | .bin (o := o) h1 h2 h3 =>
    obtain ⟨q, u1, u2⟩ := hu
    have e1 : prec o ≤ L' := by
      have := @hs
      cases o <;> simp only [docPrec, prec] at h1 ⊢ <;> first | omega | exact hs ⟨_, _, _, rfl, by simp [Bop.Shift]⟩
    refine .bin e1 (egram_prec h2 u1 ?_ ?_) (egram_prec h3 u2 ?_ ?_)
    · cases o <;> decide
    · intro hx
      cases o <;> first | decide | exact (low_noshift h2 (by decide) hx).elim
    · cases o <;> decide
    · intro hx
      cases o <;> first | decide | exact (low_noshift h3 (by decide) hx).elim | exact absurd hx (q (by simp [Bop.Rel]))
  | .cond h1 h2 h3 h4 => exact .cond (by omega) (egram_prec h2 hu.1 (Nat.le_refl _) (by omega)) (egram_prec h3 hu.2.1 (Nat.le_refl _) (by omega)) (egram_prec h4 hu.2.2 (Nat.le_refl _) (by omega))
  | .assign h1 h2 h3 => exact .assign (by omega) (egram_prec h2 hu.1 (Nat.le_refl _) fun hx => (low_noshift h2 (by decide) hx).elim) (egram_prec h3 hu.2 (Nat.le_refl _) (by omega))
  | .assignOp h1 h2 h3 => exact .assignOp (by omega) (egram_prec h2 hu.1 (Nat.le_refl _) fun hx => (low_noshift h2 (by decide) hx).elim) (egram_prec h3 hu.2 (Nat.le_refl _) (by omega))
termination_by structural h

theorem agram_prec {ts : List Tok} {es : List Ex} (h : AGram docPrec ts es) (hu : Ex.UnmixedArgs es) : AGram prec ts es := by
  match h with
  | .nil => exact .nil
  | .last h => exact .last (egram_prec h hu.1 (Nat.le_refl _) (by omega))
  | .cons h1 h2 => exact .cons (egram_prec h1 hu.1 (Nat.le_refl _) (by omega)) (agram_prec h2 hu.2)
termination_by structural h
end

theorem egram_prec15 {ts : List Tok} {e : Ex} (h : EGram docPrec 15 ts e) (hu : e.Unmixed) : EGram prec 15 ts e :=
  egram_prec h hu (Nat.le_refl _) (by omega)

mutual
theorem sgram_prec {ts : List Tok} {s : St} (h : SGram docPrec false ts s) (hu : s.Unmixed) : SGram prec false ts s := by
  match h with
  | .block h => exact .block (ssgram_prec h hu)
  | .empty => exact .empty
  | .exprHead h => exact .exprHead (egram_prec15 h hu)
  | .expr h hn => exact .expr (egram_prec15 h hu) hn
  | .ret0 => exact .ret0
  | .ret h => exact .ret (egram_prec15 h hu)
  | .auto h => exact .auto h
  | .extrn h => exact .extrn h
  | .ifThen h1 h2 => exact .ifThen (egram_prec15 h1 hu.1) (sgram_prec h2 hu.2)
  | .ifElse h1 h2 ho h3 => exact .ifElse (egram_prec15 h1 hu.1) (sgram_prec h2 hu.2.1) ho (sgram_prec h3 hu.2.2)
  | .while h1 h2 => exact .while (egram_prec15 h1 hu.1) (sgram_prec h2 hu.2)
  | .switch h1 h2 hq => exact .switch (egram_prec15 h1 hu.1) (sgram_prec h2 hu.2) hq
  | .case h1 h2 => exact .case h1 (sgram_prec h2 hu)
  | .label h1 h2 h3 => exact .label h1 h2 (sgram_prec h3 hu)
  | .goto => exact .goto
termination_by structural h

theorem ssgram_prec {ts : List Tok} {s : St} (h : SsGram docPrec false ts s) (hu : s.Unmixed) : SsGram prec false ts s := by
  match h with
  | .nil => exact .nil
  | .cons h1 h2 => exact .cons (sgram_prec h1 hu.1) (ssgram_prec h2 hu.2)
termination_by structural h
end

theorem declgram_prec {ts : List Tok} {d : Decl} (h : DeclGram docPrec false ts d) (hu : d.Unmixed) : DeclGram prec false ts d := by
  cases h with
  | global h => exact .global h
  | vector h h1 => exact .vector h h1
  | func h h1 => exact .func h (sgram_prec h1 hu)

theorem proggram_prec {ts : List Tok} {p : Program} (h : ProgGram docPrec false ts p) : p.Unmixed → ProgGram prec false ts p := by
  induction h with
  | nil => intro _; exact .nil
  | cons h _ ih => intro hu; exact .cons (declgram_prec h (hu _ (by simp))) (ih fun d hd => hu d (by simp [hd]))

theorem careful_prec {text : List Char} {p : Program} (h : Careful docPrec text p) (hu : p.Unmixed) : Careful prec text p := by
  obtain ⟨ts, h1, h2⟩ := h
  exact ⟨ts, h1, proggram_prec h2 hu⟩

/-! ### Careful texts are readable. -/

theorem tokSeq_layout {q : Bool} {lay inp rest : List Char} {ts : List Tok} (hl : Layout lay) (h : TokSeq q inp ts rest) :
    TokSeq q (lay ++ inp) ts rest := by
  cases h with
  | nil h => rw [← List.append_assoc]; exact .nil (hl.append h)
  | cons h h1 h2 => rw [← List.append_assoc]; exact .cons (hl.append h) h1 h2

theorem text_tokSeq {inp : List Char} {ts : List Tok} (h : TextE inp ts) : TokSeq true inp ts [] := by
  induction h with
  | nil => exact TokSeq.nil (lay := []) Layout.nil
  | cons h1 _ h3 _ _ ih => exact TokSeq.cons (lay := []) Layout.nil h1.quirk (tokSeq_layout h3 ih)

theorem text_E {inp : List Char} {ts : List Tok} (h : Text inp ts) : TextE inp ts := by
  induction h with
  | nil => exact .nil
  | cons h1 h2 h3 h4 _ ih => exact .cons (.doc h1) h2 h3 h4 ih

theorem careful_E {pr : Bop → Nat} {text : List Char} {p : Program} (h : Careful pr text p) : CarefulE pr text p := by
  obtain ⟨ts, ⟨lay, rest, h1, hl, ht⟩, hg⟩ := h
  exact ⟨ts, ⟨lay, rest, h1, hl, text_E ht⟩, hg⟩

mutual
theorem sgram_quirks {pr : Bop → Nat} {ts : List Tok} {s : St} (h : SGram pr false ts s) : SGram pr true ts s := by
  match h with
  | .block h => exact .block (ssgram_quirks h)
  | .empty => exact .empty
  | .exprHead h => exact .exprHead h
  | .expr h hn => exact .expr h hn
  | .ret0 => exact .ret0
  | .ret h => exact .ret h
  | .auto h => exact .auto h
  | .extrn h => exact .extrn h
  | .ifThen h1 h2 => exact .ifThen h1 (sgram_quirks h2)
  | .ifElse h1 h2 ho h3 => exact .ifElse h1 (sgram_quirks h2) ho (sgram_quirks h3)
  | .while h1 h2 => exact .while h1 (sgram_quirks h2)
  | .switch h1 h2 hq => exact .switch h1 (sgram_quirks h2) (fun h => by cases h)
  | .case h1 h2 => exact .case h1 (sgram_quirks h2)
  | .label h1 h2 h3 => exact .label h1 h2 (sgram_quirks h3)
  | .goto => exact .goto
termination_by structural h

theorem ssgram_quirks {pr : Bop → Nat} {ts : List Tok} {s : St} (h : SsGram pr false ts s) : SsGram pr true ts s := by
  match h with
  | .nil => exact .nil
  | .cons h1 h2 => exact .cons (sgram_quirks h1) (ssgram_quirks h2)
termination_by structural h
end

theorem igram_quirks {ts : List Tok} {v : Ival} (h : IGram false ts v) : IGram true ts v := by
  cases h with
  | num => exact .num
  | neg => exact .neg
  | chr => exact .chr
  | str => exact .str
  | none h => cases h
  | negNone h => cases h

theorem isgram_quirks {ts : List Tok} {vs : List Ival} (h : IsGram false ts vs) : IsGram true ts vs := by
  induction h with
  | last h => exact .last (igram_quirks h)
  | cons h _ ih => exact .cons (igram_quirks h) ih

theorem oisgram_quirks {ts : List Tok} {vs : List Ival} (h : OIsGram false ts vs) : OIsGram true ts vs := by
  cases h with
  | none => exact .none
  | some h => exact .some (isgram_quirks h)

theorem proggram_quirks {pr : Bop → Nat} {ts : List Tok} {p : Program} (h : ProgGram pr false ts p) : ProgGram pr true ts p := by
  induction h with
  | nil => exact .nil
  | cons h _ ih =>
    refine .cons ?_ ih
    cases h with
    | global h => exact .global (oisgram_quirks h)
    | vector h h1 => exact .vector h (oisgram_quirks h1)
    | func h h1 => exact .func h (sgram_quirks h1)

theorem carefulE_reads {text : List Char} {p : Program} (h : CarefulE prec text p) : Reads true text p := by
  obtain ⟨ts, ⟨lay, rest, rfl, hl, ht⟩, hg⟩ := h
  exact ⟨ts, tokSeq_layout hl (text_tokSeq ht), proggram_quirks hg⟩

theorem careful_reads {text : List Char} {p : Program} (h : Careful prec text p) : Reads true text p :=
  carefulE_reads (careful_E h)

end Blang
