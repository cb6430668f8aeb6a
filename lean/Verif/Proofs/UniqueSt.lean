import Verif.Proofs.Unique
/-
The grammar of statements and programs is unambiguous.
-/
namespace Blang
open Spec

section
variable {pr : Bop → Nat}

theorem append_right_of {α : Type} {a b c d : List α} (h : a ++ c = b ++ d) (hcd : c = d) : a = b := by
  subst hcd; exact List.append_cancel_right h

theorem egram_prefix (hp : ∀ o, 3 ≤ pr o ∧ pr o ≤ 12) {ts ts' us us' : List Tok} {e e' : Ex} (h : EGram pr 15 ts e)
    (h' : EGram pr 15 ts' e') (he : ts ++ us = ts' ++ us') (hs : Halt pr 15 us) (hs' : Halt pr 15 us') : ts = ts' ∧ e = e' ∧ us = us' := by
  have key : ∀ {ts us e}, EGram pr 15 ts e → Halt pr 15 us → PE pr 15 (ts ++ us) e us := fun h hs =>
    (egram_fol hp h).full (egram_lvl h) (by have := rlv_le hp; have := egram_lvl h; grind) hs
  have h1 := key h hs
  rw [he] at h1
  obtain ⟨e1, e2⟩ := pe_det h1 (key h' hs')
  exact ⟨append_right_of he e2, e1, e2⟩

theorem cgram_unique {t : Tok} {v w : Word} (h : CGram t v) (h' : CGram t w) : v = w := by
  cases h <;> cases h' <;> rfl

theorem cgram_not_sym {s : List Char} {v : Word} (h : CGram (.sym s) v) : False := by cases h

theorem dgram_prefix {ts ts' us us' : List Tok} {d d' : List Char × Option Word} (h : DGram ts d) (h' : DGram ts' d')
    {s s' : List Char} (hs : s ≠ ['[']) (hs' : s' ≠ ['[']) (he : ts ++ .sym s :: us = ts' ++ .sym s' :: us') : ts = ts' ∧ d = d' ∧ s = s' ∧ us = us' := by
  cases h with
  | scalar =>
    cases h' with
    | scalar => simp at he; obtain ⟨rfl, rfl, rfl⟩ := he; exact ⟨rfl, rfl, rfl, rfl⟩
    | vec0 => simp at he; exact absurd he.2.1 hs
    | vec => simp at he; exact absurd he.2.1 hs
  | vec0 =>
    cases h' with
    | scalar => simp at he; exact absurd he.2.1.symm hs'
    | vec0 => simp at he; obtain ⟨rfl, rfl, rfl⟩ := he; exact ⟨rfl, rfl, rfl, rfl⟩
    | vec h2 =>
      simp at he
      obtain ⟨rfl, rfl, _⟩ := he
      exact (cgram_not_sym h2).elim
  | vec h1 =>
    cases h' with
    | scalar => simp at he; exact absurd he.2.1.symm hs'
    | vec0 =>
      simp at he
      obtain ⟨rfl, rfl, _⟩ := he
      exact (cgram_not_sym h1).elim
    | vec h2 =>
      simp at he
      obtain ⟨rfl, rfl, rfl, rfl⟩ := he
      cases cgram_unique h1 h2
      exact ⟨rfl, rfl, rfl, rfl⟩

theorem dsgram_prefix {ts us : List Tok} {ds : List (List Char × Option Word)} (h : DsGram ts ds) :
    ∀ {ts' us' : List Tok} {ds' : List (List Char × Option Word)}, DsGram ts' ds' → ts ++ us = ts' ++ us' → ds = ds' ∧ us = us' := by
  induction h with
  | last h =>
    intro ts' us' ds' h' e
    cases h' with
    | last h2 =>
      simp only [List.append_assoc, List.cons_append, List.nil_append] at e
      obtain ⟨_, rfl, _, rfl⟩ := dgram_prefix h h2 (by decide) (by decide) e
      exact ⟨rfl, rfl⟩
    | cons h2 h3 =>
      simp only [List.append_assoc, List.cons_append, List.nil_append] at e
      obtain ⟨_, _, e, _⟩ := dgram_prefix h h2 (by decide) (by decide) e
      exact absurd e (by decide)
  | cons h _ ih =>
    intro ts' us' ds' h' e
    cases h' with
    | last h2 =>
      simp only [List.append_assoc, List.cons_append, List.nil_append] at e
      obtain ⟨_, _, e, _⟩ := dgram_prefix h h2 (by decide) (by decide) e
      exact absurd e (by decide)
    | cons h2 h3 =>
      simp only [List.append_assoc, List.cons_append, List.nil_append] at e
      obtain ⟨_, rfl, _, e⟩ := dgram_prefix h h2 (by decide) (by decide) e
      obtain ⟨rfl, rfl⟩ := ih h3 e
      exact ⟨rfl, rfl⟩

theorem nsgram_prefix {c : List Char} (hc : c ≠ [',']) {ts us : List Tok} {xs : List (List Char)} (h : NsGram c ts xs) :
    ∀ {ts' us' : List Tok} {xs' : List (List Char)}, NsGram c ts' xs' → ts ++ us = ts' ++ us' → xs = xs' ∧ us = us' := by
  induction h with
  | last =>
    intro ts' us' ds' h' e
    cases h' with
    | last => simp at e; exact ⟨by rw [e.1], e.2⟩
    | cons => simp at e; exact absurd e.2.1 hc
  | cons _ ih =>
    intro ts' us' ds' h' e
    cases h' with
    | last => simp at e; exact absurd e.2.1.symm hc
    | cons h2 =>
      simp at e
      obtain ⟨rfl, e⟩ := e
      obtain ⟨rfl, rfl⟩ := ih h2 e
      exact ⟨rfl, rfl⟩

/-- what a statement can begin with, for the choice between the rules -/
theorem expr_head {ts : List Tok} {e : Ex} (h : EGram pr 15 ts e) (hne : ∀ x us, ts ≠ .word x :: us) :
    ∃ t us, ts = t :: us ∧ (∀ w, t ≠ .word w) ∧ (∀ w, t ≠ .head w) ∧ t ≠ .sym ['{'] ∧ t ≠ .sym [';'] ∧ t ≠ .sym ['}'] ∧ t ≠ .els := by
  obtain ⟨t, us, rfl, hs⟩ := egram_start h
  refine ⟨t, us, rfl, ?_, ?_, ?_, ?_, ?_, ?_⟩
  · rintro w rfl; exact hne _ _ rfl
  · rintro w rfl; exact hs.elim
  · rintro rfl; revert hs; unfold ExprStart; decide
  · rintro rfl; revert hs; unfold ExprStart; decide
  · rintro rfl; revert hs; unfold ExprStart; decide
  · rintro rfl; exact hs.elim

def ElsAt (us : List Tok) : Prop := ∃ r, us = .els :: r

variable (pr) in
def Uni (ts : List Tok) (s : St) : Prop := ∀ ⦃ts' us us' : List Tok⦄ ⦃s' : St⦄, SGram pr false ts' s' → ts ++ us = ts' ++ us' →
  (openIf s = true → ¬ ElsAt us) → (openIf s' = true → ¬ ElsAt us') → s = s' ∧ us = us'

variable (pr) in
def Unis (ts : List Tok) (s : St) : Prop := ∀ ⦃ts' us us' : List Tok⦄ ⦃s' : St⦄, SsGram pr false ts' s' → ts ++ us = ts' ++ us' →
  s = s' ∧ us = us'

theorem mm_expr {ts r us : List Tok} {e : Ex} {t : Tok} (h : EGram pr 15 ts e) (hne : ∀ x us, ts ≠ .word x :: us)
    (he : t :: r = ts ++ us) (ht : (∃ w, t = .word w) ∨ (∃ w, t = .head w) ∨ t = .sym ['{'] ∨ t = .sym [';']) : False := by
  obtain ⟨t', us', rfl, q1, q2, q3, q4, _⟩ := expr_head h hne
  simp only [List.cons_append, List.cons.injEq] at he
  obtain ⟨rfl, _⟩ := he
  rcases ht with ⟨w, rfl⟩ | ⟨w, rfl⟩ | rfl | rfl
  · exact q1 _ rfl
  · exact q2 _ rfl
  · exact q3 rfl
  · exact q4 rfl

theorem halt_semi {L : Nat} {us : List Tok} : Halt pr L (.sym [';'] :: us) := .none rfl
theorem halt_par {L : Nat} {us : List Tok} : Halt pr L (.sym [')'] :: us) := .none rfl

theorem uni_block {ts : List Tok} {s : St} (h : Unis pr ts s) : Uni pr (.sym ['{'] :: ts) s := by
  intro ts' us us' s' h' e _ _
  cases h' with
  | block h2 => simp only [List.cons_append, List.cons.injEq, true_and] at e; exact h h2 e
  | expr h2 hn => exact (mm_expr h2 hn (by simpa using e) (by simp)).elim
  | _ => exfalso; simp at e

theorem uni_empty : Uni pr [.sym [';']] .skip := by
  intro ts' us us' s' h' e _ _
  cases h' with
  | empty => simp at e; exact ⟨rfl, e⟩
  | expr h2 hn => exact (mm_expr h2 hn (by simpa using e) (by simp)).elim
  | _ => exfalso; simp at e

theorem uni_exprHead (hp : ∀ o, 3 ≤ pr o ∧ pr o ≤ 12) {ts : List Tok} {x : List Char} {e : Ex} (h : EGram pr 15 (.word x :: ts) e) :
    Uni pr (.head x :: ts ++ [.sym [';']]) (.expr e) := by
  intro ts' us us' s' h' he _ _
  cases h' with
  | exprHead h2 =>
    simp only [List.cons_append, List.append_assoc, List.nil_append, List.cons.injEq, Tok.head.injEq] at he
    obtain ⟨rfl, he⟩ := he
    obtain ⟨_, rfl, e2⟩ := egram_prefix hp h h2 (us := .sym [';'] :: us) (us' := .sym [';'] :: us') (by simpa using he) halt_semi halt_semi
    cases e2; exact ⟨rfl, rfl⟩
  | expr h2 hn => exact (mm_expr h2 hn (by simpa using he) (by simp)).elim
  | _ => exfalso; simp at he

theorem uni_expr (hp : ∀ o, 3 ≤ pr o ∧ pr o ≤ 12) {ts : List Tok} {e : Ex} (h : EGram pr 15 ts e) (hn : ∀ x us, ts ≠ .word x :: us) :
    Uni pr (ts ++ [.sym [';']]) (.expr e) := by
  intro ts' us us' s' h' he _ _
  cases h' with
  | expr h2 hn2 =>
    simp only [List.append_assoc, List.cons_append, List.nil_append] at he
    obtain ⟨_, rfl, e2⟩ := egram_prefix hp h h2 he halt_semi halt_semi
    cases e2; exact ⟨rfl, rfl⟩
  | _ => exact (mm_expr h hn (by simpa using he.symm) (by simp)).elim

theorem uni_ret0 : Uni pr [.word "return".toList, .sym [';']] (.ret none) := by
  intro ts' us us' s' h' e _ _
  cases h' with
  | ret0 => simp at e; exact ⟨rfl, e⟩
  | expr h2 hn => exact (mm_expr h2 hn (by simpa using e) (by simp)).elim
  | label h1 hk h2 => simp at e
  | _ => exfalso; simp at e

theorem uni_ret (hp : ∀ o, 3 ≤ pr o ∧ pr o ≤ 12) {ts : List Tok} {e : Ex} (h : EGram pr 15 ts e) :
    Uni pr (.word "return".toList :: .sym ['('] :: ts ++ [.sym [')'], .sym [';']]) (.ret (some e)) := by
  intro ts' us us' s' h' he _ _
  cases h' with
  | ret h2 =>
    simp only [List.cons_append, List.append_assoc, List.nil_append, List.cons.injEq, true_and] at he
    obtain ⟨_, rfl, e2⟩ := egram_prefix hp h h2 he halt_par halt_par
    cases e2; exact ⟨rfl, rfl⟩
  | expr h2 hn => exact (mm_expr h2 hn (by simpa using he) (by simp)).elim
  | label h1 hk h2 => simp at he
  | _ => exfalso; simp at he

theorem uni_auto {ts : List Tok} {ds : List (List Char × Option Word)} (h : DsGram ts ds) : Uni pr (.word "auto".toList :: ts) (.auto ds) := by
  intro ts' us us' s' h' he _ _
  cases h' with
  | auto h2 =>
    simp only [List.cons_append, List.cons.injEq, true_and] at he
    obtain ⟨rfl, rfl⟩ := dsgram_prefix h h2 he
    exact ⟨rfl, rfl⟩
  | expr h2 hn => exact (mm_expr h2 hn (by simpa using he) (by simp)).elim
  | label h1 hk h2 =>
    simp only [List.cons_append, List.cons.injEq, Tok.word.injEq] at he
    exact absurd (he.1 ▸ (by simp [keywords])) hk
  | _ => exfalso; simp at he

theorem uni_extrn {ts : List Tok} {xs : List (List Char)} (h : NsGram [';'] ts xs) : Uni pr (.word "extrn".toList :: ts) (.extrn xs) := by
  intro ts' us us' s' h' he _ _
  cases h' with
  | extrn h2 =>
    simp only [List.cons_append, List.cons.injEq, true_and] at he
    obtain ⟨rfl, rfl⟩ := nsgram_prefix (by decide) h h2 he
    exact ⟨rfl, rfl⟩
  | expr h2 hn => exact (mm_expr h2 hn (by simpa using he) (by simp)).elim
  | label h1 hk h2 =>
    simp only [List.cons_append, List.cons.injEq, Tok.word.injEq] at he
    exact absurd (he.1 ▸ (by simp [keywords])) hk
  | _ => exfalso; simp at he

theorem uni_ifThen (hp : ∀ o, 3 ≤ pr o ∧ pr o ≤ 12) {ts vs : List Tok} {e : Ex} {t : St} (h : EGram pr 15 ts e) (ht : Uni pr vs t) :
    Uni pr (.word "if".toList :: .sym ['('] :: ts ++ .sym [')'] :: vs) (.ifThen e t) := by
  intro ts' us us' s' h' he ho ho'
  cases h' with
  | ifThen h2 h3 =>
    simp only [List.cons_append, List.append_assoc, List.cons.injEq, true_and] at he
    obtain ⟨_, rfl, e2⟩ := egram_prefix hp h h2 he halt_par halt_par
    simp only [List.cons.injEq, true_and] at e2
    obtain ⟨rfl, rfl⟩ := ht h3 e2 (fun _ => ho rfl) (fun _ => ho' rfl)
    exact ⟨rfl, rfl⟩
  | ifElse h2 h3 hop h4 =>
    simp only [List.cons_append, List.append_assoc, List.cons.injEq, true_and] at he
    obtain ⟨_, rfl, e2⟩ := egram_prefix hp h h2 he halt_par halt_par
    simp only [List.cons.injEq, true_and] at e2
    obtain ⟨rfl, rfl⟩ := ht h3 e2 (fun _ => ho rfl) (fun h => by rw [hop] at h; cases h)
    exact absurd ⟨_, rfl⟩ (ho rfl)
  | expr h2 hn => exact (mm_expr h2 hn (by simpa using he) (by simp)).elim
  | label h1 hk h2 => simp at he
  | _ => exfalso; simp at he

theorem uni_ifElse (hp : ∀ o, 3 ≤ pr o ∧ pr o ≤ 12) {ts vs ws : List Tok} {e : Ex} {t f : St} (h : EGram pr 15 ts e) (ht : Uni pr vs t)
    (hop : openIf t = false) (hf : Uni pr ws f) :
    Uni pr (.word "if".toList :: .sym ['('] :: ts ++ .sym [')'] :: vs ++ .els :: ws) (.ifElse e t f) := by
  intro ts' us us' s' h' he ho ho'
  cases h' with
  | ifThen h2 h3 =>
    simp only [List.cons_append, List.append_assoc, List.cons.injEq, true_and] at he
    obtain ⟨_, rfl, e2⟩ := egram_prefix hp h h2 he halt_par halt_par
    simp only [List.cons.injEq, true_and] at e2
    obtain ⟨rfl, rfl⟩ := ht h3 e2 (fun h => by rw [hop] at h; cases h) (fun _ => ho' rfl)
    exact absurd ⟨_, rfl⟩ (ho' rfl)
  | ifElse h2 h3 hop' h4 =>
    simp only [List.cons_append, List.append_assoc, List.cons.injEq, true_and] at he
    obtain ⟨_, rfl, e2⟩ := egram_prefix hp h h2 he halt_par halt_par
    simp only [List.cons.injEq, true_and] at e2
    obtain ⟨rfl, e3⟩ := ht h3 e2 (fun h => by rw [hop] at h; cases h) (fun h => by rw [hop'] at h; cases h)
    simp only [List.cons.injEq, true_and] at e3
    obtain ⟨rfl, rfl⟩ := hf h4 e3 ho ho'
    exact ⟨rfl, rfl⟩
  | expr h2 hn => exact (mm_expr h2 hn (by simpa using he) (by simp)).elim
  | label h1 hk h2 => simp at he
  | _ => exfalso; simp at he

theorem uni_while (hp : ∀ o, 3 ≤ pr o ∧ pr o ≤ 12) {ts vs : List Tok} {e : Ex} {t : St} (h : EGram pr 15 ts e) (ht : Uni pr vs t) :
    Uni pr (.word "while".toList :: .sym ['('] :: ts ++ .sym [')'] :: vs) (.while e t) := by
  intro ts' us us' s' h' he ho ho'
  cases h' with
  | «while» h2 h3 =>
    simp only [List.cons_append, List.append_assoc, List.cons.injEq, true_and] at he
    obtain ⟨_, rfl, e2⟩ := egram_prefix hp h h2 he halt_par halt_par
    simp only [List.cons.injEq, true_and] at e2
    obtain ⟨rfl, rfl⟩ := ht h3 e2 ho ho'
    exact ⟨rfl, rfl⟩
  | expr h2 hn => exact (mm_expr h2 hn (by simpa using he) (by simp)).elim
  | label h1 hk h2 => simp at he
  | _ => exfalso; simp at he

theorem sgram_halt {vs us : List Tok} {s : St} (hg : SGram pr false vs s)
    (hq : ∀ s ws, vs = .sym s :: ws → s = ['{'] ∨ s = [';']) : Halt pr 15 (vs ++ us) := by
  have : vs ≠ [] := by
    intro e
    cases hg <;> simp at e
  obtain ⟨t, ws, rfl⟩ := List.exists_cons_of_ne_nil this
  intro s' r e k hk
  simp only [List.cons_append, List.cons.injEq] at e
  obtain ⟨rfl, _⟩ := e
  rcases hq _ _ rfl with rfl | rfl <;> cases hk

theorem uni_switch (hp : ∀ o, 3 ≤ pr o ∧ pr o ≤ 12) {ts vs : List Tok} {e : Ex} {t : St} (h : EGram pr 15 ts e) (hg : SGram pr false vs t)
    (ht : Uni pr vs t) (hq : ∀ s ws, vs = .sym s :: ws → s = ['{'] ∨ s = [';']) :
    Uni pr (.word "switch".toList :: ts ++ vs) (.switch e t) := by
  intro ts' us us' s' h' he ho ho'
  cases h' with
  | switch h2 h3 hq' =>
    simp only [List.cons_append, List.append_assoc, List.cons.injEq, true_and] at he
    obtain ⟨_, rfl, e2⟩ := egram_prefix hp h h2 he (sgram_halt hg hq) (sgram_halt h3 (hq' rfl))
    obtain ⟨rfl, rfl⟩ := ht h3 e2 ho ho'
    exact ⟨rfl, rfl⟩
  | expr h2 hn => exact (mm_expr h2 hn (by simpa using he) (by simp)).elim
  | label h1 hk h2 =>
    simp only [List.cons_append, List.cons.injEq, Tok.word.injEq] at he
    exact absurd (he.1 ▸ (by simp [keywords])) hk
  | _ => exfalso; simp at he

theorem uni_case {ts : List Tok} {t : Tok} {v : Word} {s : St} (h : CGram t v) (ht : Uni pr ts s) :
    Uni pr (.word "case".toList :: t :: .sym [':'] :: ts) (.case v s) := by
  intro ts' us us' s' h' he ho ho'
  cases h' with
  | case h2 h3 =>
    simp only [List.cons_append, List.append_assoc, List.cons.injEq, true_and] at he
    obtain ⟨rfl, e2⟩ := he
    cases cgram_unique h h2
    obtain ⟨rfl, rfl⟩ := ht h3 e2 ho ho'
    exact ⟨rfl, rfl⟩
  | expr h2 hn => exact (mm_expr h2 hn (by simpa using he) (by simp)).elim
  | label h1 hk h2 =>
    simp only [List.cons_append, List.cons.injEq, Tok.word.injEq] at he
    exact absurd (he.1 ▸ (by simp [keywords])) hk
  | _ => exfalso; simp at he

theorem uni_goto {l : List Char} : Uni pr [.word "goto".toList, .word l, .sym [';']] (.goto l) := by
  intro ts' us us' s' h' he ho ho'
  cases h' with
  | goto => simp at he; rw [he.1]; exact ⟨rfl, he.2⟩
  | expr h2 hn => exact (mm_expr h2 hn (by simpa using he) (by simp)).elim
  | label h1 hk h2 => simp at he
  | _ => exfalso; simp at he

theorem uni_label {ts : List Tok} {l : List Char} {s : St} (hl : l ∉ keywords) (ht : Uni pr ts s) :
    Uni pr (.word l :: .sym [':'] :: ts) (.label l s) := by
  intro ts' us us' s' h' he ho ho'
  have kl : ∀ w, w ∈ keywords → l = w → False := fun w h e => hl (e ▸ h)
  cases h' with
  | label h1 hk h2 =>
    simp only [List.cons_append, List.cons.injEq, Tok.word.injEq, true_and] at he
    obtain ⟨rfl, e⟩ := he
    obtain ⟨rfl, rfl⟩ := ht h2 e ho ho'
    exact ⟨rfl, rfl⟩
  | expr h2 hn => exact (mm_expr h2 hn (by simpa using he) (by simp)).elim
  | block => simp at he
  | empty => simp at he
  | exprHead => simp at he
  | _ =>
    exfalso
    simp only [List.cons_append, List.cons.injEq, Tok.word.injEq] at he
    exact kl _ (by simp [keywords]) he.1

theorem unis_nil : Unis pr [.sym ['}']] .skip := by
  intro ts' us us' s' h' he
  cases h' with
  | nil => simp at he; exact ⟨rfl, he⟩
  | cons h1 h2 =>
    cases h1 with
    | expr h3 hn =>
      obtain ⟨t', us', rfl, _, _, _, _, q, _⟩ := expr_head h3 hn
      simp at he; exact absurd he.1.symm q
    | _ => simp at he

theorem sstart_els {vs us : List Tok} {s : St} (hg : SGram pr false vs s) : ¬ ElsAt (vs ++ us) := by
  rintro ⟨r, e⟩
  cases hg with
  | expr h hn =>
    obtain ⟨t', us', rfl, _, _, _, _, _, q⟩ := expr_head h hn
    simp at e; exact q e.1
  | _ => simp at e

theorem ssstart_els {vs us : List Tok} {s : St} (hg : SsGram pr false vs s) : ¬ ElsAt (vs ++ us) := by
  cases hg with
  | nil => rintro ⟨r, e⟩; simp at e
  | cons h _ => rw [List.append_assoc]; exact sstart_els h

theorem unis_cons {ts vs : List Tok} {s t : St} (hg : SGram pr false ts s) (h1 : Uni pr ts s) (hg2 : SsGram pr false vs t) (h2 : Unis pr vs t) :
    Unis pr (ts ++ vs) (.seq s t) := by
  intro ts' us us' s' h' he
  cases h' with
  | nil =>
    exfalso
    cases hg with
    | expr h3 hn =>
      obtain ⟨t', us', rfl, _, _, _, _, q, _⟩ := expr_head h3 hn
      simp at he; exact q he.1
    | _ => simp at he
  | cons h3 h4 =>
    simp only [List.append_assoc] at he
    obtain ⟨rfl, e⟩ := h1 h3 he (fun _ => ssstart_els hg2) (fun _ => ssstart_els h4)
    obtain ⟨rfl, rfl⟩ := h2 h4 e
    exact ⟨rfl, rfl⟩

mutual
theorem sgram_uni (hp : ∀ o, 3 ≤ pr o ∧ pr o ≤ 12) {ts : List Tok} {s : St} (h : SGram pr false ts s) : Uni pr ts s := by
  match h with
  | .block h => exact uni_block (ssgram_uni hp h)
  | .empty => exact uni_empty
  | .exprHead h => exact uni_exprHead hp h
  | .expr h hn => exact uni_expr hp h hn
  | .ret0 => exact uni_ret0
  | .ret h => exact uni_ret hp h
  | .auto h => exact uni_auto h
  | .extrn h => exact uni_extrn h
  | .ifThen h1 h2 => exact uni_ifThen hp h1 (sgram_uni hp h2)
  | .ifElse h1 h2 ho h3 => exact uni_ifElse hp h1 (sgram_uni hp h2) ho (sgram_uni hp h3)
  | .while h1 h2 => exact uni_while hp h1 (sgram_uni hp h2)
  | .switch h1 h2 hq => exact uni_switch hp h1 h2 (sgram_uni hp h2) (hq rfl)
  | .case h1 h2 => exact uni_case h1 (sgram_uni hp h2)
  | .label _ h2 h3 => exact uni_label h2 (sgram_uni hp h3)
  | .goto => exact uni_goto

theorem ssgram_uni (hp : ∀ o, 3 ≤ pr o ∧ pr o ≤ 12) {ts : List Tok} {s : St} (h : SsGram pr false ts s) : Unis pr ts s := by
  match h with
  | .nil => exact unis_nil
  | .cons h1 h2 => exact unis_cons h1 (sgram_uni hp h1) h2 (ssgram_uni hp h2)
end

theorem igram_prefix {ts ts' us us' : List Tok} {v v' : Ival} (h : IGram false ts v) (h' : IGram false ts' v')
    {s s' : List Char} (he : ts ++ .sym s :: us = ts' ++ .sym s' :: us') : v = v' ∧ s = s' ∧ us = us' := by
  cases h <;> cases h' <;> simp_all

theorem isgram_prefix {ts us : List Tok} {vs : List Ival} (h : IsGram false ts vs) :
    ∀ {ts' us' : List Tok} {vs' : List Ival}, IsGram false ts' vs' → ts ++ us = ts' ++ us' → vs = vs' ∧ us = us' := by
  induction h with
  | last h =>
    intro ts' us' vs' h' he
    cases h' with
    | last h2 =>
      simp only [List.append_assoc, List.cons_append, List.nil_append] at he
      obtain ⟨rfl, _, e⟩ := igram_prefix h h2 he
      exact ⟨rfl, e⟩
    | cons h2 h3 =>
      simp only [List.append_assoc, List.cons_append, List.nil_append] at he
      obtain ⟨_, e, _⟩ := igram_prefix h h2 he
      simp at e
  | cons h _ ih =>
    intro ts' us' vs' h' he
    cases h' with
    | last h2 =>
      simp only [List.append_assoc, List.cons_append, List.nil_append] at he
      obtain ⟨_, e, _⟩ := igram_prefix h h2 he
      simp at e
    | cons h2 h3 =>
      simp only [List.append_assoc, List.cons_append, List.nil_append] at he
      obtain ⟨rfl, _, e⟩ := igram_prefix h h2 he
      obtain ⟨rfl, e⟩ := ih h3 e
      exact ⟨rfl, e⟩

theorem isgram_first {ts us : List Tok} {vs : List Ival} (h : IsGram false ts vs) :
    ∃ t r, ts ++ us = t :: r ∧ t ≠ .sym [';'] ∧ t ≠ .sym ['['] ∧ t ≠ .sym ['('] := by
  cases h with
  | last h => cases h <;> simp_all
  | cons h => cases h <;> simp_all

theorem oisgram_prefix {ts us ts' us' : List Tok} {vs vs' : List Ival} (h : OIsGram false ts vs) (h' : OIsGram false ts' vs')
    (he : ts ++ us = ts' ++ us') : vs = vs' ∧ us = us' := by
  cases h with
  | none =>
    cases h' with
    | none => simp_all
    | some h' => obtain ⟨t, r, e, q, _⟩ := isgram_first (us := us') h'; rw [e] at he; simp at he; exact absurd he.1.symm q
  | some h =>
    cases h' with
    | none => obtain ⟨t, r, e, q, _⟩ := isgram_first (us := us) h; rw [e] at he; simp at he; exact absurd he.1 q
    | some h' => exact isgram_prefix h h' he

theorem oisgram_first {ts us : List Tok} {vs : List Ival} (h : OIsGram false ts vs) :
    ∃ t r, ts ++ us = t :: r ∧ t ≠ .sym ['['] ∧ t ≠ .sym ['('] := by
  cases h with
  | none => simp
  | some h => obtain ⟨t, r, e, _, q⟩ := isgram_first (us := us) h; exact ⟨t, r, e, q⟩

theorem vgram_prefix {ts us ts' us' : List Tok} {n n' : Word} (h : VGram ts n) (h' : VGram ts' n')
    (he : ts ++ us = ts' ++ us') : n = n' ∧ us = us' := by
  cases h <;> cases h' <;> simp_all

theorem pgram_prefix {ts us ts' us' : List Tok} {xs xs' : List (List Char)} (h : PGram ts xs) (h' : PGram ts' xs')
    (he : ts ++ us = ts' ++ us') : xs = xs' ∧ us = us' := by
  cases h with
  | none =>
    cases h' with
    | none => simp_all
    | some h' => cases h' <;> simp at he
  | some h =>
    cases h' with
    | none => cases h <;> simp at he
    | some h' => exact nsgram_prefix (by decide) h h' he

/-- The following text begins with a declaration or is at its end. -/
theorem proggram_els {ts : List Tok} {p : Program} (h : ProgGram pr false ts p) : ¬ ElsAt ts := by
  rintro ⟨r, e⟩
  cases h with
  | nil => simp at e
  | cons h _ => cases h <;> simp at e

theorem declgram_prefix (hp : ∀ o, 3 ≤ pr o ∧ pr o ≤ 12) {ts us ts' us' : List Tok} {d d' : Decl}
    (h : DeclGram pr false ts d) (h' : DeclGram pr false ts' d')
    (he : ts ++ us = ts' ++ us') (hu : ¬ ElsAt us) (hu' : ¬ ElsAt us') : d = d' ∧ us = us' := by
  cases h with
  | global h =>
    cases h' with
    | global h2 =>
      simp only [List.cons_append, List.cons.injEq, Tok.defn.injEq] at he
      obtain ⟨rfl, rfl⟩ := oisgram_prefix h h2 he.2
      exact ⟨by rw [he.1], rfl⟩
    | vector h2 h3 =>
      obtain ⟨t, r, e, q, _⟩ := oisgram_first (us := us) h
      simp [e] at he; exact absurd he.2.1 q
    | func h2 h3 =>
      obtain ⟨t, r, e, _, q⟩ := oisgram_first (us := us) h
      simp [e] at he; exact absurd he.2.1 q
  | vector h h1 =>
    cases h' with
    | global h2 =>
      obtain ⟨t, r, e, q, _⟩ := oisgram_first (us := us') h2
      simp [e] at he; exact absurd he.2.1.symm q
    | vector h2 h3 =>
      simp only [List.cons_append, List.append_assoc, List.cons.injEq, Tok.defn.injEq, true_and] at he
      obtain ⟨rfl, e⟩ := vgram_prefix h h2 he.2
      obtain ⟨rfl, rfl⟩ := oisgram_prefix h1 h3 e
      exact ⟨by rw [he.1], rfl⟩
    | func h2 h3 => simp at he
  | func h h1 =>
    cases h' with
    | global h2 =>
      obtain ⟨t, r, e, _, q⟩ := oisgram_first (us := us') h2
      simp [e] at he; exact absurd he.2.1.symm q
    | vector h2 h3 => simp at he
    | func h2 h3 =>
      simp only [List.cons_append, List.append_assoc, List.cons.injEq, Tok.defn.injEq, true_and] at he
      obtain ⟨rfl, e⟩ := pgram_prefix h h2 he.2
      obtain ⟨rfl, rfl⟩ := sgram_uni hp h1 h3 e (fun _ => hu) (fun _ => hu')
      exact ⟨by rw [he.1], rfl⟩

theorem proggram_unique (hp : ∀ o, 3 ≤ pr o ∧ pr o ≤ 12) {ts : List Tok} {p : Program} (h : ProgGram pr false ts p) :
    ∀ {p' : Program}, ProgGram pr false ts p' → p = p' := by
  induction h with
  | nil =>
    intro p' h'
    generalize e0 : ([] : List Tok) = ts at h'
    cases h' with
    | nil => rfl
    | cons h _ => cases h <;> simp at e0
  | cons h ht ih =>
    rename_i ts us d p
    intro p' h'
    generalize e0 : ts ++ us = vs at h'
    cases h' with
    | nil => cases h <;> simp at e0
    | cons h2 h3 =>
      obtain ⟨rfl, rfl⟩ := declgram_prefix hp h h2 e0 (proggram_els ht) (proggram_els h3)
      rw [ih h3]

end
end Blang
