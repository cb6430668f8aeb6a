import Verif.Proofs.SoundDecl
/-
The fuel of the model always suffices (property C08).

`wp f s Q`: running `f` on `s` does not run out of fuel, and if it succeeds the result satisfies `Q`.
The postconditions bound the number of characters that are left.
-/
namespace Blang
open Spec

section
variable {σ α β ρ : Type}

def wp (f : M σ α) (s : σ) (Q : α → σ → Prop) : Prop :=
  match f s with
  | .ok a s' => Q a s'
  | .err e => e ≠ .fuel

theorem wp_pure {a : α} {s : σ} {Q : α → σ → Prop} (h : Q a s) : wp (pure a : M σ α) s Q := h

theorem wp_throw {e : Err} {s : σ} {Q : α → σ → Prop} (h : e ≠ .fuel) : wp (M.throw e : M σ α) s Q := h

theorem wp_bind {f : M σ α} {k : α → M σ β} {s : σ} {P : α → σ → Prop} {Q : β → σ → Prop} (h : wp f s P)
    (h2 : ∀ a s', P a s' → wp (k a) s' Q) : wp (f >>= k) s Q := by
  unfold wp at *
  rw [M.bind_apply]
  cases hf : f s with
  | ok a s' => rw [hf] at h; exact h2 a s' h
  | err e => rw [hf] at h; exact h

theorem wp_mono {f : M σ α} {s : σ} {P Q : α → σ → Prop} (h : wp f s P) (h2 : ∀ a s', P a s' → Q a s') : wp f s Q := by
  unfold wp at *
  cases hf : f s with
  | ok a s' => rw [hf] at h; exact h2 a s' h
  | err e => rw [hf] at h; exact h

theorem wp_ok {f : M σ α} {s : σ} {P Q : α → σ → Prop} (h : wp f s P) (h2 : ∀ a s', f s = .ok a s' → P a s' → Q a s') : wp f s Q := by
  unfold wp at *
  cases hf : f s with
  | ok a s' => rw [hf] at h; exact h2 a s' hf h
  | err e => rw [hf] at h; exact h

theorem wp_ite {c : Prop} [Decidable c] {f g : M σ α} {s : σ} {Q : α → σ → Prop} (h1 : c → wp f s Q) (h2 : ¬ c → wp g s Q) :
    wp (if c then f else g) s Q := by
  by_cases hc : c
  · rw [if_pos hc]; exact h1 hc
  · rw [if_neg hc]; exact h2 hc

theorem wp_get {s : σ} {Q : σ → σ → Prop} (h : Q s s) : wp (M.get : M σ σ) s Q := h

/-- result of an iteration: going round decreases `μ`; leaving decreases it by at least `d` -/
def Dec (μ : σ → Nat) (d : Nat) (s : σ) : Iter β ρ → σ → Prop
  | .next _, s' => μ s' < μ s
  | .done _, s' => μ s' + d ≤ μ s

/-- A loop whose iterations decrease `μ`. -/
theorem wp_loop {body : β → M σ (Iter β ρ)} (μ : σ → Nat) (d : Nat) {n : Nat} {s : σ}
    (hbody : ∀ b s', μ s' ≤ μ s → wp (body b) s' (Dec μ d s')) (hn : μ s < n) (b : β) :
    wp (loop n body b) s fun _ s' => μ s' + d ≤ μ s := by
  induction n generalizing b s with
  | zero => omega
  | succ n ih =>
    have := hbody b s (Nat.le_refl _)
    unfold wp at this ⊢
    rw [loop_succ]
    cases hb : body b s with
    | err e => rw [hb] at this; exact this
    | ok i s' =>
      rw [hb] at this
      cases i with
      | next b' =>
        have h1 : μ s' < μ s := this
        have := ih (s := s') (fun b s'' h => hbody b s'' (by omega)) (by omega) b'
        exact wp_mono (f := loop n body b') this fun _ _ h => by omega
      | done r => exact this
end

/-! ### the lexer -/

def llen (l : Lex) : Nat := l.chars.length

theorem readChar_wp (l : Lex) : wp readChar l fun r l' =>
    (∃ c, r = .ch c ∧ llen l = llen l' + 1) ∨ ((∀ c, r ≠ .ch c) ∧ l' = l) := by
  unfold wp readChar
  obtain ⟨cs, t⟩ := l
  cases cs with
  | nil => cases t <;> exact .inr ⟨by simp, rfl⟩
  | cons c cs => exact .inl ⟨c, rfl, rfl⟩

theorem unreadChar_wp (c : Char) (l : Lex) : wp (unreadChar c) l fun _ l' => llen l' = llen l + 1 := rfl

theorem readOrErr_wp (l : Lex) : wp readOrErr l fun _ l' => llen l = llen l' + 1 := by
  refine wp_bind (readChar_wp l) fun r l1 h => ?_
  rcases h with ⟨c, rfl, h⟩ | ⟨h, rfl⟩
  · exact wp_pure h
  · cases r with
    | ch c => exact absurd rfl (h c)
    | eof => exact wp_throw (by simp)
    | io => exact wp_throw (by simp)

theorem lexLoop_wp {β ρ : Type} {body : β → L (Iter β ρ)} (d : Nat) {l : Lex}
    (hbody : ∀ b l', wp (body b) l' (Dec llen d l')) (b : β) :
    wp (lexLoop body b) l fun _ l' => llen l' + d ≤ llen l := by
  have := wp_loop llen d (n := l.chars.length + 1) (s := l) (fun b l' _ => hbody b l') (Nat.lt_succ_self _) b
  exact this

theorem commentBody_wp (u : Unit) (l : Lex) : wp (commentBody u) l (Dec llen 0 l) := by
  refine wp_bind (readChar_wp l) fun r l1 h => ?_
  rcases h with ⟨c, rfl, h⟩ | ⟨h, rfl⟩
  · refine wp_ite (fun hc => ?_) (fun hc => wp_pure (by simp only [Dec]; omega))
    refine wp_bind (readChar_wp l1) fun r l2 h2 => ?_
    rcases h2 with ⟨c2, rfl, h2⟩ | ⟨h2, rfl⟩
    · refine wp_ite (fun hc => wp_pure (by simp only [Dec]; omega)) (fun hc => ?_)
      refine wp_bind (unreadChar_wp c2 l2) fun _ l3 h3 => wp_pure (by simp only [Dec]; omega)
    · cases r with
      | ch c => exact absurd rfl (h2 c)
      | eof => exact wp_pure (by simp only [Dec]; omega)
      | io => exact wp_throw (by simp)
  · cases r with
    | ch c => exact absurd rfl (h c)
    | eof => exact wp_throw (by simp)
    | io => exact wp_throw (by simp)

theorem comment_wp (l : Lex) : wp comment l fun _ l' => llen l' ≤ llen l := lexLoop_wp 0 commentBody_wp ()

theorem whitespaceBody_wp (u : Unit) (l : Lex) : wp (whitespaceBody u) l (Dec llen 0 l) := by
  refine wp_bind (readChar_wp l) fun r l1 h => ?_
  rcases h with ⟨c, rfl, h⟩ | ⟨h, rfl⟩
  · refine wp_ite (fun hc => wp_pure (by simp only [Dec]; omega)) (fun hc => wp_ite (fun hc => ?_) (fun hc => ?_))
    · refine wp_bind (readChar_wp l1) fun r l2 h2 => ?_
      rcases h2 with ⟨c2, rfl, h2⟩ | ⟨h2, rfl⟩
      · refine wp_ite (fun hc => ?_) (fun hc => ?_)
        · refine wp_bind (comment_wp l2) fun _ l3 h3 => wp_pure (by simp only [Dec]; omega)
        · refine wp_bind (unreadChar_wp c2 l2) fun _ l3 h3 => ?_
          refine wp_bind (unreadChar_wp c l3) fun _ l4 h4 => wp_pure (by simp only [Dec]; omega)
      · cases r with
        | ch c => exact absurd rfl (h2 c)
        | eof => exact wp_bind (unreadChar_wp c l2) fun _ l4 h4 => wp_pure (by simp only [Dec]; omega)
        | io => exact wp_throw (by simp)
    · exact wp_bind (unreadChar_wp c l1) fun _ l4 h4 => wp_pure (by simp only [Dec]; omega)
  · cases r with
    | ch c => exact absurd rfl (h c)
    | eof => exact wp_pure (by simp only [Dec]; omega)
    | io => exact wp_throw (by simp)

theorem whitespace_wp (l : Lex) : wp whitespace l fun _ l' => llen l' ≤ llen l := lexLoop_wp 0 whitespaceBody_wp ()

theorem identifierBody_wp (b : Name) (l : Lex) : wp (identifierBody b) l (Dec llen 0 l) := by
  refine wp_bind (readChar_wp l) fun r l1 h => ?_
  rcases h with ⟨c, rfl, h⟩ | ⟨h, rfl⟩
  · refine wp_ite (fun hc => ?_) (fun hc => wp_pure (by simp only [Dec]; omega))
    exact wp_bind (unreadChar_wp c l1) fun _ l4 h4 => wp_pure (by simp only [Dec]; omega)
  · cases r with
    | ch c => exact absurd rfl (h c)
    | eof => exact wp_pure (by simp only [Dec]; omega)
    | io => exact wp_throw (by simp)

theorem identifier_wp (l : Lex) : wp identifier l fun n l' => llen l' + n.length ≤ llen l := by
  refine wp_ok (P := fun _ _ => True) ?_ ?_
  · refine wp_bind (whitespace_wp l) fun _ l1 _ => wp_mono (lexLoop_wp 0 identifierBody_wp []) fun _ _ _ => trivial
  · intro n l' h _
    obtain ⟨lay, h1, _⟩ := identifier_ok h
    simp only [llen, h1, List.length_append]; omega

theorem numberLoop_wp (c : Char) (l : Lex) : wp (numberLoop c) l fun _ l' => llen l' ≤ llen l + 1 := by
  have body : ∀ (base : W) (b : W × Char) (l : Lex), wp (numberBody base b) l fun i l' =>
      match i with
      | .next _ => llen l' < llen l
      | .done _ => llen l' ≤ llen l + 1 := by
    intro base b l
    obtain ⟨num, c⟩ := b
    refine wp_ite (fun hc => ?_) (fun hc => ?_)
    · refine wp_bind (readChar_wp l) fun r l1 h => ?_
      rcases h with ⟨c, rfl, h⟩ | ⟨h, rfl⟩
      · exact wp_pure (by dsimp only; omega)
      · cases r with
        | ch c => exact absurd rfl (h c)
        | eof => exact wp_pure (by dsimp only; omega)
        | io => exact wp_throw (by simp)
    · exact wp_bind (unreadChar_wp c l) fun _ l4 h4 => wp_pure (by dsimp only; omega)
  have main : ∀ (n : Nat) (base : W) (b : W × Char) (l : Lex), llen l < n →
      wp (loop n (numberBody base) b) l fun _ l' => llen l' ≤ llen l + 1 := by
    intro n
    induction n with
    | zero => intro base b l h; omega
    | succ n ih =>
      intro base b l hn
      have := body base b l
      unfold wp at this ⊢
      rw [loop_succ]
      cases hb : numberBody base b l with
      | err e => rw [hb] at this; exact this
      | ok i s' =>
        rw [hb] at this
        cases i with
        | next b' =>
          have h1 : llen s' < llen l := this
          exact wp_mono (f := loop n (numberBody base) b') (ih base b' s' (by omega)) fun _ _ h => by omega
        | done r => exact this
  exact main (l.chars.length + 2) _ _ l (by unfold llen; omega)

theorem number_wp (l : Lex) : wp number l fun _ l' => llen l' ≤ llen l := by
  refine wp_bind (whitespace_wp l) fun _ l1 h1 => ?_
  refine wp_bind (readOrErr_wp l1) fun c l2 h2 => ?_
  exact wp_mono (numberLoop_wp c l2) fun _ _ h => by omega

/-- a number at a digit -/
theorem number_wp' {c : Char} {r : List Char} {t : Tail} (hc : isDigit c = true) :
    wp number ⟨c :: r, t⟩ fun _ l' => llen l' ≤ r.length := by
  refine wp_ok (number_wp _) ?_
  intro w l' h _
  obtain ⟨lay, ds, h1, h2, h3, h4, _⟩ := number_ok h
  simp only at h1
  have h6 := congrArg List.length h1
  simp only [List.length_cons, List.length_append] at h6
  unfold llen
  rcases Nat.eq_zero_or_pos (lay.length + ds.length) with h0 | h0
  · exfalso
    have e1 : lay = [] := List.length_eq_zero_iff.1 (by omega)
    have e2 : ds = [] := List.length_eq_zero_iff.1 (by omega)
    subst e1 e2
    simp at h1
    rw [← h1] at h4
    exact h4 ((isDigit_iff c).1 hc)
  · omega

/-- an identifier at a letter -/
theorem identifier_wp' {c : Char} {r : List Char} {t : Tail} (hc : isLetter c = true) :
    wp identifier ⟨c :: r, t⟩ fun n l' => llen l' + n.length ≤ r.length + 1 ∧ llen l' ≤ r.length := by
  refine wp_ok (identifier_wp _) ?_
  intro w l' h hle
  refine ⟨hle, ?_⟩
  obtain ⟨lay, h1, h2, h3, h4, _⟩ := identifier_ok h
  simp only at h1
  have h6 := congrArg List.length h1
  simp only [List.length_cons, List.length_append] at h6
  unfold llen
  rcases Nat.eq_zero_or_pos (lay.length + w.length) with h0 | h0
  · exfalso
    have e1 : lay = [] := List.length_eq_zero_iff.1 (by omega)
    have e2 : w = [] := List.length_eq_zero_iff.1 (by omega)
    subst e1 e2
    simp at h1
    rw [← h1] at h4
    exact h4 (.inl ((isLetter_iff c).1 hc))
  · omega

theorem escape_wp (l : Lex) : wp escape l fun _ l' => llen l' ≤ llen l := by
  refine wp_bind (readOrErr_wp l) fun c l1 h => ?_
  repeat' first
    | exact wp_pure (by omega)
    | exact wp_throw (by simp)
    | refine wp_ite (fun hc => ?_) (fun hc => ?_)

theorem readItem_wp (c : Char) (l : Lex) : wp (readItem c) l fun _ l' => llen l' ≤ llen l :=
  wp_ite (fun _ => escape_wp l) (fun _ => wp_pure (Nat.le_refl _))

theorem characterLoop_wp : ∀ (k : Nat) (v : W) (l : Lex), wp (characterLoop k v) l fun _ l' => llen l' < llen l
  | 0, v, l => by
    refine wp_bind (readChar_wp l) fun r l1 h => ?_
    rcases h with ⟨c, rfl, h⟩ | ⟨h, rfl⟩
    · exact wp_ite (fun _ => wp_throw (by simp)) (fun _ => wp_pure (by omega))
    · cases r with
      | ch c => exact absurd rfl (h c)
      | eof => exact wp_throw (by simp)
      | io => exact wp_throw (by simp)
  | k + 1, v, l => by
    refine wp_bind (readOrErr_wp l) fun c l1 h => ?_
    refine wp_ite (fun _ => wp_pure (by omega)) (fun _ => ?_)
    refine wp_bind (readItem_wp c l1) fun d l2 h2 => ?_
    exact wp_mono (characterLoop_wp k _ l2) fun _ _ h3 => by omega

theorem character_wp (l : Lex) : wp character l fun _ l' => llen l' < llen l := characterLoop_wp _ _ l

theorem stringBody_wp (b : List Char) (l : Lex) : wp (stringBody b) l (Dec llen 1 l) := by
  refine wp_bind (readChar_wp l) fun r l1 h => ?_
  rcases h with ⟨c, rfl, h⟩ | ⟨h, rfl⟩
  · refine wp_ite (fun hc => wp_pure (by simp only [Dec]; omega)) (fun hc => ?_)
    exact wp_bind (readItem_wp c l1) fun _ l4 h4 => wp_pure (by simp only [Dec]; omega)
  · cases r with
    | ch c => exact absurd rfl (h c)
    | eof => exact wp_throw (by simp)
    | io => exact wp_throw (by simp)

theorem stringLit_wp (l : Lex) : wp stringLit l fun _ l' => llen l' < llen l := lexLoop_wp 1 stringBody_wp []

theorem expectChar_wp (c : Char) (m : String) (l : Lex) : wp (expectChar c m) l fun _ l' => llen l' < llen l := by
  refine wp_bind (readChar_wp l) fun r l1 h => ?_
  rcases h with ⟨c, rfl, h⟩ | ⟨h, rfl⟩
  · exact wp_ite (fun _ => wp_throw (by simp)) (fun _ => wp_pure (by omega))
  · cases r with
    | ch c => exact absurd rfl (h c)
    | eof => exact wp_throw (by simp)
    | io => exact wp_throw (by simp)

/-! ### the builder never runs out of fuel -/

def NF {α : Type} (f : B α) : Prop := ∀ c, f c ≠ .err .fuel

section
variable {α β : Type}
theorem NF.pure (a : α) : NF (pure a : B α) := fun _ h => by cases h
theorem NF.bind {f : B α} {k : α → B β} (h : NF f) (hk : ∀ a, NF (k a)) : NF (f >>= k) := by
  intro c
  rw [M.bind_apply]
  cases hf : f c with
  | ok a s => exact hk a s
  | err e => intro he; cases he; exact h c hf
theorem NF.fail (s : String) : NF (M.throw (.msg s) : B α) := fun _ h => by cases h
theorem NF.get : NF (M.get : B CState) := fun _ h => by cases h
theorem NF.modify (f : CState → CState) : NF (M.modify f) := fun _ h => by cases h
theorem NF.emit (i : Inst) : NF (emit i) := fun _ h => by cases h
theorem NF.ite {c : Prop} [Decidable c] {f g : B α} (h1 : NF f) (h2 : NF g) : NF (if c then f else g) := by
  split <;> assumption
theorem NF.getOrDeclareFunction (x : Name) : NF (getOrDeclareFunction x) := by
  intro c h
  unfold Blang.getOrDeclareFunction at h
  split at h
  · cases h
  · split at h <;> cases h
theorem NF.getOrCreateLabel (x : Name) : NF (getOrCreateLabel x) := by
  intro c h
  unfold Blang.getOrCreateLabel at h
  split at h <;> cases h
theorem NF.getOrCreateFunc (x : Name) : NF (getOrCreateFunc x) := by
  intro c h
  unfold Blang.getOrCreateFunc at h
  split at h <;> cases h
theorem NF.declareExtrn (x : Name) : NF (declareExtrn x) := by
  intro c h
  unfold Blang.declareExtrn at h
  split at h
  · cases h
  · split at h <;> cases h
theorem NF.freshLabelID : NF freshLabelID := fun _ h => by cases h
theorem NF.newBlock (n : Name) : NF (newBlock n) := fun _ h => by cases h
theorem NF.getInsertBlock : NF getInsertBlock := fun _ h => by cases h
theorem NF.createStringConstant (n : List Char) : NF (createStringConstant n) := fun _ h => by cases h
theorem NF.declareFunction (f : Name) (ps : List Name) : NF (declareFunction f ps) := fun _ h => by cases h
end

macro "nf" : tactic => `(tactic| repeat' first
  | exact NF.pure _ | exact NF.fail _ | exact NF.get | exact NF.modify _ | exact NF.emit _
  | exact NF.getOrDeclareFunction _ | exact NF.getOrCreateLabel _ | exact NF.getOrCreateFunc _
  | exact NF.declareExtrn _ | exact NF.freshLabelID | exact NF.newBlock _ | exact NF.getInsertBlock
  | exact NF.createStringConstant _ | exact NF.declareFunction _ _ | assumption
  | refine NF.bind ?_ (fun _ => ?_) | refine NF.ite ?_ ?_)

theorem NF.rval (v : LV) : NF (rval v) := by unfold Blang.rval; nf
theorem NF.genOp (o : Op) (x y : Val) : NF (genOp o x y) := by
  cases o <;> simp only [Blang.genOp, cmpOp] <;> nf
theorem NF.genAssign (o : Option Op) (x y : Val) : NF (genAssign o x y) := by
  cases o with
  | none => unfold Blang.genAssign; nf
  | some o => have := fun x y => NF.genOp o x y; unfold Blang.genAssign; nf; exact this _ _
theorem NF.genStr (s : List Char) : NF (genStr s) := by unfold Blang.genStr; nf
theorem NF.genCall (f : Val) (as : List Val) : NF (genCall f as) := by
  cases f <;> simp only [Blang.genCall] <;> nf
theorem NF.getAddress (x : Name) : NF (getAddress x) := by
  unfold Blang.getAddress
  refine NF.bind NF.get fun c => ?_
  split
  · nf
  · split <;> nf
theorem NF.genPostfix (o : BinOp) (v : Val) : NF (genPostfix o v) := by unfold Blang.genPostfix; nf
theorem NF.genPrefix (o : BinOp) (v : Val) : NF (genPrefix o v) := by unfold Blang.genPrefix; nf
theorem NF.genNot (v : LV) : NF (genNot v) := by
  unfold Blang.genNot cmpOp; exact NF.bind (NF.rval v) fun _ => by nf
theorem NF.genNeg (v : LV) : NF (genNeg v) := by unfold Blang.genNeg; exact NF.bind (NF.rval v) fun _ => by nf
theorem NF.genDeref (v : LV) : NF (genDeref v) := by unfold Blang.genDeref; exact NF.bind (NF.rval v) fun _ => by nf
theorem NF.setTerm (t : Term) : NF (setTerm t) := NF.modify _
theorem NF.setInsertPoint (t : Nat) : NF (setInsertPoint t) := NF.modify _
theorem NF.brIfOpen (b : Nat) : NF (brIfOpen b) := by
  unfold Blang.brIfOpen Blang.setTerm; nf
theorem NF.switchTerm (k : Nat) (v : Val) (e : Nat) (cs : Cases) : NF (switchTerm k v e cs) := by
  have : ∀ cs, NF (switchCases k cs) := by
    intro cs
    induction cs with
    | nil => exact NF.pure _
    | cons v vs ih => unfold switchCases; nf
  have := this cs
  unfold Blang.switchTerm Blang.setTerm; nf
theorem NF.declareAll (ds : List (Name × W)) : NF (declareAll ds) := by
  induction ds with
  | nil => exact NF.pure _
  | cons d ds ih =>
    unfold Blang.declareAll declareOne declareLocal declareLocalArray
    nf
theorem NF.startFunction (f : Func) : NF (startFunction f) := by
  have va : ∀ v ps, NF (vaParams v ps) := by
    intro v ps
    induction ps with
    | nil => exact NF.pure _
    | cons p ps ih => unfold vaParams; nf
  unfold Blang.startFunction
  refine NF.bind (NF.modify _) fun _ => NF.bind NF.get fun c => ?_
  split
  · nf
  · unfold firstParam; nf
  · unfold firstParam
    have := va
    nf
    exact va _ _
theorem NF.endFunction : NF endFunction := by
  unfold Blang.endFunction closeLast Blang.setTerm; nf
theorem NF.declareGlobalArray (x : Name) (n : W) (ks : List Const) : NF (declareGlobalArray x n ks) := NF.modify _

/-! ### parser functions -/

def plen (s : PS) : Nat := s.lex.chars.length

section
variable {α : Type}

theorem lx_wp {f : L α} {s : PS} {Q : α → Lex → Prop} (h : wp f s.lex Q) : wp (lx f) s fun a s' => Q a s'.lex := by
  unfold wp lx at *
  cases hf : f s.lex with
  | ok a l => rw [hf] at h; exact h
  | err e => rw [hf] at h; exact h

theorem bd_wp {f : B α} (h : NF f) (s : PS) : wp (bd f) s fun _ s' => s'.lex = s.lex := by
  unfold wp bd
  cases hf : f s.c with
  | ok a l => rfl
  | err e => intro he; subst he; exact h _ hf

theorem fail_wp {m : String} {s : PS} {Q : α → PS → Prop} : wp (fail m) s Q := wp_throw (by simp)
theorem io_wp {s : PS} {Q : α → PS → Prop} : wp (M.throw .io) s Q := wp_throw (by simp)

/-- a builder operation followed by more -/
theorem wp_bd {β : Type} {f : B α} {k : α → P β} {s : PS} {Q : β → PS → Prop} (hf : NF f)
    (h : ∀ a s', plen s' = plen s → wp (k a) s' Q) : wp (bd f >>= k) s Q :=
  wp_bind (bd_wp hf s) fun a s' e => h a s' (by unfold plen; rw [e])

theorem wp_rd {β : Type} {k : RC → P β} {s : PS} {Q : β → PS → Prop}
    (h1 : ∀ c s', plen s = plen s' + 1 → wp (k (.ch c)) s' Q) (h2 : ∀ s', plen s' = plen s → wp (k .eof) s' Q)
    (h3 : ∀ s', plen s' = plen s → wp (k .io) s' Q) : wp (lx readChar >>= k) s Q := by
  refine wp_bind (lx_wp (readChar_wp s.lex)) fun r s' h => ?_
  rcases h with ⟨c, rfl, h⟩ | ⟨h, hl⟩
  · exact h1 c s' h
  · have e : plen s' = plen s := by unfold plen; rw [hl]
    cases r with
    | ch c => exact absurd rfl (h c)
    | eof => exact h2 s' e
    | io => exact h3 s' e

theorem wp_re {β : Type} {k : Char → P β} {s : PS} {Q : β → PS → Prop}
    (h1 : ∀ c s', plen s = plen s' + 1 → wp (k c) s' Q) : wp (lx readOrErr >>= k) s Q :=
  wp_bind (lx_wp (readOrErr_wp s.lex)) fun c s' h => h1 c s' h

theorem wp_un {β : Type} {c : Char} {k : Unit → P β} {s : PS} {Q : β → PS → Prop}
    (h1 : ∀ s', plen s' = plen s + 1 → wp (k ()) s' Q) : wp (lx (unreadChar c) >>= k) s Q :=
  wp_bind (lx_wp (unreadChar_wp c s.lex)) fun _ s' h => h1 s' h

theorem wp_ws {β : Type} {k : Unit → P β} {s : PS} {Q : β → PS → Prop}
    (h1 : ∀ s', plen s' ≤ plen s → wp (k ()) s' Q) : wp (lx whitespace >>= k) s Q :=
  wp_bind (lx_wp (whitespace_wp s.lex)) fun _ s' h => h1 s' h

theorem wp_exp {β : Type} {c : Char} {m : String} {k : Unit → P β} {s : PS} {Q : β → PS → Prop}
    (h1 : ∀ s', plen s' < plen s → wp (k ()) s' Q) : wp (lx (expectChar c m) >>= k) s Q :=
  wp_bind (lx_wp (expectChar_wp c m s.lex)) fun _ s' h => h1 s' h

end

/-- the recursive calls of an expression parser: they work on texts of less than `N` characters -/
def RecOk (rec : Nat → P Val) (N : Nat) : Prop := ∀ lvl s, plen s < N → wp (rec lvl) s fun _ s' => plen s' < plen s

abbrev DecP {β ρ : Type} (s : PS) : Iter β ρ → PS → Prop := Dec plen 0 s

section
variable {rec : Nat → P Val} {N : Nat}

theorem wp_rec {β : Type} {lvl : Nat} {k : Val → P β} {s : PS} {Q : β → PS → Prop} (h : RecOk rec N) (hs : plen s < N)
    (h1 : ∀ v s', plen s' < plen s → wp (k v) s' Q) : wp (rec lvl >>= k) s Q := wp_bind (h lvl s hs) h1

theorem stop_wp {left : LV} {s : PS} : wp (stop left) s fun i s' => (∃ v, i = .done v) ∧ plen s' = plen s :=
  wp_bd (NF.rval _) fun v s' h => wp_pure ⟨⟨v, rfl⟩, h⟩

theorem stop_dec {left : LV} {s s0 : PS} (h : plen s ≤ plen s0) : wp (stop left) s (DecP s0) :=
  wp_mono stop_wp fun i s' ⟨⟨v, hv⟩, h2⟩ => by subst hv; simp only [DecP, Dec]; omega

theorem noOp_dec {ch : Char} {left : LV} {s s0 : PS} (h : plen s + 1 ≤ plen s0) : wp (noOp ch left) s (DecP s0) :=
  wp_un fun s1 h1 => stop_dec (by omega)

theorem binary_dec {left : LV} {rl : Nat} {o : Op} {s s0 : PS} (h : RecOk rec N) (hs : plen s < N) (h0 : plen s < plen s0) :
    wp (binary rec left rl o) s (DecP s0) := by
  refine wp_bd (NF.rval _) fun x s1 h1 => ?_
  refine wp_rec h (by omega) fun y s2 h2 => ?_
  refine wp_bd (NF.genOp _ _ _) fun v s3 h3 => wp_pure ?_
  simp only [DecP, Dec]; omega

theorem ternary_dec {left : LV} {s s0 : PS} (h : RecOk rec N) (hs : plen s < N) (h0 : plen s < plen s0) :
    wp (ternary rec left) s (DecP s0) := by
  refine wp_bd (NF.rval _) fun _ s1 h1 => ?_
  refine wp_bd NF.freshLabelID fun _ s2 h2 => ?_
  refine wp_bd (NF.newBlock _) fun _ s3 h3 => ?_
  refine wp_bd (NF.newBlock _) fun _ s4 h4 => ?_
  refine wp_bd (NF.newBlock _) fun _ s5 h5 => ?_
  refine wp_bd (NF.emit _) fun _ s6 h6 => ?_
  refine wp_bd (NF.setTerm _) fun _ s7 h7 => ?_
  refine wp_bd (NF.setInsertPoint _) fun _ s8 h8 => ?_
  refine wp_rec h (by omega) fun _ s9 h9 => ?_
  refine wp_bd NF.getInsertBlock fun _ s10 h10 => ?_
  refine wp_bd (NF.setTerm _) fun _ s11 h11 => ?_
  refine wp_ws fun s12 h12 => ?_
  refine wp_exp fun s13 h13 => ?_
  refine wp_bd (NF.setInsertPoint _) fun _ s14 h14 => ?_
  refine wp_rec h (by omega) fun _ s15 h15 => ?_
  refine wp_bd NF.getInsertBlock fun _ s16 h16 => ?_
  refine wp_bd (NF.setTerm _) fun _ s17 h17 => ?_
  refine wp_bd (NF.setInsertPoint _) fun _ s18 h18 => ?_
  refine wp_bd (NF.emit _) fun _ s19 h19 => wp_pure ?_
  simp only [DecP, Dec]; omega

/-- how many characters pushing back `r` adds -/
def rcw : RC → Nat
  | .ch _ => 1
  | _ => 0

theorem compoundOp_wp {c2 : RC} {s : PS} :
    wp (compoundOp c2) s fun _ s' => plen s' ≤ plen s + rcw c2 := by
  unfold compoundOp
  cases c2 with
  | eof => exact wp_pure (Nat.le_refl _)
  | io => exact wp_pure (Nat.le_refl _)
  | ch c =>
    simp only [rcw]
    repeat' first
      | exact wp_pure (by omega)
      | exact fail_wp
      | refine wp_ite (fun _ => ?_) (fun _ => ?_)
      | refine wp_rd (fun c s' h => ?_) (fun s' h => ?_) (fun s' h => ?_)
      | refine wp_un (fun s' h => ?_)
      | dsimp only

theorem assignRest_dec {left : LV} {c2 : RC} {s s0 : PS} (h : RecOk rec N) (hs : plen s0 < N)
    (h0 : plen s + rcw c2 ≤ plen s0) : wp (assignRest rec left c2) s (DecP s0) := by
  unfold assignRest
  refine wp_ite (fun _ => fail_wp) (fun _ => ?_)
  refine wp_bind compoundOp_wp fun o s1 h1 => ?_
  refine wp_rec h (by omega) fun _ s2 h2 => ?_
  refine wp_bd (NF.genAssign _ _ _) fun v s3 h3 => wp_pure ?_
  simp only [DecP, Dec]; omega

theorem wp_unRC {β : Type} {r : RC} {k : Unit → P β} {s : PS} {Q : β → PS → Prop}
    (h1 : ∀ s', plen s' = plen s + rcw r → wp (k ()) s' Q) : wp (lx (unreadRC r) >>= k) s Q := by
  cases r with
  | ch c => exact wp_un (fun s' h => h1 s' h)
  | eof => exact wp_bind (lx_wp (f := unreadRC .eof) (Q := fun _ l => l = s.lex) rfl) fun _ s' h => h1 s' (by unfold plen; rw [h]; rfl)
  | io => exact wp_bind (lx_wp (f := unreadRC .io) (Q := fun _ l => l = s.lex) rfl) fun _ s' h => h1 s' (by unfold plen; rw [h]; rfl)

theorem wp_rdw {β : Type} {k : RC → P β} {s : PS} {Q : β → PS → Prop}
    (h : ∀ r s', plen s = plen s' + rcw r → wp (k r) s' Q) : wp (lx readChar >>= k) s Q :=
  wp_rd (fun c s' e => h (.ch c) s' e) (fun s' e => h .eof s' e.symm) (fun s' e => h .io s' e.symm)

theorem assignment_dec {left : LV} {s s0 : PS} (h : RecOk rec N) (hs : plen s0 < N) (h0 : plen s < plen s0) :
    wp (assignment rec left) s (DecP s0) := by
  unfold assignment
  refine wp_rdw fun c2 s1 h1 => ?_
  refine wp_ite (fun hc => ?_) (fun _ => assignRest_dec h hs (by omega))
  subst hc
  refine wp_rdw fun c3 s2 h2 => ?_
  have e : rcw (.ch '=') = 1 := rfl
  refine wp_ite (fun hc => ?_) (fun _ => ?_)
  · refine wp_ite (fun _ => fail_wp) (fun _ => ?_)
    refine wp_rec h (by omega) fun _ s3 h3 => ?_
    refine wp_bd (NF.genAssign _ _ _) fun v s4 h4 => wp_pure ?_
    simp only [DecP, Dec]; omega
  · refine wp_unRC fun s3 h3 => ?_
    refine wp_un fun s4 h4 => ?_
    exact assignRest_dec h hs (by omega)

theorem afterEq_dec {lvl : Nat} {left : LV} {s s0 : PS} (h : RecOk rec N) (hs : plen s0 < N) (h0 : plen s < plen s0) :
    wp (afterEq rec lvl left) s (DecP s0) :=
  wp_ite (fun _ => assignment_dec h hs h0) (fun _ => noOp_dec h0)

theorem handleEq_dec {lvl : Nat} {left : LV} {s s0 : PS} (h : RecOk rec N) (hs : plen s0 < N) (h0 : plen s < plen s0) :
    wp (handleEq rec lvl left) s (DecP s0) := by
  unfold handleEq
  refine wp_ite (fun _ => ?_) (fun _ => afterEq_dec h hs h0)
  refine wp_rd (fun c2 s1 h1 => ?_) (fun s1 h1 => afterEq_dec h hs (by omega)) (fun s1 h1 => afterEq_dec h hs (by omega))
  refine wp_ite (fun _ => ?_) (fun _ => wp_un fun s2 h2 => afterEq_dec h hs (by omega))
  refine wp_rd (fun c3 s2 h2 => ?_) (fun s1 h1 => binary_dec h (by omega) (by omega)) (fun s1 h1 => binary_dec h (by omega) (by omega))
  refine wp_ite (fun _ => ?_) (fun _ => wp_un fun s2 h2 => binary_dec h (by omega) (by omega))
  exact wp_un fun s3 h3 => wp_un fun s4 h4 => afterEq_dec h hs (by omega)

theorem handleLt_dec {left : LV} {s s0 : PS} (h : RecOk rec N) (hs : plen s0 < N) (h0 : plen s < plen s0) :
    wp (handleLt rec left) s (DecP s0) := by
  refine wp_bd (NF.rval _) fun x s1 h1 => ?_
  refine wp_rd (fun c2 s2 h2 => ?_) (fun s1 h1 => binary_dec h (by omega) (by omega)) (fun s1 h1 => binary_dec h (by omega) (by omega))
  refine wp_ite (fun _ => binary_dec h (by omega) (by omega)) (fun _ => ?_)
  refine wp_ite (fun _ => binary_dec h (by omega) (by omega)) (fun _ => ?_)
  exact wp_un fun s2 h2 => binary_dec h (by omega) (by omega)

theorem handleGt_dec {left : LV} {s s0 : PS} (h : RecOk rec N) (hs : plen s0 < N) (h0 : plen s < plen s0) :
    wp (handleGt rec left) s (DecP s0) := by
  refine wp_bd (NF.rval _) fun x s1 h1 => ?_
  refine wp_rd (fun c2 s2 h2 => ?_) (fun s1 h1 => binary_dec h (by omega) (by omega)) (fun s1 h1 => binary_dec h (by omega) (by omega))
  refine wp_ite (fun _ => binary_dec h (by omega) (by omega)) (fun _ => ?_)
  refine wp_ite (fun _ => binary_dec h (by omega) (by omega)) (fun _ => ?_)
  exact wp_un fun s2 h2 => binary_dec h (by omega) (by omega)

theorem handleAdd_dec {ch : Char} {left : LV} {s s0 : PS} (h : RecOk rec N) (hs : plen s0 < N) (h0 : plen s < plen s0) :
    wp (handleAdd rec ch left) s (DecP s0) := by
  refine wp_rd (fun c2 s2 h2 => ?_) (fun s1 h1 => binary_dec h (by omega) (by omega)) (fun s1 h1 => binary_dec h (by omega) (by omega))
  refine wp_ite (fun _ => ?_) (fun _ => ?_)
  · exact wp_un fun s3 h3 => wp_un fun s4 h4 => stop_dec (by omega)
  · unfold unreadNZ
    split
    · exact wp_un fun s3 h3 => binary_dec h (by omega) (by omega)
    · exact wp_bind (lx_wp (f := pure ()) (Q := fun _ l => l = s2.lex) rfl) fun _ s3 h3 =>
        binary_dec h (by unfold plen at *; rw [h3]; omega) (by unfold plen at *; rw [h3]; omega)

theorem exprBody_dec {lvl : Nat} {left : LV} {s : PS} (h : RecOk rec N) (hs : plen s < N) :
    wp (exprBody rec lvl left) s (DecP s) := by
  refine wp_ws fun s1 h1 => ?_
  refine wp_rd (fun c s2 h2 => ?_) (fun s2 h2 => stop_dec (by omega)) (fun s2 h2 => io_wp)
  refine wp_ite (fun _ => ternary_dec h (by omega) (by omega)) (fun _ => ?_)
  refine wp_ite (fun _ => handleEq_dec h (by omega) (by omega)) (fun _ => ?_)
  refine wp_ite (fun _ => binary_dec h (by omega) (by omega)) (fun _ => ?_)
  refine wp_ite (fun _ => binary_dec h (by omega) (by omega)) (fun _ => ?_)
  refine wp_ite (fun _ => ?_) (fun _ => ?_)
  · refine wp_rd (fun c s3 h3 => ?_) (fun s3 h3 => fail_wp) (fun s2 h2 => fail_wp)
    exact wp_ite (fun _ => fail_wp) (fun _ => binary_dec h (by omega) (by omega))
  refine wp_ite (fun _ => handleLt_dec h (by omega) (by omega)) (fun _ => ?_)
  refine wp_ite (fun _ => handleGt_dec h (by omega) (by omega)) (fun _ => ?_)
  refine wp_ite (fun _ => handleAdd_dec h (by omega) (by omega)) (fun _ => ?_)
  refine wp_ite (fun _ => binary_dec h (by omega) (by omega)) (fun _ => ?_)
  refine wp_ite (fun _ => binary_dec h (by omega) (by omega)) (fun _ => ?_)
  refine wp_ite (fun _ => binary_dec h (by omega) (by omega)) (fun _ => ?_)
  exact noOp_dec (by omega)

theorem funcValue_wp {x : Name} {s : PS} : wp (funcValue x) s fun _ s' => plen s' ≤ plen s := by
  refine wp_ws fun s1 h1 => ?_
  refine wp_rdw fun r s2 h2 => ?_
  refine wp_unRC fun s3 h3 => ?_
  refine wp_ite (fun _ => fail_wp) (fun _ => ?_)
  refine wp_bind (wp_get (s := s3) (Q := fun a b => a = s3 ∧ b = s3) ⟨rfl, rfl⟩) ?_
  rintro _ _ ⟨rfl, rfl⟩
  split
  · exact wp_bd (NF.emit _) fun _ s4 h4 => wp_pure (by omega)
  · refine wp_bd (NF.getOrDeclareFunction _) fun o s4 h4 => ?_
    cases o with
    | none => exact fail_wp
    | some f => exact wp_bd (NF.emit _) fun _ s4 h4 => wp_pure (by omega)

theorem callee_wp {x : Name} {s : PS} : wp (callee x) s fun _ s' => plen s' ≤ plen s := by
  refine wp_bind (wp_get (s := s) (Q := fun a b => a = s ∧ b = s) ⟨rfl, rfl⟩) ?_
  rintro _ _ ⟨rfl, rfl⟩
  split
  · exact wp_pure (Nat.le_refl _)
  · split
    · exact wp_pure (Nat.le_refl _)
    · refine wp_bd (NF.getOrDeclareFunction _) fun o s4 h4 => ?_
      cases o with
      | none => exact fail_wp
      | some f => exact wp_pure (by omega)

theorem un_rd_id {c : Char} {s s1 : PS} (hc : isLetter c = true) (h : s1.lex.chars = c :: s.lex.chars) :
    wp (lx identifier) s1 fun n s' => plen s' + n.length ≤ plen s1 ∧ plen s' < plen s1 := by
  have := lx_wp (f := identifier) (s := s1) (Q := fun n l' => llen l' + n.length ≤ s.lex.chars.length + 1 ∧ llen l' ≤ s.lex.chars.length)
    (by obtain ⟨⟨cs, t⟩, c'⟩ := s1; simp only at h; subst h; exact identifier_wp' hc)
  refine wp_mono this fun n s' h2 => ?_
  unfold plen llen at *
  rw [h]; simp only [List.length_cons]; omega

theorem wp_un' {β : Type} {c : Char} {k : Unit → P β} {s : PS} {Q : β → PS → Prop}
    (h1 : ∀ s' : PS, s'.lex.chars = c :: s.lex.chars → wp (k ()) s' Q) : wp (lx (unreadChar c) >>= k) s Q :=
  wp_bind (lx_wp (f := unreadChar c) (Q := fun _ l => l.chars = c :: s.lex.chars) rfl) fun _ s' h => h1 s' h

theorem identExpr_wp {c : Char} {s s1 : PS} (hc : isLetter c = true) (h : s1.lex.chars = c :: s.lex.chars) :
    wp identExpr s1 fun _ s' => plen s' < plen s1 := by
  refine wp_bind (un_rd_id hc h) fun x s2 h2 => ?_
  refine wp_ws fun s3 h3 => ?_
  refine wp_rdw fun r s4 h4 => ?_
  refine wp_unRC fun s5 h5 => ?_
  refine wp_ite (fun _ => wp_mono callee_wp fun _ _ _ => by omega) (fun _ => ?_)
  refine wp_bd (NF.getAddress _) fun o s6 h6 => ?_
  cases o with
  | none => exact wp_mono funcValue_wp fun _ _ _ => by omega
  | some f => exact wp_pure (by omega)

theorem parsePrimary_wp {s : PS} (h : RecOk rec N) (hs : plen s < N + 1) :
    wp (parsePrimary rec) s fun _ s' => plen s' < plen s := by
  refine wp_ws fun s1 h1 => ?_
  refine wp_rd (fun c s2 h2 => ?_) (fun s2 h2 => fail_wp) (fun s2 h2 => io_wp)
  refine wp_ite (fun _ => ?_) (fun _ => ?_)
  · refine wp_bind (lx_wp (character_wp _)) fun _ s3 h3 => wp_pure ?_
    unfold plen llen at *; omega
  refine wp_ite (fun _ => ?_) (fun _ => ?_)
  · refine wp_bind (lx_wp (stringLit_wp _)) fun _ s3 h3 => ?_
    refine wp_bd (NF.genStr _) fun _ s4 h4 => wp_pure ?_
    unfold plen llen at *; omega
  refine wp_ite (fun _ => ?_) (fun _ => ?_)
  · refine wp_rec h (by omega) fun _ s3 h3 => ?_
    exact wp_exp fun s4 h4 => wp_pure (by omega)
  refine wp_ite (fun hd => ?_) (fun _ => ?_)
  · refine wp_un' fun s3 h3 => ?_
    have := lx_wp (f := number) (s := s3) (Q := fun n l' => llen l' ≤ s2.lex.chars.length)
      (by obtain ⟨⟨cs, t⟩, c'⟩ := s3; simp only at h3; subst h3; exact number_wp' hd)
    refine wp_bind this fun _ s4 h4 => wp_pure ?_
    unfold plen llen at *; omega
  refine wp_ite (fun hd => ?_) (fun _ => fail_wp)
  refine wp_un' fun s3 h3 => ?_
  refine wp_mono (identExpr_wp hd h3) fun _ s4 h4 => ?_
  unfold plen at *; rw [h3] at h4; simp only [List.length_cons] at h4; omega

theorem argsBody_wp {as : List Val} {s : PS} (h : RecOk rec N) (hs : plen s < N) :
    wp (argsBody rec as) s (Dec plen 1 s) := by
  refine wp_re fun c s1 h1 => ?_
  refine wp_ite (fun _ => wp_pure (by simp only [Dec]; omega)) (fun _ => ?_)
  refine wp_un fun s2 h2 => ?_
  refine wp_rec h (by omega) fun _ s3 h3 => ?_
  refine wp_ws fun s4 h4 => ?_
  refine wp_re fun c s5 h5 => ?_
  refine wp_ite (fun _ => wp_pure (by simp only [Dec]; omega)) (fun _ => ?_)
  refine wp_ite (fun _ => fail_wp) (fun _ => wp_pure (by simp only [Dec]; omega))

theorem postfixOp_dec {ch : Char} {o : BinOp} {v : LV} {s s0 : PS} (h0 : plen s < plen s0) :
    wp (postfixOp ch o v) s (DecP s0) := by
  refine wp_rd (fun c s2 h2 => ?_) (fun s2 h2 => ?_) (fun s2 h2 => ?_)
  · refine wp_ite (fun _ => ?_) (fun _ => ?_)
    · exact wp_un fun s3 h3 => wp_un fun s4 h4 => wp_pure (by simp only [DecP, Dec]; omega)
    refine wp_ite (fun _ => fail_wp) (fun _ => ?_)
    exact wp_bd (NF.genPostfix _ _) fun _ s3 h3 => wp_pure (by simp only [DecP, Dec]; omega)
  · exact wp_un fun s3 h3 => wp_pure (by simp only [DecP, Dec]; omega)
  · exact wp_un fun s3 h3 => wp_pure (by simp only [DecP, Dec]; omega)

theorem postfixBody_dec {n : Nat} {v : LV} {s : PS} (h : RecOk rec N) (hs : plen s < N + 1) (hn : plen s ≤ n) :
    wp (postfixBody rec n v) s (DecP s) := by
  refine wp_ws fun s1 h1 => ?_
  refine wp_rd (fun c s2 h2 => ?_) (fun s2 h2 => wp_pure (by simp only [DecP, Dec]; omega)) (fun s2 h2 => io_wp)
  refine wp_ite (fun _ => ?_) (fun _ => ?_)
  · refine wp_bd (NF.rval _) fun x s3 h3 => ?_
    refine wp_bd (NF.emit _) fun x s4 h4 => ?_
    refine wp_rec h (by omega) fun _ s5 h5 => ?_
    refine wp_exp fun s6 h6 => ?_
    exact wp_bd (NF.emit _) fun x s4 h4 => wp_pure (by simp only [DecP, Dec]; omega)
  refine wp_ite (fun _ => ?_) (fun _ => ?_)
  · refine wp_bd (NF.rval _) fun x s3 h3 => ?_
    refine wp_bind (wp_loop plen 1 (fun b s' hle => argsBody_wp h (by omega)) (by omega) _) fun _ s4 h4 => ?_
    exact wp_bd (NF.genCall _ _) fun x s4 h4 => wp_pure (by simp only [DecP, Dec]; omega)
  refine wp_ite (fun _ => postfixOp_dec (by omega)) (fun _ => ?_)
  refine wp_ite (fun _ => postfixOp_dec (by omega)) (fun _ => ?_)
  exact wp_un fun s3 h3 => wp_pure (by simp only [DecP, Dec]; omega)

theorem parsePostfix_wp {n : Nat} {s : PS} (h : RecOk rec N) (hs : plen s < N + 1) (hn : plen s ≤ n) :
    wp (parsePostfix rec n) s fun _ s' => plen s' < plen s := by
  refine wp_bind (parsePrimary_wp h hs) fun v s1 h1 => ?_
  refine wp_mono (wp_loop plen 0 (fun b s' hle => postfixBody_dec h (by omega) (by omega)) (by omega) _) fun _ s2 h2 => ?_
  omega

theorem parseUnary_wp (h : RecOk rec N) : ∀ (n : Nat) (s : PS), plen s < N + 1 → plen s < n →
    wp (parseUnary rec n) s fun _ s' => plen s' < plen s
  | 0, s, _, hn => by omega
  | n + 1, s, hs, hn => by
    have ih := parseUnary_wp h n
    refine wp_ws fun s1 h1 => ?_
    refine wp_rd (fun c s2 h2 => ?_) (fun s2 h2 => fail_wp) (fun s2 h2 => io_wp)
    refine wp_ite (fun _ => ?_) (fun _ => ?_)
    · refine wp_bind (ih s2 (by omega) (by omega)) fun _ s3 h3 => ?_
      exact wp_bd (NF.genNot _) fun _ s4 h4 => wp_pure (by omega)
    refine wp_ite (fun _ => ?_) (fun _ => ?_)
    · refine wp_rdw fun r s3 h3 => ?_
      refine wp_ite (fun _ => ?_) (fun _ => ?_)
      · refine wp_bind (ih s3 (by omega) (by omega)) fun _ s4 h4 => ?_
        refine wp_ite (fun _ => fail_wp) (fun _ => ?_)
        exact wp_bd (NF.genPrefix _ _) fun _ s4 h4 => wp_pure (by omega)
      · refine wp_unRC fun s4 h4 => ?_
        refine wp_bind (ih s4 (by omega) (by omega)) fun _ s5 h5 => ?_
        exact wp_bd (NF.genNeg _) fun _ s4 h4 => wp_pure (by omega)
    refine wp_ite (fun _ => ?_) (fun _ => ?_)
    · refine wp_rd (fun c s3 h3 => ?_) (fun s3 h3 => fail_wp) (fun s2 h2 => fail_wp)
      refine wp_ite (fun _ => fail_wp) (fun _ => ?_)
      refine wp_bind (ih s3 (by omega) (by omega)) fun _ s4 h4 => ?_
      refine wp_ite (fun _ => fail_wp) (fun _ => ?_)
      exact wp_bd (NF.genPrefix _ _) fun _ s4 h4 => wp_pure (by omega)
    refine wp_ite (fun _ => ?_) (fun _ => ?_)
    · refine wp_bind (ih s2 (by omega) (by omega)) fun _ s3 h3 => ?_
      exact wp_bd (NF.genDeref _) fun _ s4 h4 => wp_pure (by omega)
    refine wp_ite (fun _ => ?_) (fun _ => ?_)
    · refine wp_bind (ih s2 (by omega) (by omega)) fun _ s3 h3 => ?_
      refine wp_ite (fun _ => fail_wp) (fun _ => ?_)
      exact wp_bd (NF.emit _) fun _ s4 h4 => wp_pure (by omega)
    refine wp_un fun s3 h3 => ?_
    exact wp_mono (parsePostfix_wp h (by omega) (by omega)) fun _ s4 h4 => by omega

end

theorem parseExpr_wp : ∀ (n N : Nat), N < n → RecOk (parseExpr n) N
  | _, 0, _ => by intro lvl s hs; omega
  | 0, N + 1, h => by omega
  | n + 1, N + 1, h => by
    intro lvl s hs
    have ih := parseExpr_wp n N (by omega)
    refine wp_bind (parseUnary_wp ih n s hs (by omega)) fun v s1 h1 => ?_
    refine wp_mono (wp_loop plen 0 (fun b s' hle => exprBody_dec ih (by omega)) (by omega) _) fun _ s2 h2 => ?_
    omega

/-! ### statements -/

/-- an expression parsed with enough fuel -/
theorem wp_expr {β : Type} {n : Nat} {k : Val → P β} {s : PS} {Q : β → PS → Prop} (hn : plen s + 1 < n)
    (h1 : ∀ v s', plen s' < plen s → wp (k v) s' Q) : wp (parseExpression n >>= k) s Q :=
  wp_bind (parseExpr_wp n (plen s + 1) hn 15 s (by omega)) h1

theorem wp_lx {α β : Type} {f : L α} {k : α → P β} {s : PS} {Q : β → PS → Prop} {A : α → Lex → Prop}
    (h : wp f s.lex A) (h1 : ∀ a (s' : PS), A a s'.lex → wp (k a) s' Q) : wp (lx f >>= k) s Q :=
  wp_bind (lx_wp h) h1

theorem orMsg_wp {α : Type} {f : L α} {m : String} {l : Lex} {Q : α → Lex → Prop} (h : wp f l Q) : wp (orMsg f m) l Q := by
  unfold wp orMsg at *
  cases hf : f l with
  | ok a l' => rw [hf] at h; exact h
  | err e => simp

theorem identOr_wp (m : String) (l : Lex) : wp (identOr m) l fun _ l' => llen l' < llen l := by
  refine wp_bind (orMsg_wp (identifier_wp l)) fun n l1 h1 => ?_
  refine wp_ite (fun _ => wp_throw (by simp)) (fun hn => wp_pure ?_)
  have := List.length_pos_iff.2 hn
  omega

theorem sizeConst_wp (c : Char) (l : Lex) : wp (sizeConst c) l fun _ l' => llen l' ≤ llen l + 1 := by
  refine wp_ite (fun _ => wp_mono (character_wp l) fun _ _ _ => by omega) (fun _ => ?_)
  refine wp_bind (unreadChar_wp c l) fun _ l1 h1 => ?_
  exact wp_mono (number_wp l1) fun _ _ _ => by omega

theorem autoSize_wp (l : Lex) : wp autoSize l fun _ l' => llen l' ≤ llen l := by
  refine wp_bind (whitespace_wp l) fun _ l1 h1 => ?_
  refine wp_bind (readOrErr_wp l1) fun c l2 h2 => ?_
  refine wp_ite (fun _ => ?_) (fun _ => wp_pure (by omega))
  refine wp_bind (sizeConst_wp c l2) fun _ l3 h3 => ?_
  refine wp_bind (whitespace_wp l3) fun _ l4 h4 => ?_
  refine wp_bind (expectChar_wp _ _ l4) fun _ l5 h5 => wp_pure (by omega)

theorem autoBody_wp (ds : List (Name × W)) (s : PS) : wp (autoBody ds) s (Dec plen 1 s) := by
  refine wp_lx (identOr_wp _ _) fun x s1 h1 => ?_
  have h1 : plen s1 < plen s := h1
  refine wp_bind (wp_get (s := s1) (Q := fun a b => a = s1 ∧ b = s1) ⟨rfl, rfl⟩) ?_
  rintro _ _ ⟨rfl, rfl⟩
  refine wp_ite (fun _ => fail_wp) (fun _ => ?_)
  refine wp_ite (fun _ => fail_wp) (fun _ => ?_)
  refine wp_ws fun s2 h2 => ?_
  refine wp_re fun c s3 h3 => ?_
  refine wp_ite (fun _ => ?_) (fun _ => ?_)
  · refine wp_lx (autoSize_wp _) fun w s4 h4 => ?_
    have h4 : plen s4 ≤ plen s3 := h4
    refine wp_ws fun s5 h5 => ?_
    refine wp_re fun c s6 h6 => ?_
    refine wp_ite (fun _ => wp_pure (by simp only [Dec]; omega)) (fun _ => ?_)
    exact wp_ite (fun _ => fail_wp) (fun _ => wp_pure (by simp only [Dec]; omega))
  refine wp_ite (fun _ => fail_wp) (fun _ => ?_)
  exact wp_ite (fun _ => wp_pure (by simp only [Dec]; omega)) (fun _ => wp_pure (by simp only [Dec]; omega))

theorem parseAuto_wp {n : Nat} {s : PS} (hn : plen s < n) : wp (parseAuto n) s fun _ s' => plen s' < plen s := by
  refine wp_bind (wp_loop plen 1 (fun b s' _ => autoBody_wp b s') hn _) fun ds s1 h1 => ?_
  refine wp_mono (bd_wp (NF.declareAll ds) s1) fun _ s2 h2 => ?_
  unfold plen at *; rw [h2]; omega

theorem extrnBody_wp (u : Unit) (s : PS) : wp (extrnBody u) s (Dec plen 1 s) := by
  refine wp_lx (identOr_wp _ _) fun x s1 h1 => ?_
  have h1 : plen s1 < plen s := h1
  refine wp_bd (NF.declareExtrn _) fun _ s2 h2 => ?_
  refine wp_ws fun s3 h3 => ?_
  refine wp_re fun c s4 h4 => ?_
  refine wp_ite (fun _ => wp_pure (by simp only [Dec]; omega)) (fun _ => ?_)
  exact wp_ite (fun _ => fail_wp) (fun _ => wp_pure (by simp only [Dec]; omega))

theorem parseExtrn_wp {n : Nat} {s : PS} (hn : plen s < n) : wp (parseExtrn n) s fun _ s' => plen s' < plen s :=
  wp_mono (wp_loop plen 1 (fun b s' _ => extrnBody_wp b s') hn _) fun _ s1 h1 => by omega

theorem exp_wp {c : Char} {m : String} {s : PS} : wp (lx (expectChar c m)) s fun _ s' => plen s' < plen s :=
  lx_wp (expectChar_wp c m s.lex)

theorem parseGoto_wp {s : PS} : wp parseGoto s fun _ s' => plen s' < plen s := by
  refine wp_lx (identOr_wp _ _) fun x s1 h1 => ?_
  have h1 : plen s1 < plen s := h1
  refine wp_bd (NF.getOrCreateLabel _) fun _ s2 h2 => ?_
  refine wp_bd (NF.setTerm _) fun _ s3 h3 => ?_
  refine wp_bind (wp_get (s := s3) (Q := fun a b => a = s3 ∧ b = s3) ⟨rfl, rfl⟩) ?_
  rintro _ _ ⟨rfl, rfl⟩
  refine wp_bd (NF.newBlock _) fun _ s4 h4 => ?_
  refine wp_bd NF.freshLabelID fun _ s5 h5 => ?_
  refine wp_bd (NF.setInsertPoint _) fun _ s6 h6 => ?_
  refine wp_ws fun s7 h7 => ?_
  exact wp_mono exp_wp fun _ _ _ => by omega

theorem parseReturn_wp {n : Nat} {s : PS} (hn : plen s + 1 < n) : wp (parseReturn n) s fun _ s' => plen s' < plen s := by
  refine wp_re fun c s1 h1 => ?_
  have bdlast : ∀ (t : Term) (s2 : PS), plen s2 < plen s → wp (bd (setTerm t)) s2 fun _ s' => plen s' < plen s := by
    intro t s2 h2
    refine wp_mono (bd_wp (NF.setTerm t) s2) fun _ s3 h3 => ?_
    unfold plen at *; rw [h3]; omega
  refine wp_ite (fun _ => ?_) (fun _ => bdlast _ _ (by omega))
  refine wp_ite (fun _ => fail_wp) (fun _ => ?_)
  refine wp_expr (by omega) fun v s2 h2 => ?_
  refine wp_ws fun s3 h3 => ?_
  refine wp_exp fun s4 h4 => ?_
  refine wp_ws fun s5 h5 => ?_
  refine wp_exp fun s6 h6 => ?_
  exact bdlast _ _ (by omega)

theorem readElse_wp : ∀ (es acc : List Char) (l : Lex), wp (readElse es acc) l fun r l' => llen l' + r.2.length = llen l + acc.length
  | [], acc, l => wp_pure rfl
  | e :: es, acc, l => by
    refine wp_bind (readChar_wp l) fun r l1 h => ?_
    rcases h with ⟨c, rfl, h⟩ | ⟨h, rfl⟩
    · refine wp_ite (fun _ => wp_pure (by simp; omega)) (fun _ => ?_)
      refine wp_mono (readElse_wp es _ l1) fun r l2 h2 => ?_
      simp only [List.length_append, List.length_cons, List.length_nil] at h2; omega
    · cases r with
      | ch c => exact absurd rfl (h c)
      | eof => exact wp_pure (by simp)
      | io => exact wp_pure (by simp)

theorem afterElse_wp (b : Bool × List Char) (l : Lex) : wp (afterElse b) l fun r l' => llen l' + r.2.length = llen l + b.2.length := by
  refine wp_ite (fun _ => ?_) (fun _ => wp_pure rfl)
  refine wp_bind (readChar_wp l) fun r l1 h => ?_
  rcases h with ⟨c, rfl, h⟩ | ⟨h, rfl⟩
  · exact wp_pure (by simp; omega)
  · cases r with
    | ch c => exact absurd rfl (h c)
    | eof => exact wp_pure (by simp)
    | io => exact wp_pure (by simp)

theorem unreadAll_wp (x : List Char) (l : Lex) : wp (unreadAll x) l fun _ l' => l' = ⟨x ++ l.chars, l.tail⟩ := by
  unfold wp; rw [unreadAll_ok]

theorem tryElse_wp (l : Lex) : wp tryElse l fun _ l' => llen l' ≤ llen l := by
  refine wp_bind (readElse_wp _ _ l) fun r l1 h1 => ?_
  refine wp_bind (afterElse_wp r l1) fun r l2 h2 => ?_
  simp only [List.length_nil] at h1
  refine wp_ite (fun _ => wp_pure (by omega)) (fun _ => ?_)
  refine wp_bind (unreadAll_wp _ l2) fun _ l3 h3 => wp_pure ?_
  subst h3
  simp only [llen, List.length_append] at *; omega

/-- `stmt` works on texts of less than `N` characters and consumes something -/
def StmtOk (stmt : Option Nat → Cases → P Cases) (N : Nat) : Prop :=
  ∀ sw cs s, plen s < N → wp (stmt sw cs) s fun _ s' => plen s' < plen s

section
variable {stmt : Option Nat → Cases → P Cases} {N n : Nat}

theorem sub_wp (h : StmtOk stmt N) {s : PS} (hs : plen s < N) :
    wp (do let _ ← stmt none [] : P Unit) s fun _ s' => plen s' < plen s :=
  wp_bind (h none [] s hs) fun _ s1 h1 => wp_pure h1

theorem parseIf_wp {sub : P Unit} (h : ∀ s, plen s < N → wp sub s fun _ s' => plen s' < plen s) {s : PS}
    (hs : plen s < N) (hn : plen s + 1 < n) : wp (parseIf sub n) s fun _ s' => plen s' < plen s := by
  refine wp_exp fun s1 h1 => ?_
  refine wp_expr (by omega) fun v s2 h2 => ?_
  refine wp_ws fun s3 h3 => ?_
  refine wp_exp fun s4 h4 => ?_
  refine wp_bd NF.freshLabelID fun _ s5 h5 => ?_
  refine wp_bd (NF.newBlock _) fun _ s6 h6 => ?_
  refine wp_bd (NF.newBlock _) fun _ s7 h7 => ?_
  refine wp_bd (NF.newBlock _) fun _ s8 h8 => ?_
  refine wp_bd (NF.emit _) fun _ s9 h9 => ?_
  refine wp_bd (NF.setTerm _) fun _ s10 h10 => ?_
  refine wp_bd (NF.setInsertPoint _) fun _ s11 h11 => ?_
  refine wp_bind (h s11 (by omega)) fun _ s12 h12 => ?_
  refine wp_bd (NF.brIfOpen _) fun _ s13 h13 => ?_
  refine wp_bd (NF.setInsertPoint _) fun _ s14 h14 => ?_
  refine wp_ws fun s15 h15 => ?_
  refine wp_lx (tryElse_wp _) fun b s16 h16 => ?_
  have h16 : plen s16 ≤ plen s15 := h16
  refine wp_bind (P := fun _ s' => plen s' ≤ plen s16) (wp_ite (fun _ => wp_mono (h s16 (by omega)) fun _ _ _ => by omega)
    (fun _ => wp_pure (Nat.le_refl _))) fun _ s17 h17 => ?_
  refine wp_bd (NF.brIfOpen _) fun _ s18 h18 => ?_
  refine wp_mono (bd_wp (NF.setInsertPoint _) s18) fun _ s19 h19 => ?_
  have : plen s19 = plen s18 := by unfold plen; rw [h19]
  omega

theorem parseWhile_wp {sub : P Unit} (h : ∀ s, plen s < N → wp sub s fun _ s' => plen s' < plen s) {s : PS}
    (hs : plen s < N) (hn : plen s + 1 < n) : wp (parseWhile sub n) s fun _ s' => plen s' < plen s := by
  refine wp_exp fun s1 h1 => ?_
  refine wp_bd NF.freshLabelID fun _ s5 h5 => ?_
  refine wp_bd (NF.newBlock _) fun _ s6 h6 => ?_
  refine wp_bd (NF.newBlock _) fun _ s7 h7 => ?_
  refine wp_bd (NF.newBlock _) fun _ s8 h8 => ?_
  refine wp_bd (NF.setTerm _) fun _ s10 h10 => ?_
  refine wp_bd (NF.setInsertPoint _) fun _ s11 h11 => ?_
  refine wp_expr (by omega) fun v s2 h2 => ?_
  refine wp_ws fun s3 h3 => ?_
  refine wp_exp fun s4 h4 => ?_
  refine wp_bd (NF.emit _) fun _ s9 h9 => ?_
  refine wp_bd (NF.setTerm _) fun _ s12 h12 => ?_
  refine wp_bd (NF.setInsertPoint _) fun _ s13 h13 => ?_
  refine wp_bind (h s13 (by omega)) fun _ s14 h14 => ?_
  refine wp_bd (NF.brIfOpen _) fun _ s18 h18 => ?_
  refine wp_mono (bd_wp (NF.setInsertPoint _) s18) fun _ s19 h19 => ?_
  have : plen s19 = plen s18 := by unfold plen; rw [h19]
  omega

theorem parseSwitch_wp (h : StmtOk stmt N) {s : PS}
    (hs : plen s < N) (hn : plen s + 1 < n) : wp (parseSwitch stmt n) s fun _ s' => plen s' < plen s := by
  refine wp_bd NF.freshLabelID fun _ s5 h5 => ?_
  refine wp_expr (by omega) fun v s2 h2 => ?_
  refine wp_bd (NF.newBlock _) fun _ s6 h6 => ?_
  refine wp_bd (NF.newBlock _) fun _ s7 h7 => ?_
  refine wp_bd (NF.newBlock _) fun _ s8 h8 => ?_
  refine wp_bd (NF.setTerm _) fun _ s10 h10 => ?_
  refine wp_bd (NF.setInsertPoint _) fun _ s11 h11 => ?_
  refine wp_bind (h _ _ s11 (by omega)) fun _ s14 h14 => ?_
  refine wp_bd (NF.brIfOpen _) fun _ s18 h18 => ?_
  refine wp_bd (NF.setInsertPoint _) fun _ s15 h15 => ?_
  refine wp_bd (NF.switchTerm _ _ _ _) fun _ s16 h16 => ?_
  refine wp_mono (bd_wp (NF.setInsertPoint _) s16) fun _ s19 h19 => ?_
  have : plen s19 = plen s16 := by unfold plen; rw [h19]
  omega

theorem caseConst_wp (l : Lex) : wp caseConst l fun _ l' => llen l' ≤ llen l := by
  refine wp_bind (readOrErr_wp l) fun c l1 h1 => ?_
  refine wp_ite (fun _ => wp_mono (character_wp l1) fun _ _ _ => by omega) (fun _ => ?_)
  refine wp_ite (fun _ => ?_) (fun _ => wp_throw (by simp))
  refine wp_bind (unreadChar_wp c l1) fun _ l2 h2 => ?_
  exact wp_mono (number_wp l2) fun _ _ _ => by omega

theorem parseCase_wp (h : StmtOk stmt N) {sw : Option Nat} {cs : Cases} {s : PS} (hs : plen s < N) :
    wp (parseCase stmt sw cs) s fun _ s' => plen s' < plen s := by
  cases sw with
  | none => exact fail_wp
  | some k =>
    refine wp_lx (caseConst_wp _) fun _ s1 h1 => ?_
    have h1 : plen s1 ≤ plen s := h1
    refine wp_ws fun s2 h2 => ?_
    refine wp_exp fun s3 h3 => ?_
    refine wp_bd (NF.getOrCreateLabel _) fun _ s4 h4 => ?_
    refine wp_bd (NF.brIfOpen _) fun _ s5 h5 => ?_
    refine wp_bd (NF.setInsertPoint _) fun _ s6 h6 => ?_
    exact wp_mono (h _ _ s6 (by omega)) fun _ _ _ => by omega

/-- what an expression statement consumes is a prefix of the text -/
theorem lexes_suffix {q : Bool} {a b : List Char} {t : Tok} (h : Lexes q a t b) (ht : ∀ w, t ≠ .head w) : ∃ p, a = p ++ b := by
  cases h with
  | num _ _ _ => exact ⟨_, rfl⟩
  | @chr t rest vs _ _ => exact ⟨'\'' :: t ++ ['\''], by simp⟩
  | @str t rest vs _ => exact ⟨'"' :: t ++ ['"'], by simp⟩
  | word _ _ _ | defn _ _ _ => exact ⟨_, rfl⟩
  | head _ _ _ _ => exact absurd rfl (ht _)
  | headQuirk _ _ _ _ _ _ _ _ _ _ => exact absurd rfl (ht _)
  | @els c rest _ => exact ⟨['e', 'l', 's', 'e', c], rfl⟩
  | elsEnd => exact ⟨['e', 'l', 's', 'e'], rfl⟩
  | @elsQuirk c rest _ _ _ => exact ⟨['e', 'l', 's', 'e', c], rfl⟩
  | sym _ _ => exact ⟨_, rfl⟩
  | @symNul s rest _ _ => exact ⟨s ++ ['\x00'], by simp⟩

theorem tokSeq_suffix {q : Bool} {a b : List Char} {ts : List Tok} (h : TokSeq q a ts b) (ht : ∀ w, Tok.head w ∉ ts) : ∃ p, a = p ++ b := by
  induction h with
  | nil _ => exact ⟨_, rfl⟩
  | @cons lay _ _ _ _ _ _ hl _ ih =>
    obtain ⟨p1, h1⟩ := lexes_suffix hl fun w e => ht w (by simp [e])
    obtain ⟨p2, h2⟩ := ih fun w hm => ht w (List.mem_cons_of_mem _ hm)
    exact ⟨lay ++ (p1 ++ p2), by rw [h1, h2]; simp⟩

mutual
theorem egram_noHead {pr : Bop → Nat} {L : Nat} {ts : List Tok} {e : Ex} (h : EGram pr L ts e) (w : List Char) : Tok.head w ∉ ts := by
  cases h with
  | num | chr | str | var _ => simp
  | paren h => have := egram_noHead h w; simpa using this
  | index _ h1 h2 => have a := egram_noHead h1 w; have b := egram_noHead h2 w; simp [a, b]
  | callName _ _ h2 => have b := agram_noHead h2 w; simp [b]
  | call _ h1 _ h2 => have a := egram_noHead h1 w; have b := agram_noHead h2 w; simp [a, b]
  | post _ h1 => have a := egram_noHead h1 w; simp [a]
  | pre _ h1 => have a := egram_noHead h1 w; simp [a]
  | not _ h1 => have a := egram_noHead h1 w; simp [a]
  | neg _ h1 => have a := egram_noHead h1 w; simp [a]
  | deref _ h1 => have a := egram_noHead h1 w; simp [a]
  | addr _ h1 => have a := egram_noHead h1 w; simp [a]
  | bin _ h1 h2 => have a := egram_noHead h1 w; have b := egram_noHead h2 w; simp [a, b]
  | cond _ h1 h2 h3 => have a := egram_noHead h1 w; have b := egram_noHead h2 w; have c := egram_noHead h3 w; simp [a, b, c]
  | assign _ h1 h2 => have a := egram_noHead h1 w; have b := egram_noHead h2 w; simp [a, b]
  | assignOp _ h1 h2 => have a := egram_noHead h1 w; have b := egram_noHead h2 w; simp [a, b]
theorem agram_noHead {pr : Bop → Nat} {ts : List Tok} {es : List Ex} (h : AGram pr ts es) (w : List Char) : Tok.head w ∉ ts := by
  cases h with
  | nil => simp
  | last h => have a := egram_noHead h w; simp [a]
  | cons h1 h2 => have a := egram_noHead h1 w; have b := agram_noHead h2 w; simp [a, b]
end

theorem exprStmt_wp {s : PS} (hn : plen s + 1 < n) : wp (exprStmt n) s fun _ s' => plen s' < plen s := by
  refine wp_expr hn fun v s1 h1 => ?_
  refine wp_ws fun s2 h2 => ?_
  exact wp_mono exp_wp fun _ _ _ => by omega

theorem exprStmt_rest {s s' : PS} (h : exprStmt n s = .ok () s') : ∃ p, s.lex.chars = p ++ ';' :: s'.lex.chars := by
  unfold exprStmt at h
  obind h v s1 h1
  obtain ⟨ts, e, g1, g2, g3, g4⟩ := exprE h1
  obind h _u2 s2 h2
  obtain ⟨w1, w2, w3⟩ := ws_ok h2
  obtain ⟨x1, x2, x3⟩ := exp_ok h
  obtain ⟨p, hp⟩ := tokSeq_suffix (g2.trans w1).1 (fun w => by simpa using egram_noHead g1 w)
  exact ⟨p, by rw [hp, x3]⟩

theorem utf8_ident {x : List Char} (h : ∀ c ∈ x, IdentChar c) : ';' ∉ utf8 x := by
  intro hm
  obtain ⟨c, hc, hcc⟩ := List.mem_flatMap.1 hm
  have := h c hc
  unfold utf8Char at hcc
  split at hcc
  · simp at hcc; subst hcc; revert this; decide
  · rename_i hn
    simp at hcc
    have e : ∀ k, k < 256 → ';' = Char.ofNat k → k = 59 := by
      intro k hk he
      have h1 := congrArg Char.toNat he
      rw [charOfNat_toNat (v := k) (by omega)] at h1
      exact h1.symm
    rcases hcc with hcc | hcc
    · have := e _ (by omega) hcc; omega
    · have := e _ (by omega) hcc; omega

theorem utf8_length (x : List Char) : (utf8 x).length ≤ 2 * x.length := by
  induction x with
  | nil => exact Nat.le_refl _
  | cons c x ih =>
    have : (utf8Char c).length ≤ 2 := by unfold utf8Char; split <;> simp
    simp only [utf8, List.flatMap_cons, List.length_append, List.length_cons] at *
    omega

theorem identifier_chars {l l' : Lex} {x : Name} (h : identifier l = .ok x l') : ∀ c ∈ x, IdentChar c := by
  obtain ⟨lay, h1, h2, h3, h4, _⟩ := identifier_ok h
  assumption

theorem suffix_lt {u p r b : List Char} (h : u ++ r = p ++ ';' :: b) (hu : ';' ∉ u) : b.length < r.length := by
  rcases Nat.lt_or_ge p.length u.length with hl | hl
  · exfalso
    have h1 : (u ++ r)[p.length]? = some ';' := by rw [h]; simp
    rw [List.getElem?_append_left hl] at h1
    exact hu (List.mem_of_getElem? h1)
  · have := congrArg List.length h
    simp only [List.length_append, List.length_cons] at this
    omega

theorem parseKeyword_wp (h : StmtOk stmt N) {sw : Option Nat} {cs : Cases} {c : Char} {s0 s : PS}
    (hc : isLetter c = true) (hch : s.lex.chars = c :: s0.lex.chars)
    (hs : plen s < N + 1) (hn : 2 * plen s + 1 < n) :
    wp (parseKeyword stmt n sw cs) s fun _ s' => plen s' < plen s := by
  have id := un_rd_id hc hch
  refine wp_bind (wp_ok (Q := fun x s' => (plen s' + x.length ≤ plen s ∧ plen s' < plen s) ∧ ∀ c ∈ x, IdentChar c) id
    (fun x s' e h => ⟨h, ?_⟩)) ?_
  · obtain ⟨e1, _⟩ := lx_ok e
    exact identifier_chars e1
  intro x s1 h1
  obtain ⟨h1, hx⟩ := h1
  refine wp_ws fun s2 h2 => ?_
  have sub : ∀ s, plen s < N → wp (do let _ ← stmt none [] : P Unit) s fun _ s' => plen s' < plen s := fun s hs => sub_wp h hs
  have fin : ∀ {f : P Unit} , wp f s2 (fun _ s' => plen s' < plen s2) → wp (do f; pure cs : P Cases) s2 fun _ s' => plen s' < plen s := by
    intro f hf
    exact wp_bind hf fun _ s3 h3 => wp_pure (by omega)
  refine wp_ite (fun _ => fin (parseReturn_wp (by omega))) (fun _ => ?_)
  refine wp_ite (fun _ => fin (parseAuto_wp (by omega))) (fun _ => ?_)
  refine wp_ite (fun _ => fin (parseExtrn_wp (by omega))) (fun _ => ?_)
  refine wp_ite (fun _ => fin (parseIf_wp sub (by omega) (by omega))) (fun _ => ?_)
  refine wp_ite (fun _ => fin (parseWhile_wp sub (by omega) (by omega))) (fun _ => ?_)
  refine wp_ite (fun _ => fin (parseSwitch_wp h (by omega) (by omega))) (fun _ => ?_)
  refine wp_ite (fun _ => wp_mono (parseCase_wp h (by omega)) fun _ _ _ => by omega) (fun _ => ?_)
  refine wp_ite (fun _ => fin parseGoto_wp) (fun _ => ?_)
  refine wp_re fun c2 s3 h3 => ?_
  refine wp_ite (fun _ => ?_) (fun _ => ?_)
  · refine wp_bd (NF.getOrCreateLabel _) fun _ s4 h4 => ?_
    refine wp_bd (NF.brIfOpen _) fun _ s5 h5 => ?_
    refine wp_bd (NF.setInsertPoint _) fun _ s6 h6 => ?_
    exact wp_mono (h _ _ s6 (by omega)) fun _ _ _ => by omega
  · refine wp_un' fun s4 h4 => ?_
    refine wp_lx (unreadAll_wp _ _) fun _ s5 h5 => ?_
    have e5 : s5.lex.chars = utf8 x ++ (c2 :: s3.lex.chars) := by rw [h5]; simp [h4]
    have l5 : plen s5 = (utf8 x).length + (plen s3 + 1) := by unfold plen; rw [e5]; simp
    have := utf8_length x
    refine wp_bind (wp_ok (Q := fun _ s' => plen s' < plen s) (exprStmt_wp (by omega)) fun _ s6 h6 h7 => ?_) fun _ s6 h6 => wp_pure h6
    obtain ⟨p, hp⟩ := exprStmt_rest h6
    rw [e5] at hp
    have := suffix_lt hp (utf8_ident hx)
    unfold plen at *
    simp only [List.length_cons] at this; omega

theorem blockBody_wp (h : StmtOk stmt N) {sw : Option Nat} {cs : Cases} {s : PS} (hs : plen s < N) :
    wp (blockBody stmt sw cs) s (Dec plen 1 s) := by
  refine wp_ws fun s1 h1 => ?_
  refine wp_re fun c s2 h2 => ?_
  refine wp_ite (fun _ => wp_pure (by simp only [Dec]; omega)) (fun _ => ?_)
  refine wp_un fun s3 h3 => ?_
  refine wp_bind (h _ _ s3 (by omega)) fun _ s4 h4 => wp_pure ?_
  simp only [Dec]; omega

end

theorem parseStmt_wp : ∀ (n N : Nat), 2 * N < n → StmtOk (parseStmt n) N
  | _, 0, _ => by intro sw cs s hs; omega
  | 0, N + 1, h => by omega
  | n + 1, N + 1, h => by
    intro sw cs s hs
    have ih := parseStmt_wp n N (by omega)
    refine wp_ws fun s1 h1 => ?_
    refine wp_re fun c s2 h2 => ?_
    refine wp_ite (fun _ => ?_) (fun _ => ?_)
    · refine wp_mono (wp_loop plen 1 (fun b s' hle => blockBody_wp ih (by omega)) (by omega) _) fun _ s3 h3 => by omega
    refine wp_ite (fun _ => wp_pure (by omega)) (fun _ => ?_)
    refine wp_ite (fun hc => ?_) (fun _ => ?_)
    · refine wp_un' fun s3 h3 => ?_
      have l3 : plen s3 = plen s2 + 1 := by unfold plen; rw [h3]; simp
      exact wp_mono (parseKeyword_wp ih hc h3 (by omega) (by omega)) fun _ _ _ => by omega
    · refine wp_un fun s3 h3 => ?_
      refine wp_bind (exprStmt_wp (by omega)) fun _ s4 h4 => wp_pure (by omega)

/-! ### declarations -/

theorem parseIvalConst_wp (s : PS) : wp parseIvalConst s fun _ s' => plen s' ≤ plen s := by
  refine wp_re fun c s1 h1 => ?_
  refine wp_ite (fun _ => ?_) (fun _ => ?_)
  · refine wp_un fun s2 h2 => ?_
    exact wp_lx (identOr_wp _ _) fun _ s3 h3 => fail_wp
  refine wp_ite (fun _ => ?_) (fun _ => ?_)
  · refine wp_lx (orMsg_wp (character_wp _)) fun _ s3 h3 => wp_pure ?_
    have h3 : plen s3 < plen s1 := h3
    omega
  refine wp_ite (fun _ => ?_) (fun _ => ?_)
  · refine wp_lx (stringLit_wp _) fun _ s3 h3 => ?_
    have h3 : plen s3 < plen s1 := h3
    exact wp_bd (NF.createStringConstant _) fun _ s4 h4 => wp_pure (by omega)
  refine wp_ite (fun _ => ?_) (fun _ => ?_)
  · refine wp_lx (orMsg_wp (number_wp _)) fun _ s3 h3 => wp_pure ?_
    have h3 : plen s3 ≤ plen s1 := h3
    omega
  refine wp_un fun s2 h2 => ?_
  refine wp_lx (orMsg_wp (number_wp _)) fun _ s3 h3 => wp_pure ?_
  have h3 : plen s3 ≤ plen s2 := h3
  omega

theorem ivalBody_wp (vs : List Const) (s : PS) : wp (ivalBody vs) s (Dec plen 1 s) := by
  refine wp_ws fun s1 h1 => ?_
  refine wp_bind (parseIvalConst_wp s1) fun _ s2 h2 => ?_
  refine wp_ws fun s3 h3 => ?_
  refine wp_re fun c s4 h4 => ?_
  refine wp_ite (fun _ => wp_pure (by simp only [Dec]; omega)) (fun _ => ?_)
  exact wp_ite (fun _ => fail_wp) (fun _ => wp_pure (by simp only [Dec]; omega))

theorem parseGlobal_wp {n : Nat} {x : Name} {s : PS} (hn : plen s < n) : wp (parseGlobal n x) s fun _ s' => plen s' < plen s := by
  refine wp_bd (NF.modify _) fun _ s1 h1 => ?_
  refine wp_re fun c s2 h2 => ?_
  have bdlast : ∀ {f : B Unit} (s2 : PS), NF f → plen s2 < plen s → wp (bd f) s2 fun _ s' => plen s' < plen s := by
    intro f s2 hf h2
    refine wp_mono (bd_wp hf s2) fun _ s3 h3 => ?_
    unfold plen at *; rw [h3]; omega
  refine wp_ite (fun _ => ?_) (fun _ => bdlast _ (NF.modify _) (by omega))
  refine wp_un fun s3 h3 => ?_
  refine wp_bind (wp_loop plen 1 (fun b s' _ => ivalBody_wp b s') (by omega) _) fun vs s4 h4 => ?_
  split
  · exact bdlast _ (NF.modify _) (by omega)
  · exact bdlast _ (NF.modify _) (by omega)

theorem vectorSize_wp (l : Lex) : wp vectorSize l fun _ l' => llen l' ≤ llen l := by
  refine wp_bind (whitespace_wp l) fun _ l1 h1 => ?_
  refine wp_bind (readOrErr_wp l1) fun c l2 h2 => ?_
  refine wp_ite (fun _ => ?_) (fun _ => wp_pure (by omega))
  refine wp_bind (unreadChar_wp c l2) fun _ l3 h3 => ?_
  refine wp_bind (orMsg_wp (number_wp l3)) fun _ l4 h4 => ?_
  refine wp_bind (whitespace_wp l4) fun _ l5 h5 => ?_
  refine wp_bind (expectChar_wp _ _ l5) fun _ l6 h6 => wp_pure (by omega)

theorem parseVector_wp {n : Nat} {x : Name} {s : PS} (hn : plen s < n) : wp (parseVector n x) s fun _ s' => plen s' < plen s := by
  refine wp_bd (NF.modify _) fun _ s1 h1 => ?_
  refine wp_lx (vectorSize_wp _) fun w s2 h2 => ?_
  have h2 : plen s2 ≤ plen s1 := h2
  refine wp_ws fun s3 h3 => ?_
  refine wp_re fun c s4 h4 => ?_
  refine wp_bind (P := fun _ s' => plen s' < plen s3) (wp_ite (fun _ => ?_) (fun _ => wp_pure (by omega))) fun vs s5 h5 => ?_
  · refine wp_un fun s5 h5 => ?_
    exact wp_mono (wp_loop plen 1 (fun b s' _ => ivalBody_wp b s') (by omega) _) fun vs s4 h4 => by omega
  · refine wp_mono (bd_wp (NF.declareGlobalArray _ _ _) s5) fun _ s6 h6 => ?_
    have : plen s6 = plen s5 := by unfold plen; rw [h6]
    omega

theorem paramBody_wp (ps : List Name) (l : Lex) : wp (paramBody ps) l (Dec llen 1 l) := by
  refine wp_bind (whitespace_wp l) fun _ l1 h1 => ?_
  refine wp_bind (identOr_wp _ l1) fun _ l2 h2 => ?_
  refine wp_bind (whitespace_wp l2) fun _ l3 h3 => ?_
  refine wp_bind (readOrErr_wp l3) fun c l4 h4 => ?_
  refine wp_ite (fun _ => wp_pure (by simp only [Dec]; omega)) (fun _ => ?_)
  exact wp_ite (fun _ => wp_pure (by simp only [Dec]; omega)) (fun _ => wp_throw (by simp))

theorem paramList_wp {n : Nat} {c : Char} {l : Lex} (hn : llen l + 1 < n) : wp (paramList n c) l fun _ l' => llen l' ≤ llen l := by
  refine wp_ite (fun _ => ?_) (fun _ => wp_pure (Nat.le_refl _))
  refine wp_bind (unreadChar_wp c l) fun _ l1 h1 => ?_
  exact wp_mono (wp_loop llen 1 (fun b s' _ => paramBody_wp b s') (by omega) _) fun _ _ _ => by omega

theorem parseFunction_wp {n : Nat} {x : Name} {s : PS} (hn : 2 * (plen s + 1) < n) :
    wp (parseFunction n x) s fun _ s' => plen s' < plen s := by
  refine wp_re fun c s1 h1 => ?_
  refine wp_lx (paramList_wp (by unfold plen llen at *; omega)) fun ps s2 h2 => ?_
  have h2 : plen s2 ≤ plen s1 := h2
  refine wp_bd (NF.declareFunction _ _) fun fn s3 h3 => ?_
  refine wp_bd (NF.startFunction _) fun _ s4 h4 => ?_
  refine wp_bind (parseStmt_wp n (plen s + 1) hn _ _ s4 (by omega)) fun _ s5 h5 => ?_
  refine wp_mono (bd_wp NF.endFunction s5) fun _ s6 h6 => ?_
  have : plen s6 = plen s5 := by unfold plen; rw [h6]
  omega

theorem parseDecl_wp {n : Nat} {x : Name} {c : Char} {s : PS} (hn : 2 * (plen s + 1) < n) :
    wp (parseDecl n x c) s fun _ s' => plen s' ≤ plen s := by
  refine wp_ite (fun _ => wp_mono (parseFunction_wp hn) fun _ _ _ => by omega) (fun _ => ?_)
  refine wp_ite (fun _ => wp_mono (parseVector_wp (by omega)) fun _ _ _ => by omega) (fun _ => ?_)
  refine wp_un fun s1 h1 => ?_
  exact wp_mono (parseGlobal_wp (by omega)) fun _ _ _ => by omega

theorem declBody_wp {n : Nat} (u : Unit) {s : PS} (hn : 2 * plen s < n) : wp (declBody n u) s (DecP s) := by
  refine wp_lx (identifier_wp _) fun x s1 h1 => ?_
  have h1 : plen s1 + x.length ≤ plen s := h1
  refine wp_ite (fun _ => ?_) (fun hx => ?_)
  · exact wp_rd (fun c s2 h2 => fail_wp) (fun s2 h2 => wp_pure (by simp only [DecP, Dec]; omega)) (fun s2 h2 => io_wp)
  · have := List.length_pos_iff.2 hx
    refine wp_rd (fun c s2 h2 => ?_) (fun s2 h2 => fail_wp) (fun s2 h2 => io_wp)
    refine wp_bind (parseDecl_wp (by omega)) fun _ s3 h3 => ?_
    exact wp_bd (NF.modify _) fun _ s4 h4 => wp_pure (by simp only [DecP, Dec]; omega)

theorem parseDeclarations_wp {n : Nat} {s : PS} (hn : 2 * plen s < n) : wp (parseDeclarations n) s fun _ _ => True :=
  wp_mono (wp_loop plen 0 (fun b s' _ => declBody_wp b (by omega)) (by omega) ()) fun _ _ _ => trivial

/-! ### more fuel does not change the result -/

section
variable {σ α β ρ : Type}

/-- `g` does what `f` does, unless `f` runs out of fuel -/
def Ref (f g : M σ α) : Prop := ∀ s, f s ≠ .err .fuel → g s = f s

theorem Ref.refl (f : M σ α) : Ref f f := fun _ _ => rfl
theorem Ref.fuel (g : M σ α) : Ref (M.throw .fuel) g := fun _ h => absurd rfl h
theorem Ref.bind {f g : M σ α} {k l : α → M σ β} (h : Ref f g) (hk : ∀ a, Ref (k a) (l a)) : Ref (f >>= k) (g >>= l) := by
  intro s hs
  rw [M.bind_apply] at hs
  cases hf : f s with
  | ok a s' =>
    rw [hf] at hs
    have hg : g s = .ok a s' := by rw [h s (by rw [hf]; simp), hf]
    rw [M.bind_ok hf, M.bind_ok hg]
    exact hk a s' hs
  | err e =>
    rw [hf] at hs
    have hg : g s = .err e := by rw [h s (by rw [hf]; intro e2; cases e2; exact hs rfl), hf]
    rw [M.bind_err hf, M.bind_err hg]
theorem Ref.ite {c : Prop} [Decidable c] {f g f' g' : M σ α} (h1 : Ref f f') (h2 : Ref g g') :
    Ref (if c then f else g) (if c then f' else g') := by split <;> assumption
theorem Ref.loop {b1 b2 : β → M σ (Iter β ρ)} (hb : ∀ b, Ref (b1 b) (b2 b)) {n m : Nat} (hnm : n ≤ m) (b : β) :
    Ref (loop n b1 b) (loop m b2 b) := by
  induction n generalizing m b with
  | zero => exact Ref.fuel _
  | succ n ih =>
    obtain ⟨m, rfl⟩ : ∃ k, m = k + 1 := ⟨m - 1, by omega⟩
    refine Ref.bind (hb b) fun i => ?_
    cases i with
    | next b' => exact ih (by omega) b'
    | done r => exact Ref.refl _
theorem Ref.lx {f g : L α} (h : Ref f g) : Ref (lx f) (lx g) := by
  intro s hs
  unfold Blang.lx at *
  have : g s.lex = f s.lex := h s.lex fun e => hs (by rw [e])
  rw [this]
end

section
variable {r1 r2 : Nat → P Val}

theorem binary_ref (hr : ∀ l, Ref (r1 l) (r2 l)) (left : LV) (rl : Nat) (o : Op) : Ref (binary r1 left rl o) (binary r2 left rl o) := by
  refine Ref.bind (Ref.refl _) fun _ => Ref.bind (hr _) fun _ => Ref.refl _
theorem ternary_ref (hr : ∀ l, Ref (r1 l) (r2 l)) (left : LV) : Ref (ternary r1 left) (ternary r2 left) := by
  unfold ternary
  repeat' first | exact hr _ | exact Ref.refl _ | refine Ref.bind ?_ (fun _ => ?_)
theorem assignRest_ref (hr : ∀ l, Ref (r1 l) (r2 l)) (left : LV) (c : RC) : Ref (assignRest r1 left c) (assignRest r2 left c) := by
  unfold assignRest
  repeat' first | exact hr _ | exact Ref.refl _ | refine Ref.bind ?_ (fun _ => ?_) | refine Ref.ite ?_ ?_
theorem assignment_ref (hr : ∀ l, Ref (r1 l) (r2 l)) (left : LV) : Ref (assignment r1 left) (assignment r2 left) := by
  unfold assignment
  repeat' first | exact hr _ | exact assignRest_ref hr _ _ | exact Ref.refl _ | refine Ref.bind ?_ (fun _ => ?_) | refine Ref.ite ?_ ?_
theorem afterEq_ref (hr : ∀ l, Ref (r1 l) (r2 l)) (lvl : Nat) (left : LV) : Ref (afterEq r1 lvl left) (afterEq r2 lvl left) :=
  Ref.ite (assignment_ref hr left) (Ref.refl _)

macro "refe" h:ident : tactic => `(tactic| repeat' first
    | exact $h _ | exact binary_ref $h _ _ _ | exact ternary_ref $h _ | exact afterEq_ref $h _ _
    | exact Ref.refl _ | refine Ref.bind ?_ (fun _ => ?_) | refine Ref.ite ?_ ?_ | split)

theorem handleEq_ref (hr : ∀ l, Ref (r1 l) (r2 l)) (lvl : Nat) (left : LV) : Ref (handleEq r1 lvl left) (handleEq r2 lvl left) := by
  unfold handleEq; refe hr
theorem handleLt_ref (hr : ∀ l, Ref (r1 l) (r2 l)) (left : LV) : Ref (handleLt r1 left) (handleLt r2 left) := by
  unfold handleLt; refe hr
theorem handleGt_ref (hr : ∀ l, Ref (r1 l) (r2 l)) (left : LV) : Ref (handleGt r1 left) (handleGt r2 left) := by
  unfold handleGt; refe hr
theorem handleAdd_ref (hr : ∀ l, Ref (r1 l) (r2 l)) (ch : Char) (left : LV) : Ref (handleAdd r1 ch left) (handleAdd r2 ch left) := by
  unfold handleAdd; refe hr
theorem exprBody_ref (hr : ∀ l, Ref (r1 l) (r2 l)) (lvl : Nat) (left : LV) : Ref (exprBody r1 lvl left) (exprBody r2 lvl left) := by
  unfold exprBody
  refine Ref.bind (Ref.refl _) fun _ => Ref.bind (Ref.refl _) fun r => ?_
  cases r with
  | eof => exact Ref.refl _
  | io => exact Ref.refl _
  | ch c =>
    repeat' first
      | exact handleEq_ref hr _ _ | exact handleLt_ref hr _ | exact handleGt_ref hr _ | exact handleAdd_ref hr _ _
      | exact binary_ref hr _ _ _ | exact ternary_ref hr _ | exact Ref.refl _ | refine Ref.ite ?_ ?_
    refe hr
theorem parsePrimary_ref (hr : ∀ l, Ref (r1 l) (r2 l)) : Ref (parsePrimary r1) (parsePrimary r2) := by
  unfold parsePrimary; refe hr
theorem argsBody_ref (hr : ∀ l, Ref (r1 l) (r2 l)) (as : List Val) : Ref (argsBody r1 as) (argsBody r2 as) := by
  unfold argsBody; refe hr
theorem postfixBody_ref (hr : ∀ l, Ref (r1 l) (r2 l)) {n m : Nat} (hnm : n ≤ m) (v : LV) : Ref (postfixBody r1 n v) (postfixBody r2 m v) := by
  unfold postfixBody
  refine Ref.bind (Ref.refl _) fun _ => Ref.bind (Ref.refl _) fun r => ?_
  cases r with
  | eof => exact Ref.refl _
  | io => exact Ref.refl _
  | ch c =>
    refine Ref.ite (by refe hr) (Ref.ite ?_ (Ref.refl _))
    refine Ref.bind (Ref.refl _) fun _ => Ref.bind (Ref.loop (argsBody_ref hr) hnm _) fun _ => Ref.refl _
theorem parsePostfix_ref (hr : ∀ l, Ref (r1 l) (r2 l)) {n m : Nat} (hnm : n ≤ m) : Ref (parsePostfix r1 n) (parsePostfix r2 m) :=
  Ref.bind (parsePrimary_ref hr) fun v => Ref.loop (postfixBody_ref hr hnm) hnm v
theorem parseUnary_ref (hr : ∀ l, Ref (r1 l) (r2 l)) : ∀ {n m : Nat}, n ≤ m → Ref (parseUnary r1 n) (parseUnary r2 m)
  | 0, m, _ => Ref.fuel _
  | n + 1, 0, h => by omega
  | n + 1, m + 1, h => by
    have ih := parseUnary_ref hr (n := n) (m := m) (by omega)
    have pf := parsePostfix_ref hr (n := n) (m := m) (by omega)
    unfold parseUnary
    refine Ref.bind (Ref.refl _) fun _ => Ref.bind (Ref.refl _) fun r => ?_
    cases r with
    | eof => exact Ref.refl _
    | io => exact Ref.refl _
    | ch c =>
      repeat' first
        | exact ih | exact pf | exact Ref.refl _ | refine Ref.bind ?_ (fun _ => ?_) | refine Ref.ite ?_ ?_ | split
end

theorem parseExpr_ref : ∀ {n m : Nat}, n ≤ m → ∀ l, Ref (parseExpr n l) (parseExpr m l)
  | 0, m, _, l => Ref.fuel _
  | n + 1, 0, h, l => by omega
  | n + 1, m + 1, h, l => by
    have ih := parseExpr_ref (n := n) (m := m) (by omega)
    exact Ref.bind (parseUnary_ref ih (by omega)) fun v => Ref.loop (exprBody_ref ih l) (by omega) v

theorem parseExpression_ref {n m : Nat} (h : n ≤ m) : Ref (parseExpression n) (parseExpression m) := parseExpr_ref h 15

section
variable {n m : Nat} {t1 t2 : Option Nat → Cases → P Cases}

macro "refs" : tactic => `(tactic| repeat' first
    | exact parseExpression_ref (by assumption) | assumption | exact Ref.refl _ | refine Ref.bind ?_ (fun _ => ?_) | refine Ref.ite ?_ ?_
    | exact Ref.loop (fun _ => Ref.refl _) (by assumption) _)

theorem parseReturn_ref (h : n ≤ m) : Ref (parseReturn n) (parseReturn m) := by unfold parseReturn; refs
theorem parseAuto_ref (h : n ≤ m) : Ref (parseAuto n) (parseAuto m) := by unfold parseAuto; refs
theorem parseExtrn_ref (h : n ≤ m) : Ref (parseExtrn n) (parseExtrn m) := by unfold parseExtrn; refs
theorem parseIf_ref {f g : P Unit} (hf : Ref f g) (h : n ≤ m) : Ref (parseIf f n) (parseIf g m) := by unfold parseIf; refs
theorem parseWhile_ref {f g : P Unit} (hf : Ref f g) (h : n ≤ m) : Ref (parseWhile f n) (parseWhile g m) := by unfold parseWhile; refs
theorem exprStmt_ref (h : n ≤ m) : Ref (exprStmt n) (exprStmt m) := by unfold exprStmt; refs
theorem parseSwitch_ref (ht : ∀ a b, Ref (t1 a b) (t2 a b)) (h : n ≤ m) : Ref (parseSwitch t1 n) (parseSwitch t2 m) := by
  unfold parseSwitch
  repeat' first | exact ht _ _ | exact parseExpression_ref h | exact Ref.refl _ | refine Ref.bind ?_ (fun _ => ?_)
theorem parseCase_ref (ht : ∀ a b, Ref (t1 a b) (t2 a b)) (sw : Option Nat) (cs : Cases) : Ref (parseCase t1 sw cs) (parseCase t2 sw cs) := by
  cases sw with
  | none => exact Ref.refl _
  | some k =>
    unfold parseCase
    repeat' first | exact ht _ _ | exact Ref.refl _ | refine Ref.bind ?_ (fun _ => ?_)
theorem parseKeyword_ref (ht : ∀ a b, Ref (t1 a b) (t2 a b)) (h : n ≤ m) (sw : Option Nat) (cs : Cases) :
    Ref (parseKeyword t1 n sw cs) (parseKeyword t2 m sw cs) := by
  unfold parseKeyword
  have sub : Ref (do let _ ← t1 none [] : P Unit) (do let _ ← t2 none [] : P Unit) := Ref.bind (ht _ _) fun _ => Ref.refl _
  refine Ref.bind (Ref.refl _) fun x => Ref.bind (Ref.refl _) fun _ => ?_
  repeat' first
    | exact ht _ _ | exact parseReturn_ref h | exact parseAuto_ref h | exact parseExtrn_ref h | exact parseIf_ref sub h
    | exact parseWhile_ref sub h | exact parseSwitch_ref ht h | exact parseCase_ref ht _ _ | exact exprStmt_ref h
    | exact Ref.refl _ | refine Ref.ite ?_ ?_ | refine Ref.bind ?_ (fun _ => ?_)
theorem blockBody_ref (ht : ∀ a b, Ref (t1 a b) (t2 a b)) (sw : Option Nat) (cs : Cases) :
    Ref (blockBody t1 sw cs) (blockBody t2 sw cs) := by
  unfold blockBody
  repeat' first | exact ht _ _ | exact Ref.refl _ | refine Ref.ite ?_ ?_ | refine Ref.bind ?_ (fun _ => ?_)
end

theorem parseStmt_ref : ∀ {n m : Nat}, n ≤ m → ∀ sw cs, Ref (parseStmt n sw cs) (parseStmt m sw cs)
  | 0, m, _, sw, cs => Ref.fuel _
  | n + 1, 0, h, _, _ => by omega
  | n + 1, m + 1, h, sw, cs => by
    have h' : n ≤ m := by omega
    have ih := parseStmt_ref h'
    unfold parseStmt
    repeat' first
      | exact Ref.loop (blockBody_ref ih sw) h' _ | exact parseKeyword_ref ih h' _ _ | exact exprStmt_ref h'
      | exact Ref.refl _ | refine Ref.ite ?_ ?_ | refine Ref.bind ?_ (fun _ => ?_)

section
variable {n m : Nat}
theorem parseGlobal_ref (h : n ≤ m) (x : Name) : Ref (parseGlobal n x) (parseGlobal m x) := by
  unfold parseGlobal
  repeat' first
    | exact Ref.loop (fun _ => Ref.refl _) h _ | exact Ref.refl _ | refine Ref.ite ?_ ?_ | refine Ref.bind ?_ (fun _ => ?_)
theorem parseVector_ref (h : n ≤ m) (x : Name) : Ref (parseVector n x) (parseVector m x) := by
  unfold parseVector vectorInit
  repeat' first
    | exact Ref.loop (fun _ => Ref.refl _) h _ | exact Ref.refl _ | refine Ref.ite ?_ ?_ | refine Ref.bind ?_ (fun _ => ?_)
theorem paramList_ref (h : n ≤ m) (c : Char) : Ref (paramList n c) (paramList m c) := by
  unfold paramList parseArguments
  repeat' first
    | exact Ref.loop (fun _ => Ref.refl _) h _ | exact Ref.refl _ | refine Ref.ite ?_ ?_ | refine Ref.bind ?_ (fun _ => ?_)
theorem parseFunction_ref (h : n ≤ m) (x : Name) : Ref (parseFunction n x) (parseFunction m x) := by
  unfold parseFunction
  repeat' first
    | exact Ref.lx (paramList_ref h _) | exact parseStmt_ref h _ _ | exact Ref.refl _ | refine Ref.bind ?_ (fun _ => ?_)
theorem parseDecl_ref (h : n ≤ m) (x : Name) (c : Char) : Ref (parseDecl n x c) (parseDecl m x c) := by
  unfold parseDecl
  refine Ref.ite (parseFunction_ref h x) (Ref.ite (parseVector_ref h x) ?_)
  exact Ref.bind (Ref.refl _) fun _ => parseGlobal_ref h x
theorem declBody_ref (h : n ≤ m) (u : Unit) : Ref (declBody n u) (declBody m u) := by
  unfold declBody
  refine Ref.bind (Ref.refl _) fun x => Ref.ite (Ref.refl _) (Ref.bind (Ref.refl _) fun r => ?_)
  cases r with
  | eof => exact Ref.refl _
  | io => exact Ref.refl _
  | ch c => exact Ref.bind (parseDecl_ref h x c) fun _ => Ref.refl _
theorem parseDeclarations_ref (h : n ≤ m) : Ref (parseDeclarations n) (parseDeclarations m) :=
  Ref.loop (declBody_ref h) h ()
end

/-- With more than twice as much fuel as there are characters the result is the final one. -/
theorem parseDeclarations_fuel {n m : Nat} {s : PS} (hn : 2 * plen s < n) (hm : n ≤ m) :
    parseDeclarations n s ≠ .err .fuel ∧ parseDeclarations m s = parseDeclarations n s := by
  have h1 : parseDeclarations n s ≠ .err .fuel := by
    have := parseDeclarations_wp hn
    unfold wp at this
    intro e
    rw [e] at this
    exact this rfl
  exact ⟨h1, parseDeclarations_ref hm s h1⟩
end Blang
