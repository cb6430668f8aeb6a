import Verif.Proofs.SoundExpr
/-
Soundness of the statement and declaration parsers: whatever the front end accepts is a program of
the grammar, and the code generated is `genProg` of its tree.
-/
namespace Blang
open Spec

theorem layout_stops {lay r : List Char} (h : Layout lay) (hs : StartsSolid (lay ++ r)) : lay = [] := by
  cases h with
  | nil => rfl
  | blank h _ => rw [List.cons_append, startsSolid_cons] at hs; exact absurd h hs.1
  | comment h _ =>
    simp only [List.cons_append] at hs
    rw [startsSolid_cons] at hs; exact absurd ⟨rfl, rfl⟩ hs.2

/-! ### else -/

theorem unreadAll_ok (x : List Char) (l : Lex) : unreadAll x l = .ok () ⟨x ++ l.chars, l.tail⟩ := by
  induction x with
  | nil => rfl
  | cons c x ih => unfold unreadAll; rw [M.bind_ok ih]; rfl

theorem readElse_ok {es acc : List Char} {l l' : Lex} {r : Bool × List Char} (h : readElse es acc l = .ok r l') :
    ∃ p, l.chars = p ++ l'.chars ∧ r.2 = acc ++ p ∧ l'.tail = l.tail ∧ (r.1 = true → p = es) ∧
      (r.1 = false → ¬ es <+: l.chars) := by
  induction es generalizing acc l with
  | nil =>
    simp [readElse] at h; obtain ⟨rfl, rfl⟩ := h
    exact ⟨[], by simp, by simp, rfl, by simp, by simp⟩
  | cons e es ih =>
    unfold readElse at h
    obind h rc l1 h1
    rcases readChar_ok h1 with ⟨c, rfl, h2, h3⟩ | ⟨rfl, h2, h3, h4⟩ | ⟨rfl, h2, h3, h4⟩
    · dsimp only at h
      replace h := ite_ok h
      rcases h with ⟨hc, h⟩ | ⟨hc, h⟩
      · simp at h; obtain ⟨rfl, rfl⟩ := h
        refine ⟨[c], by simp [h2], rfl, h3, by simp, ?_⟩
        rintro _ ⟨x, hx⟩
        rw [h2] at hx; simp at hx; exact hc hx.1.symm
      · simp at hc; subst hc
        obtain ⟨p, i1, i2, i3, i4, i5⟩ := ih h
        refine ⟨c :: p, by simp [h2, i1], by simp [i2], by rw [i3, h3], fun hr => by rw [i4 hr], ?_⟩
        rintro hr ⟨x, hx⟩
        rw [h2] at hx; simp at hx
        exact i5 hr ⟨x, hx⟩
    all_goals
      simp at h; obtain ⟨rfl, rfl⟩ := h
      refine ⟨[], by simp [h4], by simp, by rw [h4], by simp, ?_⟩
      rintro _ ⟨x, hx⟩
      rw [h2] at hx; cases hx

/-- The text begins with the keyword `else`. -/
def ElseAt (r : List Char) : Prop := ∃ r', Lexes true r .els r'

theorem elseAt_inv {r r' : List Char} (h : Lexes true r .els r') :
    (∃ c, r = 'e' :: 'l' :: 's' :: 'e' :: c :: r' ∧ ¬ Letter c ∧ ¬ Digit c) ∨ (r = ['e', 'l', 's', 'e'] ∧ r' = []) := by
  cases h with
  | els hb => exact .inl ⟨_, rfl, fun h => letter_not_blank h hb, fun h => digit_not_blank h hb⟩
  | elsEnd => exact .inr ⟨rfl, rfl⟩
  | elsQuirk _ h1 h2 => exact .inl ⟨_, rfl, h1, h2⟩

theorem tryElse_ok {l l' : Lex} {b : Bool} (h : tryElse l = .ok b l') :
    (b = true ∧ Lexes true l.chars .els l'.chars ∧ l'.tail = l.tail) ∨ (b = false ∧ l' = l ∧ ¬ ElseAt l.chars) := by
  unfold tryElse at h
  obind h r l1 h1
  obtain ⟨p, i1, i2, i3, i4, i5⟩ := readElse_ok h1
  obind h r2 l2 h2
  obtain ⟨r0, r1⟩ := r
  simp at i2; subst i2
  unfold afterElse at h2
  replace h2 := ite_ok h2
  rcases h2 with ⟨hr, h2⟩ | ⟨hr, h2⟩
  · obtain rfl := i4 hr
    obind h2 rc l3 h3
    rcases readChar_ok h3 with ⟨c, rfl, k2, k3⟩ | ⟨rfl, k2, k3, k4⟩ | ⟨rfl, k2, k3, k4⟩
    · simp at h2; obtain ⟨rfl, rfl⟩ := h2
      replace h := ite_ok h
      have hch : l.chars = 'e' :: 'l' :: 's' :: 'e' :: c :: l3.chars := by rw [i1, k2]; rfl
      rcases h with ⟨hb, h⟩ | ⟨hb, h⟩
      · simp at h; obtain ⟨rfl, rfl⟩ := h
        simp at hb
        refine .inl ⟨rfl, ?_, by rw [k3, i3]⟩
        rw [hch]
        exact .elsQuirk rfl ((isLetter_false c).1 hb.1) ((isDigit_false c).1 hb.2)
      · rw [M.bind_ok (unreadAll_ok _ _)] at h
        simp at h; obtain ⟨rfl, rfl⟩ := h
        refine .inr ⟨rfl, ?_, ?_⟩
        · cases l; simp at *; exact ⟨hch.symm, by rw [k3, i3]⟩
        · rintro ⟨r', hr'⟩
          rcases elseAt_inv hr' with ⟨d, e1, e2, e3⟩ | ⟨e1, e2⟩
          · rw [hch] at e1; simp at e1; rw [← e1.1] at e2 e3
            simp at hb
            by_cases hl : isLetter c = true
            · exact e2 ((isLetter_iff c).1 hl)
            · exact e3 ((isDigit_iff c).1 (hb (by simpa using hl)))
          · rw [hch] at e1; simp at e1
    all_goals
      simp at h2; obtain ⟨rfl, rfl⟩ := h2
      simp at h; obtain ⟨rfl, rfl⟩ := h
      subst k4
      refine .inl ⟨rfl, ?_, i3⟩
      rw [i1, k2]; exact .elsEnd
  · simp at h2; obtain ⟨rfl, rfl⟩ := h2
    simp only [Bool.false_eq_true, if_false] at h
    rw [M.bind_ok (unreadAll_ok _ _)] at h
    simp at h; obtain ⟨rfl, rfl⟩ := h
    refine .inr ⟨rfl, ?_, ?_⟩
    · cases l; simp at *; exact ⟨i1.symm, i3⟩
    · rintro ⟨r', hr'⟩
      apply i5 (by simpa using hr)
      rcases elseAt_inv hr' with ⟨d, e1, e2, e3⟩ | ⟨e1, e2⟩
      · rw [e1]; exact ⟨_, rfl⟩
      · rw [e1]; exact ⟨[], rfl⟩

/-! ### statements -/

/-- no `else` follows -/
def NoElse (s : PS) : Prop := Stops s.lex.chars s.lex.tail ∧ ¬ ElseAt s.lex.chars

def PostS (s0 : PS) (sw : Option Nat) (cs cs' : Cases) (s' : PS) : Prop :=
  ∃ ts st, SGram prec true ts st ∧ Eats s0 ts s' ∧ genSt st sw cs s0.c = .ok cs' s'.c ∧ (openIf st = true → NoElse s')

def SoundS (stmt : Option Nat → Cases → P Cases) : Prop :=
  ∀ sw cs s cs' s', stmt sw cs s = .ok cs' s' → PostS s sw cs cs' s'

theorem exprE {n : Nat} {s s' : PS} {v : Val} (h : parseExpression n s = .ok v s') :
    ∃ ts e, EGram prec 15 ts e ∧ Eats s ts s' ∧ genR e s.c = .ok v s'.c ∧ Stops s'.lex.chars s'.lex.tail := by
  obtain ⟨ts, e, h1, h2, h3, h4, _⟩ := parseExpr_sound n _ _ _ _ (by decide) h
  exact ⟨ts, e, h1, h2, h3, h4⟩

/-- an expected character -/
theorem exp_eats {s s' : PS} {c : Char} {m : String} (hm : [c] ∈ symbols) (he : extensions [c] = [])
    (h : lx (expectChar c m) s = .ok () s') : Eats s [.sym [c]] s' ∧ s'.c = s.c := by
  obtain ⟨x1, x2, x3⟩ := exp_ok h
  exact ⟨eats_sym1 hm x3 he x2, x1⟩

theorem parseReturn_sound {n : Nat} {s0 s s' : PS} {sw : Option Nat} {cs : Cases}
    (h0 : Eats s0 [.word "return".toList] s) (hc : s.c = s0.c) (h : parseReturn n s = .ok () s') : PostS s0 sw cs cs s' := by
  unfold parseReturn at h
  obind h ch s1 h1
  obtain ⟨a1, a2, a3⟩ := re_ok h1
  replace h := ite_ok h
  rcases h with ⟨n1, h⟩ | ⟨n1, h⟩
  · replace h := ite_ok h
    rcases h with ⟨n2, h⟩ | ⟨n2, h⟩
    · cases h
    simp at n2; subst n2
    obind h val s2 h2
    obtain ⟨ts, e, g1, g2, g3, g4⟩ := exprE h2
    obind h _u3 s3 h3
    obtain ⟨w1, w2, w3⟩ := ws_ok h3
    obind h _u4 s4 h4
    obtain ⟨e1, e2⟩ := exp_eats (by simp [symbols]) rfl h4
    obind h _u5 s5 h5
    obtain ⟨w4, w5, w6⟩ := ws_ok h5
    obind h _u6 s6 h6
    obtain ⟨e3, e4⟩ := exp_eats (by simp [symbols]) rfl h6
    obtain ⟨b1, b2⟩ := bd_ok h
    have q : Eats s [.sym ['(']] s1 := eats_sym1 (by simp [symbols]) a3 rfl a2
    refine ⟨_, _, .ret g1, ((((((((h0.trans q).trans g2).trans w1).trans e1).trans w4).trans e3)).trans (Eats.bd b2)).cast
      (by simp), ?_, by simp [openIf]⟩
    simp only [genSt]
    rw [a1, hc] at g3
    rw [e4, w5, e2, w2] at b1
    rw [M.bind_ok g3, M.bind_ok b1]; rfl
  · simp at n1; subst n1
    obtain ⟨b1, b2⟩ := bd_ok h
    have q : Eats s [.sym [';']] s1 := eats_sym1 (by simp [symbols]) a3 rfl a2
    refine ⟨_, _, .ret0, ((h0.trans q).trans (Eats.bd b2)).cast (by simp), ?_, by simp [openIf]⟩
    simp only [genSt]
    rw [a1, hc] at b1
    rw [M.bind_ok b1]; rfl

theorem orMsg_ok {α : Type} {f : L α} {m : String} {l l' : Lex} {a : α} (h : orMsg f m l = .ok a l') :
    f l = .ok a l' := by
  unfold orMsg at h
  cases hf : f l with
  | ok a l => rw [hf] at h; exact h
  | err e => rw [hf] at h; cases h

theorem lx_of {α : Type} {f : L α} {s s' : PS} {a : α} (h : f s.lex = .ok a s'.lex) (hc : s'.c = s.c) :
    lx f s = .ok a s' := by
  unfold lx; rw [h]; cases s'; simp at hc; subst hc; rfl

theorem lx_orMsg {α : Type} {f : L α} {m : String} {s s' : PS} {a : α} (h : lx (orMsg f m) s = .ok a s') :
    lx f s = .ok a s' := by
  obtain ⟨h, hc⟩ := lx_ok h
  exact lx_of (orMsg_ok h) hc

theorem identOr_ok {s s' : PS} {m : String} {name : Name} (h : lx (identOr m) s = .ok name s') :
    Eats s [.word name] s' ∧ s'.c = s.c ∧ name ≠ [] := by
  obtain ⟨h, hc⟩ := lx_ok h
  unfold identOr at h
  obind h nm l1 h1
  replace h := ite_ok h
  rcases h with ⟨_, h⟩ | ⟨hne, h⟩
  · cases h
  · simp at h
    obtain ⟨rfl, h2⟩ := h
    subst h2
    have := id_ok (lx_of (orMsg_ok h1) hc)
    exact ⟨this.2.2.2.2.1 hne, hc, hne⟩

/-- a constant (for sizes and cases) read by `character` after the quote -/
theorem chr_eats {s s1 s' : PS} {w : W} (hs : s.lex.chars = '\'' :: s1.lex.chars) (ht : s1.lex.tail = s.lex.tail)
    (h : lx character s1 = .ok w s') : ∃ vs, Eats s [.chr vs] s' ∧ w = charValue vs ∧ s'.c = s1.c := by
  obtain ⟨k1, k2⟩ := lx_ok h
  obtain ⟨ts, vs, k3, k4, k5, k6, k7⟩ := character_ok k1
  refine ⟨vs, ⟨?_, by rw [k6, ht]⟩, k7, k2⟩
  rw [hs, k5]; exact .one (.chr k3 k4)

/-- `lx` distributes over `do` -/
theorem lx_bind {α β : Type} {f : L α} {g : α → L β} {s s' : PS} {b : β} (h : lx (f >>= g) s = .ok b s') :
    ∃ a t, lx f s = .ok a t ∧ lx (g a) t = .ok b s' := by
  obtain ⟨h, hc⟩ := lx_ok h
  obind h a l1 h1
  refine ⟨a, ⟨l1, s.c⟩, lx_of h1 rfl, lx_of h ?_⟩
  exact hc

theorem lx_ite {α : Type} {c : Prop} [Decidable c] {f g : L α} {s s' : PS} {a : α}
    (h : lx (if c then f else g) s = .ok a s') : (c ∧ lx f s = .ok a s') ∨ (¬ c ∧ lx g s = .ok a s') := by
  by_cases hc : c
  · rw [if_pos hc] at h; exact .inl ⟨hc, h⟩
  · rw [if_neg hc] at h; exact .inr ⟨hc, h⟩

theorem lx_pure {α : Type} {a b : α} {s s' : PS} (h : lx (pure a) s = .ok b s') : b = a ∧ s' = s := by
  simp [lx] at h; exact ⟨h.1.symm, h.2.symm⟩

macro "olx " h:ident a:ident s:ident h1:ident : tactic =>
  `(tactic| (replace $h:ident := lx_bind $h; refine Exists.elim $h ?_; clear $h; intro $a:ident $h:ident
             refine Exists.elim $h ?_; clear $h; intro $s:ident $h:ident
             have $h1:ident := And.left $h; replace $h:ident := And.right $h))

/-- a number at a solid position whose first character is not the one expected afterwards -/
theorem num_then {s s1 s2 s3 s' : PS} {w : W} {c d : Char} {m : String} (hst : Stops s.lex.chars s.lex.tail)
    (hs : s.lex.chars = c :: s1.lex.chars) (hcd : c ≠ d)
    (h1 : lx number s = .ok w s2) (h2 : lx whitespace s2 = .ok () s3) (h3 : lx (expectChar d m) s3 = .ok () s') :
    ∃ ds, Eats s [.num ds] s2 ∧ w = BitVec.ofNat 64 (literalValue ds) ∧ s2.c = s.c := by
  obtain ⟨ds, d1, d2, d3, d4, d5, d6, lay, d7, d8, d9⟩ := num_ok h1
  have hlay : lay = [] := layout_stops d8 (by rw [← d7]; exact hst.1)
  subst hlay
  by_cases hne : ds = []
  · subst hne
    simp at d7
    have : s3 = s2 := ws_stop (by rw [← d7, d3]; exact hst) h2
    subst this
    obtain ⟨_, _, x3⟩ := exp_ok h3
    rw [← d7, hs] at x3
    simp at x3; exact absurd x3.1 hcd
  · exact ⟨ds, d5 hne, d2, d1⟩

theorem autoSize_sound {s s' : PS} {w : W} (h : lx autoSize s = .ok w s') :
    s'.c = s.c ∧ ((Eats s [.sym [']']] s' ∧ w = 0) ∨ ∃ t, CGram t w ∧ Eats s [t, .sym [']']] s') := by
  unfold autoSize at h
  olx h _u s1 h1
  obtain ⟨w1, w2, w3⟩ := ws_ok h1
  olx h ch s2 h2
  obtain ⟨a1, a2, a3⟩ := re_ok h2
  replace h := lx_ite h
  rcases h with ⟨n1, h⟩ | ⟨n1, h⟩
  · olx h size s3 h3
    olx h _u4 s4 h4
    obtain ⟨w4, w5, w6⟩ := ws_ok h4
    olx h _u5 s5 h5
    obtain ⟨e1, e2⟩ := exp_eats (by simp [symbols]) rfl h5
    obtain ⟨rfl, rfl⟩ := lx_pure h
    unfold sizeConst at h3
    replace h3 := lx_ite h3
    rcases h3 with ⟨rfl, h3⟩ | ⟨n2, h3⟩
    · obtain ⟨vs, k1, k2, k3⟩ := chr_eats a3 a2 h3
      refine ⟨by rw [e2, w5, k3, a1, w2], .inr ⟨.chr vs, by rw [k2]; exact .chr, ?_⟩⟩
      exact (((w1.trans k1).trans w4).trans e1).cast (by simp)
    · olx h3 _u6 s6 h6
      obtain ⟨u1, u2, u3⟩ := un_ok h6
      have : s6 = s1 := ps_ext (by rw [u3, a3]) (by rw [u2, a2]) (by rw [u1, a1])
      subst this
      obtain ⟨ds, d1, d2, d3⟩ := num_then (by rw [w1.2]; exact w3) a3 n1 h3 h4 h5
      refine ⟨by rw [e2, w5, d3, w2], .inr ⟨.num ds, by rw [d2]; exact .num, ?_⟩⟩
      exact (((w1.trans d1).trans w4).trans e1).cast (by simp)
  · simp at n1; subst n1
    obtain ⟨rfl, rfl⟩ := lx_pure h
    refine ⟨by rw [a1, w2], .inl ⟨?_, rfl⟩⟩
    exact (w1.trans (eats_sym1 (by simp [symbols]) a3 rfl a2)).cast (by simp)

theorem autoLoop_sound {n : Nat} {decls all : List (Name × W)} {s s' : PS}
    (h : loop n autoBody decls s = .ok all s') :
    ∃ ts ds, DsGram ts ds ∧ Eats s ts s' ∧ s'.c = s.c ∧ all = decls ++ ds.map autoSizeOf ∧
      ∀ seen : List Name, (∀ x, x ∈ seen ↔ x ∈ decls.map (·.1)) → autoCheck seen ds s.c = .ok () s.c := by
  induction n generalizing decls s with
  | zero => cases h
  | succ n ih =>
    rw [loop_succ] at h
    cases hb : autoBody decls s with
    | err e => rw [hb] at h; cases h
    | ok it t =>
      rw [hb] at h
      unfold autoBody at hb
      obind hb name s1 h1
      obtain ⟨i1, i2, i3⟩ := identOr_ok h1
      rw [M.bind_ok (M.get_apply _)] at hb
      replace hb := ite_ok hb
      rcases hb with ⟨_, hb⟩ | ⟨n1, hb⟩
      · cases hb
      replace hb := ite_ok hb
      rcases hb with ⟨_, hb⟩ | ⟨n2, hb⟩
      · cases hb
      have hchk : ∀ (d : Name × Option Word) (hd : d.1 = name) (seen : List Name) (ds : List (Name × Option Word)),
          (∀ x, x ∈ seen ↔ x ∈ decls.map (·.1)) → autoCheck (d.1 :: seen) ds s.c = .ok () s.c →
          autoCheck seen (d :: ds) s.c = .ok () s.c := by
        intro d hd seen ds hseen hr
        unfold autoCheck
        rw [M.bind_ok (M.get_apply _)]
        rw [if_neg]
        · exact hr
        · rintro (h | h)
          · rw [hseen, hd] at h
            apply n1
            simp at h ⊢
            obtain ⟨w, hw⟩ := h
            exact ⟨w, hw⟩
          · rw [hd, ← i2] at h; exact n2 h
      obind hb _u s2 h2
      obtain ⟨w1, w2, w3⟩ := ws_ok h2
      obind hb ch s3 h3
      obtain ⟨a1, a2, a3⟩ := re_ok h3
      replace hb := ite_ok hb
      rcases hb with ⟨rfl, hb⟩ | ⟨n3, hb⟩
      · obind hb size s4 h4
        obtain ⟨z1, z2⟩ := autoSize_sound h4
        obind hb _u s5 h5
        obtain ⟨w4, w5, w6⟩ := ws_ok h5
        obind hb ch s6 h6
        obtain ⟨b1, b2, b3⟩ := re_ok h6
        have q : Eats s2 [.sym ['[']] s3 := eats_sym1 (by simp [symbols]) a3 rfl a2
        have hd : ∃ ts, DGram ts (name, some size) ∧ Eats s ts s5 := by
          rcases z2 with ⟨z2, rfl⟩ | ⟨t, z2, z3⟩
          · exact ⟨_, .vec0, ((((i1.trans w1).trans q).trans z2).trans w4).cast (by simp)⟩
          · exact ⟨_, .vec z2, ((((i1.trans w1).trans q).trans z3).trans w4).cast (by simp)⟩
        obtain ⟨us, hd1, hd2⟩ := hd
        have hcc : s6.c = s.c := by rw [b1, w5, z1, a1, w2, i2]
        replace hb := ite_ok hb
        rcases hb with ⟨rfl, hb⟩ | ⟨n4, hb⟩
        · simp at hb; obtain ⟨rfl, rfl⟩ := hb
          simp at h; obtain ⟨rfl, rfl⟩ := h
          have q2 : Eats s5 [.sym [';']] s6 := eats_sym1 (by simp [symbols]) b3 rfl b2
          exact ⟨_, [(name, some size)], .last hd1, hd2.trans q2, hcc, by simp [autoSizeOf],
            fun seen hs => hchk (name, some size) rfl _ _ hs rfl⟩
        · replace hb := ite_ok hb
          rcases hb with ⟨_, hb⟩ | ⟨n5, hb⟩
          · cases hb
          simp at n5; subst n5
          simp at hb; obtain ⟨rfl, rfl⟩ := hb
          have q2 : Eats s5 [.sym [',']] s6 := eats_sym1 (by simp [symbols]) b3 rfl b2
          obtain ⟨ts, ds, j1, j2, j3, j4, j5⟩ := ih h
          refine ⟨_, (name, some size) :: ds, .cons hd1 j1, ((hd2.trans q2).trans j2).cast (by simp), by rw [j3, hcc],
            by rw [j4]; simp [autoSizeOf], fun seen hs => hchk (name, some size) rfl _ _ hs ?_⟩
          rw [hcc] at j5
          apply j5
          intro x; simp; constructor
          · rintro (rfl | hx)
            · right; rfl
            · left; have := (hs x).1 hx; simpa using this
          · rintro (hx | rfl)
            · right; apply (hs x).2; simpa using hx
            · left; rfl
      · replace hb := ite_ok hb
        rcases hb with ⟨_, hb⟩ | ⟨n4, hb⟩
        · cases hb
        have hcc : s3.c = s.c := by rw [a1, w2, i2]
        have hd2 : Eats s [.word name] s2 := (i1.trans w1).cast (by simp)
        replace hb := ite_ok hb
        rcases hb with ⟨rfl, hb⟩ | ⟨n5, hb⟩
        · simp at hb; obtain ⟨rfl, rfl⟩ := hb
          simp at h; obtain ⟨rfl, rfl⟩ := h
          have q2 : Eats s2 [.sym [';']] s3 := eats_sym1 (by simp [symbols]) a3 rfl a2
          exact ⟨_, [(name, none)], .last .scalar, hd2.trans q2, hcc, by simp [autoSizeOf],
            fun seen hs => hchk (name, none) rfl _ _ hs rfl⟩
        · simp at hb; obtain ⟨rfl, rfl⟩ := hb
          have hch : ch = ',' := by
            apply Classical.byContradiction; intro hne; exact n4 ⟨n5, hne⟩
          subst hch
          have q2 : Eats s2 [.sym [',']] s3 := eats_sym1 (by simp [symbols]) a3 rfl a2
          obtain ⟨ts, ds, j1, j2, j3, j4, j5⟩ := ih h
          refine ⟨_, (name, none) :: ds, .cons .scalar j1, ((hd2.trans q2).trans j2).cast (by simp), by rw [j3, hcc],
            by rw [j4]; simp [autoSizeOf], fun seen hs => hchk (name, none) rfl _ _ hs ?_⟩
          rw [hcc] at j5
          apply j5
          intro x; simp; constructor
          · rintro (rfl | hx)
            · right; rfl
            · left; have := (hs x).1 hx; simpa using this
          · rintro (hx | rfl)
            · right; apply (hs x).2; simpa using hx
            · left; rfl

theorem parseAuto_sound {n : Nat} {s0 s s' : PS} {sw : Option Nat} {cs : Cases}
    (h0 : Eats s0 [.word "auto".toList] s) (hc : s.c = s0.c) (h : parseAuto n s = .ok () s') : PostS s0 sw cs cs s' := by
  unfold parseAuto at h
  obind h decls s1 h1
  obtain ⟨ts, ds, g1, g2, g3, g4, g5⟩ := autoLoop_sound h1
  obtain ⟨b1, b2⟩ := bd_ok h
  refine ⟨_, _, .auto g1, ((h0.trans g2).trans (Eats.bd b2)).cast (by simp), ?_, by simp [openIf]⟩
  simp only [genSt]
  simp at g4; subst g4
  have := g5 [] (by simp)
  rw [g3, hc] at b1
  rw [hc] at this
  rw [M.bind_ok this, M.bind_ok b1]; rfl

theorem extrnLoop_sound {n : Nat} {s s' : PS} (h : loop n extrnBody () s = .ok () s') :
    ∃ ts xs, NsGram [';'] ts xs ∧ Eats s ts s' ∧ genExtrn xs s.c = .ok () s'.c := by
  induction n generalizing s with
  | zero => cases h
  | succ n ih =>
    rw [loop_succ] at h
    cases hb : extrnBody () s with
    | err e => rw [hb] at h; cases h
    | ok it t =>
      rw [hb] at h
      unfold extrnBody at hb
      obind hb name s1 h1
      obtain ⟨i1, i2, i3⟩ := identOr_ok h1
      obind hb _u1 s2 h2
      obtain ⟨b1, b2⟩ := bd_ok h2
      obind hb _u s3 h3
      obtain ⟨w1, w2, w3⟩ := ws_ok h3
      obind hb ch s4 h4
      obtain ⟨a1, a2, a3⟩ := re_ok h4
      rw [i2] at b1
      have he : Eats s [.word name] s3 := ((i1.trans (Eats.bd b2)).trans w1).cast (by simp)
      replace hb := ite_ok hb
      rcases hb with ⟨rfl, hb⟩ | ⟨n4, hb⟩
      · simp at hb; obtain ⟨rfl, rfl⟩ := hb
        simp at h; subst h
        have q2 : Eats s3 [.sym [';']] s4 := eats_sym1 (by simp [symbols]) a3 rfl a2
        refine ⟨_, [name], .last, he.trans q2, ?_⟩
        simp only [genExtrn]
        rw [M.bind_ok b1, a1, w2]; rfl
      · replace hb := ite_ok hb
        rcases hb with ⟨_, hb⟩ | ⟨n5, hb⟩
        · cases hb
        simp at n5; subst n5
        simp at hb; obtain ⟨rfl, rfl⟩ := hb
        have q2 : Eats s3 [.sym [',']] s4 := eats_sym1 (by simp [symbols]) a3 rfl a2
        obtain ⟨ts, xs, j1, j2, j3⟩ := ih h
        refine ⟨_, name :: xs, .cons j1, ((he.trans q2).trans j2).cast (by simp), ?_⟩
        simp only [genExtrn]
        rw [a1, w2] at j3
        rw [M.bind_ok b1, j3]

theorem parseExtrn_sound {n : Nat} {s0 s s' : PS} {sw : Option Nat} {cs : Cases}
    (h0 : Eats s0 [.word "extrn".toList] s) (hc : s.c = s0.c) (h : parseExtrn n s = .ok () s') : PostS s0 sw cs cs s' := by
  obtain ⟨ts, xs, g1, g2, g3⟩ := extrnLoop_sound h
  refine ⟨_, _, .extrn g1, (h0.trans g2).cast (by simp), ?_, by simp [openIf]⟩
  simp only [genSt]
  rw [hc] at g3
  rw [M.bind_ok g3]; rfl

theorem parseGoto_sound {s0 s s' : PS} {sw : Option Nat} {cs : Cases}
    (h0 : Eats s0 [.word "goto".toList] s) (hc : s.c = s0.c) (h : parseGoto s = .ok () s') : PostS s0 sw cs cs s' := by
  unfold parseGoto at h
  obind h l s1 h1
  obtain ⟨i1, i2, i3⟩ := identOr_ok h1
  obind h target s2 h2
  obind h _u3 s3 h3
  rw [M.bind_ok (M.get_apply _)] at h
  obind h dead s4 h4
  obind h _u5 s5 h5
  obind h _u6 s6 h6
  obind h _u7 s7 h7
  obtain ⟨a2, b2⟩ := bd_ok h2
  obtain ⟨a3, b3⟩ := bd_ok h3
  obtain ⟨a4, b4⟩ := bd_ok h4
  obtain ⟨a5, b5⟩ := bd_ok h5
  obtain ⟨a6, b6⟩ := bd_ok h6
  obtain ⟨w1, w2, w3⟩ := ws_ok h7
  obtain ⟨e1, e2⟩ := exp_eats (by simp [symbols]) rfl h
  have q : Eats s1 [] s6 := Eats.bd (by rw [b6, b5, b4, b3, b2])
  refine ⟨_, .goto l, .goto, ((((h0.trans i1).trans q).trans w1).trans e1).cast (by simp), ?_, by simp [openIf]⟩
  simp only [genSt]
  rw [i2, hc] at a2
  have hg : genGoto l s0.c = .ok () s6.c := by
    unfold genGoto
    rw [M.bind_ok a2, M.bind_ok a3, M.bind_ok (M.get_apply _), M.bind_ok a4, M.bind_ok a5]; exact a6
  rw [M.bind_ok hg, e2, w2]; rfl

/-- a statement used as a branch or loop body -/
theorem sub_ok {stmt : Option Nat → Cases → P Cases} (hS : SoundS stmt) {s s' : PS}
    (h : (do let _ ← stmt none [] : P Unit) s = .ok () s') :
    ∃ ts st cs', SGram prec true ts st ∧ Eats s ts s' ∧ genSt st none [] s.c = .ok cs' s'.c ∧ (openIf st = true → NoElse s') := by
  obind h cs' s1 h1
  simp at h; subst h
  obtain ⟨ts, st, g1, g2, g3, g4⟩ := hS _ _ _ _ _ h1
  exact ⟨ts, st, cs', g1, g2, g3, g4⟩

theorem parseIf_sound {stmt : Option Nat → Cases → P Cases} (hS : SoundS stmt) {n : Nat} {s0 s s' : PS}
    {sw : Option Nat} {cs : Cases} (h0 : Eats s0 [.word "if".toList] s) (hc : s.c = s0.c)
    (h : parseIf (do let _ ← stmt none []) n s = .ok () s') : PostS s0 sw cs cs s' := by
  unfold parseIf at h
  obind h _u0 t0 k0
  obind h cond t1 h1
  obind h _u2 t2 h2
  obind h _u3 t3 h3
  obind h ifID t4 h4
  obind h tb t5 h5
  obind h eb t6 h6
  obind h nb t7 h7
  obind h cmp t8 h8
  obind h _u9 t9 h9
  obind h _u10 t10 h10
  obind h _u11 t11 h11
  obind h _u12 t12 h12
  obind h _u13 t13 h13
  obind h _u14 t14 h14
  obind h isElse t15 h15
  obind h _u16 t16 h16
  obind h _u17 t17 h17
  obtain ⟨x1, x2⟩ := exp_eats (by simp [symbols]) rfl k0
  obtain ⟨ts, c, g1, g2, g3, g4⟩ := exprE h1
  obtain ⟨w1, w2, w3⟩ := ws_ok h2
  obtain ⟨x3, x4⟩ := exp_eats (by simp [symbols]) rfl h3
  obtain ⟨a4, b4⟩ := bd_ok h4
  obtain ⟨a5, b5⟩ := bd_ok h5
  obtain ⟨a6, b6⟩ := bd_ok h6
  obtain ⟨a7, b7⟩ := bd_ok h7
  obtain ⟨a8, b8⟩ := bd_ok h8
  obtain ⟨a9, b9⟩ := bd_ok h9
  obtain ⟨a10, b10⟩ := bd_ok h10
  obtain ⟨us, st, cs1, m1, m2, m3, m4⟩ := sub_ok hS h11
  obtain ⟨a12, b12⟩ := bd_ok h12
  obtain ⟨a13, b13⟩ := bd_ok h13
  obtain ⟨w4, w5, w6⟩ := ws_ok h14
  obtain ⟨k1, k2⟩ := lx_ok h15
  obtain ⟨a17, b17⟩ := bd_ok h17
  obtain ⟨a18, b18⟩ := bd_ok h
  have q1 : Eats t3 [] t10 := Eats.bd (by rw [b10, b9, b8, b7, b6, b5, b4])
  have q2 : Eats t11 [] t13 := Eats.bd (by rw [b13, b12])
  have q3 : Eats t16 [] s' := Eats.bd (by rw [b18, b17])
  have qa : Eats s0 (.word "if".toList :: .sym ['('] :: ts ++ .sym [')'] :: us) t14 :=
    ((((((((h0.trans x1).trans g2).trans w1).trans x3).trans q1).trans m2).trans q2).trans w4).cast (by simp)
  have hst : ifStart cond t1.c = .ok (tb, eb, nb) t9.c := by
    rw [x4, w2] at a4
    unfold ifStart
    rw [M.bind_ok a4, M.bind_ok a5, M.bind_ok a6, M.bind_ok a7, M.bind_ok a8, M.bind_ok a9]; rfl
  rw [x2, hc] at g3
  rcases tryElse_ok k1 with ⟨rfl, k3, k4⟩ | ⟨rfl, k3, k4⟩
  · simp only [if_true] at h16
    obtain ⟨vs, st2, cs2, p1, p2, p3, p4⟩ := sub_ok hS h16
    have hop : openIf st = false := by
      cases ho : openIf st with
      | false => rfl
      | true =>
        obtain ⟨j1, j2⟩ := m4 ho
        have : t14 = t13 := ws_stop (by rw [b13, b12]; exact j1) h14
        subst this
        rw [b13, b12] at k3
        exact absurd ⟨_, k3⟩ j2
    have q4 : Eats t14 [.els] t15 := ⟨.one k3, k4⟩
    refine ⟨_, _, .ifElse g1 m1 hop p1, (((qa.trans q4).trans p2).trans q3).cast (by simp), ?_, ?_⟩
    · simp only [genSt]
      rw [M.bind_ok g3, M.bind_ok hst]
      dsimp only
      rw [k2, w5] at p3
      rw [M.bind_ok a10, M.bind_ok m3, M.bind_ok a12, M.bind_ok a13, M.bind_ok p3, M.bind_ok a17, M.bind_ok a18]; rfl
    · intro ho
      simp only [openIf] at ho
      obtain ⟨j1, j2⟩ := p4 ho
      unfold NoElse
      rw [b18, b17]; exact ⟨j1, j2⟩
  · simp at h16; subst h16
    have q4 : Eats t14 [] t15 := Eats.bd k3
    refine ⟨_, _, .ifThen g1 m1, ((qa.trans q4).trans q3).cast (by simp), ?_, ?_⟩
    · simp only [genSt]
      rw [M.bind_ok g3, M.bind_ok hst]
      dsimp only
      rw [k2, w5] at a17
      rw [M.bind_ok a10, M.bind_ok m3, M.bind_ok a12, M.bind_ok a13, M.bind_ok a17, M.bind_ok a18]; rfl
    · intro _
      unfold NoElse
      rw [b18, b17, k3, w4.2]; exact ⟨w6, k4⟩

theorem parseWhile_sound {stmt : Option Nat → Cases → P Cases} (hS : SoundS stmt) {n : Nat} {s0 s s' : PS}
    {sw : Option Nat} {cs : Cases} (h0 : Eats s0 [.word "while".toList] s) (hc : s.c = s0.c)
    (h : parseWhile (do let _ ← stmt none []) n s = .ok () s') : PostS s0 sw cs cs s' := by
  unfold parseWhile at h
  obind h _u0 t0 k0
  obind h wID t1 h1
  obind h cb t2 h2
  obind h bb t3 h3
  obind h nb t4 h4
  obind h _u5 t5 h5
  obind h _u6 t6 h6
  obind h cond t7 h7
  obind h _u8 t8 h8
  obind h _u9 t9 h9
  obind h cmp t10 h10
  obind h _u11 t11 h11
  obind h _u12 t12 h12
  obind h _u13 t13 h13
  obind h _u14 t14 h14
  obtain ⟨x1, x2⟩ := exp_eats (by simp [symbols]) rfl k0
  obtain ⟨a1, b1⟩ := bd_ok h1
  obtain ⟨a2, b2⟩ := bd_ok h2
  obtain ⟨a3, b3⟩ := bd_ok h3
  obtain ⟨a4, b4⟩ := bd_ok h4
  obtain ⟨a5, b5⟩ := bd_ok h5
  obtain ⟨a6, b6⟩ := bd_ok h6
  obtain ⟨ts, c, g1, g2, g3, g4⟩ := exprE h7
  obtain ⟨w1, w2, w3⟩ := ws_ok h8
  obtain ⟨x3, x4⟩ := exp_eats (by simp [symbols]) rfl h9
  obtain ⟨a10, b10⟩ := bd_ok h10
  obtain ⟨a11, b11⟩ := bd_ok h11
  obtain ⟨a12, b12⟩ := bd_ok h12
  obtain ⟨us, st, cs1, m1, m2, m3, m4⟩ := sub_ok hS h13
  obtain ⟨a14, b14⟩ := bd_ok h14
  obtain ⟨a15, b15⟩ := bd_ok h
  have q1 : Eats t0 [] t6 := Eats.bd (by rw [b6, b5, b4, b3, b2, b1])
  have q2 : Eats t9 [] t12 := Eats.bd (by rw [b12, b11, b10])
  have q3 : Eats t13 [] s' := Eats.bd (by rw [b15, b14])
  refine ⟨_, _, .while g1 m1,
    ((((((((h0.trans x1).trans q1).trans g2).trans w1).trans x3).trans q2).trans m2).trans q3).cast (by simp), ?_, ?_⟩
  · simp only [genSt]
    have hst : whileStart s0.c = .ok (cb, bb, nb) t6.c := by
      rw [x2, hc] at a1
      unfold whileStart
      rw [M.bind_ok a1, M.bind_ok a2, M.bind_ok a3, M.bind_ok a4, M.bind_ok a5, M.bind_ok a6]; rfl
    rw [M.bind_ok hst]
    dsimp only
    rw [x4, w2] at a10
    rw [M.bind_ok g3, M.bind_ok a10, M.bind_ok a11, M.bind_ok a12, M.bind_ok m3, M.bind_ok a14, M.bind_ok a15]; rfl
  · intro ho
    simp only [openIf] at ho
    unfold NoElse
    rw [b15, b14]; exact m4 ho

theorem parseSwitch_sound {stmt : Option Nat → Cases → P Cases} (hS : SoundS stmt) {n : Nat} {s0 s s' : PS}
    {sw : Option Nat} {cs : Cases} (h0 : Eats s0 [.word "switch".toList] s) (hc : s.c = s0.c)
    (h : parseSwitch stmt n s = .ok () s') : PostS s0 sw cs cs s' := by
  unfold parseSwitch at h
  obind h wID t1 h1
  obind h v t2 h2
  obind h sb t3 h3
  obind h cb t4 h4
  obind h nb t5 h5
  obind h _u6 t6 h6
  obind h _u7 t7 h7
  obind h cl t8 h8
  obind h _u9 t9 h9
  obind h _u10 t10 h10
  obind h _u11 t11 h11
  obtain ⟨a1, b1⟩ := bd_ok h1
  obtain ⟨ts, c, g1, g2, g3, g4⟩ := exprE h2
  obtain ⟨a3, b3⟩ := bd_ok h3
  obtain ⟨a4, b4⟩ := bd_ok h4
  obtain ⟨a5, b5⟩ := bd_ok h5
  obtain ⟨a6, b6⟩ := bd_ok h6
  obtain ⟨a7, b7⟩ := bd_ok h7
  obtain ⟨us, st, m1, m2, m3, m4⟩ := hS _ _ _ _ _ h8
  obtain ⟨a9, b9⟩ := bd_ok h9
  obtain ⟨a10, b10⟩ := bd_ok h10
  obtain ⟨a11, b11⟩ := bd_ok h11
  obtain ⟨a12, b12⟩ := bd_ok h
  have q2 : Eats t2 [] t7 := Eats.bd (by rw [b7, b6, b5, b4, b3])
  have q3 : Eats t8 [] s' := Eats.bd (by rw [b12, b11, b10, b9])
  refine ⟨_, _, .switch g1 m1 (fun h => nomatch h),
    (((((h0.trans (Eats.bd b1)).trans g2).trans q2).trans m2).trans q3).cast (by simp), ?_, ?_⟩
  · simp only [genSt]
    have hst : switchStart wID t2.c = .ok (cb, nb) t7.c := by
      unfold switchStart
      rw [M.bind_ok a3, M.bind_ok a4, M.bind_ok a5, M.bind_ok a6, M.bind_ok a7]; rfl
    rw [hc] at a1
    rw [M.bind_ok a1, M.bind_ok g3, M.bind_ok hst]
    dsimp only
    rw [M.bind_ok m3, M.bind_ok a9, M.bind_ok a10, M.bind_ok a11, M.bind_ok a12]; rfl
  · intro ho
    simp only [openIf] at ho
    unfold NoElse
    rw [b12, b11, b10, b9]; exact m4 ho

theorem caseConst_sound {s s' : PS} {w : W} (hst : Stops s.lex.chars s.lex.tail) (h : lx caseConst s = .ok w s') :
    ∃ t, CGram t w ∧ Eats s [t] s' ∧ s'.c = s.c := by
  unfold caseConst at h
  olx h ch s2 h2
  obtain ⟨a1, a2, a3⟩ := re_ok h2
  replace h := lx_ite h
  rcases h with ⟨rfl, h⟩ | ⟨n1, h⟩
  · obtain ⟨vs, k1, k2, k3⟩ := chr_eats a3 a2 h
    exact ⟨.chr vs, by rw [k2]; exact .chr, k1, by rw [k3, a1]⟩
  · replace h := lx_ite h
    rcases h with ⟨n2, h⟩ | ⟨n2, h⟩
    · olx h _u s3 h3
      obtain ⟨u1, u2, u3⟩ := un_ok h3
      have : s3 = s := ps_ext (by rw [u3, a3]) (by rw [u2, a2]) (by rw [u1, a1])
      subst this
      rw [isDigit_iff] at n2
      obtain ⟨ds, d1, d2, d3, d4, d5, d6, lay, d7, d8, d9⟩ := num_ok h
      have hlay : lay = [] := layout_stops d8 (by rw [← d7]; exact hst.1)
      subst hlay
      have hne : ds ≠ [] := by
        rintro rfl
        obtain ⟨lay2, ds2, e1, e2, e3, e4, _⟩ := number_ok (lx_ok h).1
        simp at d7
        rw [← d7, a3] at e4
        exact absurd n2 e4
      exact ⟨.num ds, by rw [d2]; exact .num, d5 hne, d1⟩
    · obtain ⟨h, _⟩ := lx_ok h; cases h

theorem parseCase_sound {stmt : Option Nat → Cases → P Cases} (hS : SoundS stmt) {s0 s s' : PS}
    {sw : Option Nat} {cs cs' : Cases} (h0 : Eats s0 [.word "case".toList] s) (hc : s.c = s0.c)
    (hst : Stops s.lex.chars s.lex.tail)
    (h : parseCase stmt sw cs s = .ok cs' s') : PostS s0 sw cs cs' s' := by
  unfold parseCase at h
  cases sw with
  | none => cases h
  | some id =>
    dsimp only at h
    obind h v t1 h1
    obind h _u2 t2 h2
    obind h _u3 t3 h3
    obind h blk t4 h4
    obind h _u5 t5 h5
    obind h _u6 t6 h6
    obtain ⟨t, c1, c2, c3⟩ := caseConst_sound hst h1
    obtain ⟨w1, w2, w3⟩ := ws_ok h2
    obtain ⟨x3, x4⟩ := exp_eats (by simp [symbols]) rfl h3
    obtain ⟨a4, b4⟩ := bd_ok h4
    obtain ⟨a5, b5⟩ := bd_ok h5
    obtain ⟨a6, b6⟩ := bd_ok h6
    obtain ⟨us, st, m1, m2, m3, m4⟩ := hS _ _ _ _ _ h
    have q1 : Eats t3 [] t6 := Eats.bd (by rw [b6, b5, b4])
    refine ⟨_, _, .case c1 m1, (((((h0.trans c2).trans w1).trans x3).trans q1).trans m2).cast (by simp), ?_, ?_⟩
    · simp only [genSt]
      rw [x4, w2, c3, hc] at a4
      have hg : genLabel (caseName id v) s0.c = .ok () t6.c := by
        unfold genLabel
        rw [M.bind_ok a4, M.bind_ok a5, a6]
      rw [M.bind_ok hg, m3]
    · intro ho
      simp only [openIf] at ho
      exact m4 ho

theorem exprStmt_ok {n : Nat} {s s' : PS} (h : exprStmt n s = .ok () s') :
    ∃ ts e v, EGram prec 15 ts e ∧ Eats s (ts ++ [.sym [';']]) s' ∧ genR e s.c = .ok v s'.c := by
  unfold exprStmt at h
  obind h v s1 h1
  obtain ⟨ts, e, g1, g2, g3, g4⟩ := exprE h1
  obind h _u2 s2 h2
  obtain ⟨w1, w2, w3⟩ := ws_ok h2
  obtain ⟨x1, x2⟩ := exp_eats (by simp [symbols]) rfl h
  exact ⟨ts, e, v, g1, ((g2.trans w1).trans x1).cast (by simp), by rw [x2, w2]; exact g3⟩

theorem letter_utf8 {c : Char} (h : Letter c) : ∃ d x, utf8Char c = d :: x ∧ Letter d := by
  unfold utf8Char
  split
  · exact ⟨c, [], rfl, h⟩
  · rename_i hn
    refine ⟨_, _, rfl, ?_⟩
    unfold Letter at h ⊢
    have h1 : c.toNat / 64 % 32 = 2 ∨ c.toNat / 64 % 32 = 3 := by omega
    rcases h1 with h1 | h1 <;> rw [h1] <;> decide

/-- the first token of a text beginning with a letter -/
theorem first_word {q : Bool} {a b : List Char} {t : Tok} {us : List Tok} {c : Char} {x : List Char}
    (h : TokSeq q a (t :: us) b) (hs : ExprStart t) (ha : a = c :: x) (hc : Letter c) :
    ∃ w mid, t = .word w ∧ a = w ++ mid ∧ w ≠ [] ∧ (∀ c ∈ w, IdentChar c) ∧ NotStarting IdentChar mid ∧
      TokSeq q mid us b := by
  cases h with
  | @cons lay inp mid _ _ _ h1 h2 h3 =>
    have hlay : lay = [] := layout_solid h1 ha (letter_not_blank hc) (by rintro rfl; revert hc; decide)
    subst hlay
    obtain ⟨d, y, h4, h5⟩ := lexes_first h2
    have hd : d = c := by rw [h4] at ha; simp at ha; exact ha.1
    subst hd
    cases t with
    | word w =>
      cases h2 with
      | word k1 k2 k3 => exact ⟨w, mid, rfl, rfl, k1, k2, k3, h3⟩
    | num _ =>
      exfalso; unfold Letter at hc; simp only [Digit] at h5; omega
    | chr _ => simp only at h5; subst h5; exact absurd hc (by decide)
    | str _ => simp only at h5; subst h5; exact absurd hc (by decide)
    | head _ => exact absurd hs id
    | defn _ => exact absurd hs id
    | els => exact absurd hs id
    | sym s =>
      simp only [ExprStart, List.mem_cons, List.not_mem_nil, or_false] at hs
      rcases hs with rfl | rfl | rfl | rfl | rfl | rfl | rfl <;>
        (simp at h5; obtain ⟨rfl, _⟩ := h5; exact absurd hc (by decide))

theorem tokSeq_nil {q : Bool} {a b : List Char} (h : TokSeq q a [] b) : ∃ lay, a = lay ++ b ∧ Layout lay := by
  cases h with
  | nil hl => exact ⟨_, rfl, hl⟩

theorem parseKeyword_sound {stmt : Option Nat → Cases → P Cases} (hS : SoundS stmt) {n : Nat} {s0 s s' : PS}
    {sw : Option Nat} {cs cs' : Cases} {ch : Char} {r : List Char} (h0 : Eats s0 [] s) (hc : s.c = s0.c)
    (hs : s.lex.chars = ch :: r) (hlet : Letter ch)
    (h : parseKeyword stmt n sw cs s = .ok cs' s') : PostS s0 sw cs cs' s' := by
  unfold parseKeyword at h
  obind h name s1 h1
  obtain ⟨a1, a2, a3, a4, a5, a6, lay, a7, a8, a9⟩ := id_ok h1
  have hlay : lay = [] := layout_solid a8 (a7.symm.trans hs) (letter_not_blank hlet) (by rintro rfl; revert hlet; decide)
  subst hlay
  have hname : StartsLetter name := by
    cases name with
    | nil => simp at a7; rw [← a7, hs] at a3; exact absurd (Or.inl hlet) a3
    | cons c x => rw [hs] at a7; simp at a7; rw [← a7.1]; exact hlet
  have hne : name ≠ [] := by rintro rfl; exact hname
  obind h _u s2 h2
  obtain ⟨w1, w2, w3⟩ := ws_ok h2
  rw [← w1.2] at w3
  have he : Eats s0 [.word name] s2 := ((h0.trans (a5 hne)).trans w1).cast (by simp)
  have hcc : s2.c = s0.c := by rw [w2, a1, hc]
  replace h := ite_ok h
  rcases h with ⟨rfl, h⟩ | ⟨n1, h⟩
  · obind h _u3 s3 h3
    simp at h; obtain ⟨rfl, rfl⟩ := h
    exact parseReturn_sound he hcc h3
  replace h := ite_ok h
  rcases h with ⟨rfl, h⟩ | ⟨n2, h⟩
  · obind h _u3 s3 h3
    simp at h; obtain ⟨rfl, rfl⟩ := h
    exact parseAuto_sound he hcc h3
  replace h := ite_ok h
  rcases h with ⟨rfl, h⟩ | ⟨n3, h⟩
  · obind h _u3 s3 h3
    simp at h; obtain ⟨rfl, rfl⟩ := h
    exact parseExtrn_sound he hcc h3
  replace h := ite_ok h
  rcases h with ⟨rfl, h⟩ | ⟨n4, h⟩
  · obind h _u3 s3 h3
    simp at h; obtain ⟨rfl, rfl⟩ := h
    exact parseIf_sound hS he hcc h3
  replace h := ite_ok h
  rcases h with ⟨rfl, h⟩ | ⟨n5, h⟩
  · obind h _u3 s3 h3
    simp at h; obtain ⟨rfl, rfl⟩ := h
    exact parseWhile_sound hS he hcc h3
  replace h := ite_ok h
  rcases h with ⟨rfl, h⟩ | ⟨n6, h⟩
  · obind h _u3 s3 h3
    simp at h; obtain ⟨rfl, rfl⟩ := h
    exact parseSwitch_sound hS he hcc h3
  replace h := ite_ok h
  rcases h with ⟨rfl, h⟩ | ⟨n7, h⟩
  · exact parseCase_sound hS he hcc w3 h
  replace h := ite_ok h
  rcases h with ⟨rfl, h⟩ | ⟨n8, h⟩
  · obind h _u3 s3 h3
    simp at h; obtain ⟨rfl, rfl⟩ := h
    exact parseGoto_sound he hcc h3
  have hkw : name ∉ keywords := by
    unfold keywords
    simp only [List.mem_cons, List.not_mem_nil, or_false]
    rintro (h | h | h | h | h | h | h | h) <;> contradiction
  obind h c2 s3 h3
  obtain ⟨b1, b2, b3⟩ := re_ok h3
  replace h := ite_ok h
  rcases h with ⟨rfl, h⟩ | ⟨n9, h⟩
  · obind h blk t4 h4
    obind h _u5 t5 h5
    obind h _u6 t6 h6
    obtain ⟨a4, b4⟩ := bd_ok h4
    obtain ⟨a5, b5⟩ := bd_ok h5
    obtain ⟨a6, b6⟩ := bd_ok h6
    obtain ⟨us, st, m1, m2, m3, m4⟩ := hS _ _ _ _ _ h
    have q1 : Eats s3 [] t6 := Eats.bd (by rw [b6, b5, b4])
    have q2 : Eats s2 [.sym [':']] s3 := eats_sym1 (by simp [symbols]) b3 rfl b2
    refine ⟨_, _, .label hname hkw m1, (((he.trans q2).trans q1).trans m2).cast (by simp), ?_, ?_⟩
    · simp only [genSt]
      rw [b1, hcc] at a4
      have hg : genLabel name s0.c = .ok () t6.c := by
        unfold genLabel
        rw [M.bind_ok a4, M.bind_ok a5, a6]
      rw [M.bind_ok hg, m3]
    · intro ho
      simp only [openIf] at ho
      exact m4 ho
  · obind h _u4 s4 h4
    obtain ⟨u1, u2, u3⟩ := un_ok h4
    have : s4 = s2 := ps_ext (by rw [u3, b3]) (by rw [u2, b2]) (by rw [u1, b1])
    subst this
    obind h _u5 s5 h5
    obtain ⟨k1, k2⟩ := lx_ok h5
    rw [unreadAll_ok] at k1
    have k3 : s5.lex.chars = utf8 name ++ s4.lex.chars ∧ s5.lex.tail = s4.lex.tail := by
      cases hx : s5.lex; rw [hx] at k1; cases k1; exact ⟨rfl, rfl⟩
    obind h _u6 s6 h6
    simp at h; obtain ⟨rfl, rfl⟩ := h
    obtain ⟨ts, e, v, g1, g2, g3⟩ := exprStmt_ok h6
    obtain ⟨t, us, rfl, hst⟩ := egram_start g1
    obtain ⟨d, x, hu, hd⟩ : ∃ d x, utf8 name = d :: x ∧ Letter d := by
      cases name with
      | nil => exact absurd rfl hne
      | cons c y =>
        obtain ⟨d, x, e1, e2⟩ := letter_utf8 (c := c) hname
        exact ⟨d, x ++ utf8 y, by simp [utf8, e1], e2⟩
    obtain ⟨w, mid, rfl, f1, f2, f3, f4, f5⟩ := first_word g2.1 hst (by rw [k3.1, hu]; rfl) hd
    refine ⟨_, _, .exprHead g1, ⟨?_, ?_⟩, ?_, by simp [openIf]⟩
    · obtain ⟨lay0, hl0, hl1⟩ : ∃ lay0, s0.lex.chars = lay0 ++ s.lex.chars ∧ Layout lay0 := by
        exact tokSeq_nil h0.1
      obtain ⟨lay1, hl2, hl3⟩ : ∃ lay1, s1.lex.chars = lay1 ++ s4.lex.chars ∧ Layout lay1 := by
        exact tokSeq_nil w1.1
      rw [hl0, a7, hl2, List.nil_append]
      refine .cons hl1 (Lexes.headQuirk rfl hname a4 ?_ hkw hl3 ?_ f2 f3 f4) f5
      · rw [← hl2]; exact a3
      · rw [← f1, k3.1]; rfl
    · rw [g2.2, k3.2]; exact he.2
    · simp only [genSt]
      rw [k2, hcc] at g3
      rw [M.bind_ok g3]; rfl

theorem blockLoop_sound {stmt : Option Nat → Cases → P Cases} (hS : SoundS stmt) {n : Nat} {s s' : PS}
    {sw : Option Nat} {cs cs' : Cases} (h : loop n (blockBody stmt sw) cs s = .ok cs' s') :
    ∃ ts st, SsGram prec true ts st ∧ Eats s ts s' ∧ genSt st sw cs s.c = .ok cs' s'.c ∧ openIf st = false := by
  induction n generalizing s cs with
  | zero => cases h
  | succ n ih =>
    rw [loop_succ] at h
    cases hb : blockBody stmt sw cs s with
    | err e => rw [hb] at h; cases h
    | ok it t =>
      rw [hb] at h
      unfold blockBody at hb
      obind hb _u s1 h1
      obtain ⟨w1, w2, w3⟩ := ws_ok h1
      obind hb ch s2 h2
      obtain ⟨a1, a2, a3⟩ := re_ok h2
      replace hb := ite_ok hb
      rcases hb with ⟨rfl, hb⟩ | ⟨n1, hb⟩
      · simp at hb; obtain ⟨rfl, rfl⟩ := hb
        simp at h; obtain ⟨rfl, rfl⟩ := h
        have q : Eats s1 [.sym ['}']] s2 := eats_sym1 (by simp [symbols]) a3 rfl a2
        refine ⟨_, _, .nil, (w1.trans q).cast (by simp), ?_, rfl⟩
        simp only [genSt]
        rw [a1, w2]; rfl
      · obind hb _u3 s3 h3
        obtain ⟨u1, u2, u3⟩ := un_ok h3
        have : s3 = s1 := ps_ext (by rw [u3, a3]) (by rw [u2, a2]) (by rw [u1, a1])
        subst this
        obind hb cs1 s4 h4
        simp at hb; obtain ⟨rfl, rfl⟩ := hb
        obtain ⟨ts, st, g1, g2, g3, g4⟩ := hS _ _ _ _ _ h4
        obtain ⟨us, st2, j1, j2, j3, j4⟩ := ih h
        refine ⟨_, _, .cons g1 j1, ((w1.trans g2).trans j2).cast (by simp), ?_, rfl⟩
        simp only [genSt]
        rw [w2] at g3
        rw [M.bind_ok g3, j3]

theorem parseStmt_sound (n : Nat) : SoundS (parseStmt n) := by
  induction n with
  | zero => intro sw cs s cs' s' h; cases h
  | succ n ih =>
    intro sw cs s cs' s' h
    unfold parseStmt at h
    obind h _u s1 h1
    obtain ⟨w1, w2, w3⟩ := ws_ok h1
    obind h ch s2 h2
    obtain ⟨a1, a2, a3⟩ := re_ok h2
    replace h := ite_ok h
    rcases h with ⟨rfl, h⟩ | ⟨n1, h⟩
    · obtain ⟨ts, st, g1, g2, g3, g4⟩ := blockLoop_sound ih h
      have q : Eats s1 [.sym ['{']] s2 := eats_sym1 (by simp [symbols]) a3 rfl a2
      refine ⟨_, _, .block g1, ((w1.trans q).trans g2).cast (by simp), by rw [← w2, ← a1]; exact g3, ?_⟩
      intro ho; rw [g4] at ho; cases ho
    replace h := ite_ok h
    rcases h with ⟨rfl, h⟩ | ⟨n2, h⟩
    · simp at h; obtain ⟨rfl, rfl⟩ := h
      have q : Eats s1 [.sym [';']] s2 := eats_sym1 (by simp [symbols]) a3 rfl a2
      refine ⟨_, _, .empty, (w1.trans q).cast (by simp), ?_, by simp [openIf]⟩
      simp only [genSt]
      rw [a1, w2]; rfl
    replace h := ite_ok h
    rcases h with ⟨n3, h⟩ | ⟨n3, h⟩
    · obind h _u3 s3 h3
      obtain ⟨u1, u2, u3⟩ := un_ok h3
      have : s3 = s1 := ps_ext (by rw [u3, a3]) (by rw [u2, a2]) (by rw [u1, a1])
      subst this
      exact parseKeyword_sound ih w1 w2 a3 ((isLetter_iff ch).1 n3) h
    · obind h _u3 s3 h3
      obtain ⟨u1, u2, u3⟩ := un_ok h3
      have : s3 = s1 := ps_ext (by rw [u3, a3]) (by rw [u2, a2]) (by rw [u1, a1])
      subst this
      obind h _u4 s4 h4
      simp at h; obtain ⟨rfl, rfl⟩ := h
      obtain ⟨ts, e, v, g1, g2, g3⟩ := exprStmt_ok h4
      refine ⟨_, _, .expr g1 ?_, (w1.trans g2).cast (by simp), ?_, by simp [openIf]⟩
      · rintro x us rfl
        obtain ⟨t, us', e1, hst⟩ := egram_start g1
        simp at e1; obtain ⟨rfl, rfl⟩ := e1
        have hx := g2.1
        simp only [List.cons_append] at hx
        generalize hh : s3.lex.chars = inp0 at hx
        cases hx with
        | @cons lay inp mid _ _ _ k1 k2 k3 =>
          have hlay : lay = [] := layout_stops k1 (by rw [← hh]; exact w3.1)
          subst hlay
          simp at hh
          cases k2 with
          | word l1 l2 l3 =>
            cases x with
            | nil => exact absurd rfl l1
            | cons d y =>
              rw [hh] at a3
              simp at a3
              rw [← a3.1] at n3
              exact n3 ((isLetter_iff d).2 hst)
      · simp only [genSt]
        rw [w2] at g3
        rw [M.bind_ok g3]; rfl

end Blang
