import Verif.Proofs.Tokens
import Verif.Proofs.Loop
/-
Soundness of the expression parser: whatever `parseExpr` accepts is an expression of the grammar,
and the code generated is `genR` of its tree.
-/
namespace Blang
open Spec

/-- `h : (x >>= f) s = .ok b s'` becomes the two steps. -/
macro "obind " h:ident a:ident s:ident h1:ident : tactic =>
  `(tactic| (rw [M.bind_eq_ok] at $h:ident; refine Exists.elim $h ?_; clear $h; intro $a:ident $h:ident
             refine Exists.elim $h ?_; clear $h; intro $s:ident $h:ident
             have $h1:ident := And.left $h; replace $h:ident := And.right $h))

theorem ite_ok {σ α : Type} {c : Prop} [Decidable c] {f g : M σ α} {s : σ} {r : R σ α}
    (h : (if c then f else g) s = r) : (c ∧ f s = r) ∨ (¬ c ∧ g s = r) := by
  by_cases hc : c
  · rw [if_pos hc] at h; exact .inl ⟨hc, h⟩
  · rw [if_neg hc] at h; exact .inr ⟨hc, h⟩

theorem Spec.EGram.mono {pr : Bop → Nat} {L L' : Nat} {ts : List Tok} {e : Ex} (h : EGram pr L ts e) (hL : L ≤ L') :
    EGram pr L' ts e := by
  cases h with
  | num => exact .num
  | chr => exact .chr
  | str => exact .str
  | var h => exact .var h
  | paren h => exact .paren h
  | index h h1 h2 => exact .index (by omega) h1 h2
  | callName h h1 h2 => exact .callName (by omega) h1 h2
  | call h h1 h2 h3 => exact .call (by omega) h1 h2 h3
  | post h h1 => exact .post (by omega) h1
  | pre h h1 => exact .pre (by omega) h1
  | not h h1 => exact .not (by omega) h1
  | neg h h1 => exact .neg (by omega) h1
  | deref h h1 => exact .deref (by omega) h1
  | addr h h1 => exact .addr (by omega) h1
  | bin h h1 h2 => exact .bin (by omega) h1 h2
  | cond h h1 h2 h3 => exact .cond (by omega) h1 h2 h3
  | assign h h1 h2 => exact .assign (by omega) h1 h2
  | assignOp h h1 h2 => exact .assignOp (by omega) h1 h2

/-- The text begins with the operator `o`. -/
def OpAt (o : Bop) (r : List Char) : Prop := ∃ x, r = o.text ++ x ∧ MaxMunch o.text x

theorem prec_le (o : Bop) : prec o ≤ 10 := by cases o <;> decide

theorem prec_ge (o : Bop) : 3 ≤ prec o := by cases o <;> decide

/-- What `parseExpressionWithLevel` at level `L` guarantees when it succeeds. -/
def PostE (s0 : PS) (L : Nat) (v : Val) (s' : PS) : Prop :=
  ∃ ts e, EGram prec L ts e ∧ Eats s0 ts s' ∧ genR e s0.c = .ok v s'.c ∧ Stops s'.lex.chars s'.lex.tail ∧
    (L < 13 → ∀ o, prec o ≤ L → ¬ OpAt o s'.lex.chars)

def SoundE (rec : Nat → P Val) : Prop := ∀ L s v s', 2 ≤ L → rec L s = .ok v s' → PostE s L v s'

/-- Invariant of the operator loop. -/
def LInv (s0 : PS) (L : Nat) (left : LV) (s : PS) : Prop :=
  ∃ ts e p, EGram prec p ts e ∧ (p = 2 ∨ p ≤ L ∧ p ≤ 10) ∧ (left.2 = true → p = 2) ∧ Eats s0 ts s ∧
    genL e s0.c = .ok left s.c ∧
    (p = 2 ∨ (Stops s.lex.chars s.lex.tail ∧ ∀ o, prec o < p → ¬ OpAt o s.lex.chars))

/-- The same after layout has been skipped. -/
def Ctx (s0 : PS) (L : Nat) (left : LV) (s : PS) : Prop :=
  ∃ ts e p, EGram prec p ts e ∧ (p = 2 ∨ p ≤ L ∧ p ≤ 10) ∧ (left.2 = true → p = 2) ∧ Eats s0 ts s ∧
    genL e s0.c = .ok left s.c ∧ Stops s.lex.chars s.lex.tail ∧ ∀ o, prec o < p → ¬ OpAt o s.lex.chars

theorem ws_stop {s s' : PS} (hs : Stops s.lex.chars s.lex.tail) (h : lx whitespace s = .ok () s') : s' = s := by
  unfold lx at h
  have : whitespace s.lex = .ok () s.lex := whitespace_stop hs
  rw [this] at h
  cases h; rfl

theorem LInv.ctx {s0 s s1 : PS} {L : Nat} {left : LV} (hI : LInv s0 L left s) (h : lx whitespace s = .ok () s1) :
    Ctx s0 L left s1 := by
  obtain ⟨ts, e, p, h1, h2, h3, h4, h5, h6⟩ := hI
  rcases h6 with rfl | ⟨h6, h7⟩
  · obtain ⟨w1, w2, w3⟩ := ws_ok h
    refine ⟨ts, e, 2, h1, h2, h3, (h4.trans w1).cast (by simp), by rw [w2]; exact h5, ?_, ?_⟩
    · rw [w1.2]; exact w3
    · intro o ho; have := prec_ge o; omega
  · have := ws_stop h6 h; subst this
    exact ⟨ts, e, p, h1, h2, h3, h4, h5, h6, h7⟩

theorem rval_pure (v : Val) (c : CState) : rval (v, false) c = .ok v c := rfl

/-- The level at which the compiler parses the right operand. -/
def rlevel : Bop → Nat
  | .mul | .div | .mod => 2
  | .add | .sub => 3
  | .shl | .shr => 4
  | .lt | .le | .gt | .ge => 5
  | .eq | .ne => 6
  | .band => 7
  | .bor => 9

theorem rlevel_spec (o : Bop) : 2 ≤ rlevel o ∧ rlevel o ≤ prec o - 1 ∧ rlevel o < 13 ∧
    ∀ o', prec o' < prec o → prec o' ≤ rlevel o := by
  refine ⟨by cases o <;> decide, by cases o <;> decide, by cases o <;> decide, ?_⟩
  intro o'; revert o o'; intro o o'; cases o <;> cases o' <;> decide

theorem bin_step {rec : Nat → P Val} (hrec : SoundE rec) {s0 s1 s2 s3 s4 : PS} {L : Nat} {left : LV} {o : Bop}
    {x y v : Val} (hC : Ctx s0 L left s1) (hL : prec o ≤ L) (hop : OpAt o s1.lex.chars)
    (he : Eats s1 [.sym o.text] s2) (hx : rval left s1.c = .ok x s2.c) (hr : rec (rlevel o) s2 = .ok y s3)
    (hg : genOp (opOf o) x y s3.c = .ok v s4.c) (hl : s4.lex = s3.lex) : LInv s0 L (v, false) s4 := by
  obtain ⟨ts, e, p, h1, h2, h3, h4, h5, h6, h7⟩ := hC
  obtain ⟨r1, r2, r3, r4⟩ := rlevel_spec o
  obtain ⟨us, r, g1, g2, g3, g4, g5⟩ := hrec _ _ _ _ r1 hr
  have hp : p ≤ prec o := by
    apply Nat.le_of_not_lt; intro hlt; exact h7 o hlt hop
  refine ⟨ts ++ .sym o.text :: us, .bin o e r, prec o, .bin (Nat.le_refl _) (h1.mono hp) (g1.mono r2), .inr ⟨hL, prec_le o⟩,
    by simp, ?_, ?_, .inr ⟨?_, ?_⟩⟩
  · have := (h4.trans he).trans g2
    refine ((this.trans (Eats.bd hl))).cast (by simp)
  · simp only [genL]
    rw [M.bind_ok h5, M.bind_ok hx]
    unfold genR at g3
    rw [M.bind_eq_ok] at g3
    obtain ⟨rv, c1, k1, k2⟩ := g3
    rw [M.bind_ok k1, M.bind_ok k2, M.bind_ok hg]; rfl
  · rw [hl]; exact g4
  · intro o' ho'; rw [hl]; exact g5 r3 o' (r4 o' ho')

theorem binary_step {rec : Nat → P Val} (hrec : SoundE rec) {s0 s1 s2 s' : PS} {L : Nat} {left : LV} {o : Bop}
    {it : Iter LV Val} (hC : Ctx s0 L left s1) (hL : prec o ≤ L) (hop : OpAt o s1.lex.chars)
    (he : Eats s1 [.sym o.text] s2) (hc : s2.c = s1.c)
    (h : binary rec left (rlevel o) (opOf o) s2 = .ok it s') : ∃ v, it = .next v ∧ LInv s0 L v s' := by
  unfold binary at h
  obind h x t1 hx
  obind h y t2 hy
  obind h v t3 hv
  obtain ⟨hx1, hx2⟩ := bd_ok hx
  obtain ⟨hv1, hv2⟩ := bd_ok hv
  simp at h; obtain ⟨rfl, rfl⟩ := h
  rw [hc] at hx1
  refine ⟨_, rfl, bin_step hrec hC hL hop (s2 := t1) ?_ hx1 hy hv1 hv2⟩
  exact (he.trans (Eats.bd hx2)).cast (by simp)

/-- as `binary_step`, the left operand having been loaded before the operator was read completely -/
theorem binary_step' {rec : Nat → P Val} (hrec : SoundE rec) {s0 s1 s2 s' : PS} {L : Nat} {left : LV} {o : Bop}
    {x : Val} {it : Iter LV Val} (hC : Ctx s0 L left s1) (hL : prec o ≤ L) (hop : OpAt o s1.lex.chars)
    (he : Eats s1 [.sym o.text] s2) (hx : rval left s1.c = .ok x s2.c)
    (h : binary rec (x, false) (rlevel o) (opOf o) s2 = .ok it s') : ∃ v, it = .next v ∧ LInv s0 L v s' := by
  unfold binary at h
  obind h x' t1 hx'
  obind h y t2 hy
  obind h v t3 hv
  obtain ⟨hx1, hx2⟩ := bd_ok hx'
  obtain ⟨hv1, hv2⟩ := bd_ok hv
  simp at h; obtain ⟨rfl, rfl⟩ := h
  rw [rval_pure] at hx1
  cases hx1'' : t1.c
  have hcc : s2.c = t1.c ∧ x = x' := by
    generalize t1.c = z at *; cases hx1; exact ⟨rfl, rfl⟩
  obtain ⟨hcc, rfl⟩ := hcc
  refine ⟨_, rfl, bin_step hrec hC hL hop (s2 := t1) ?_ (by rw [← hcc]; exact hx) hy hv1 hv2⟩
  exact (he.trans (Eats.bd hx2)).cast (by simp)

theorem stop_step {s0 s1 s' : PS} {L : Nat} {left : LV} {it : Iter LV Val} (hL : 2 ≤ L) (hC : Ctx s0 L left s1)
    (hno : L < 13 → ∀ o, prec o ≤ L → ¬ OpAt o s1.lex.chars) (h : stop left s1 = .ok it s') :
    ∃ v, it = .done v ∧ PostE s0 L v s' := by
  unfold stop at h
  obind h v t1 hv
  obtain ⟨hv1, hv2⟩ := bd_ok hv
  simp at h; obtain ⟨rfl, rfl⟩ := h
  obtain ⟨ts, e, p, h1, h2, h3, h4, h5, h6, h7⟩ := hC
  refine ⟨v, rfl, ts, e, h1.mono (by omega), (h4.trans (Eats.bd hv2)).cast (by simp), ?_, by rw [hv2]; exact h6,
    by rw [hv2]; exact hno⟩
  unfold genR
  rw [M.bind_ok h5, hv1]

theorem noOp_step {s0 s1 s2 s' : PS} {L : Nat} {left : LV} {it : Iter LV Val} {ch : Char} (hL : 2 ≤ L)
    (hC : Ctx s0 L left s1) (hno : L < 13 → ∀ o, prec o ≤ L → ¬ OpAt o s1.lex.chars)
    (hc : s1.lex.chars = ch :: s2.lex.chars) (ht : s2.lex.tail = s1.lex.tail) (hcc : s2.c = s1.c)
    (h : noOp ch left s2 = .ok it s') :
    ∃ v, it = .done v ∧ PostE s0 L v s' := by
  unfold noOp at h
  obind h _u t1 hv
  obtain ⟨u1, u2, u3⟩ := un_ok hv
  have : t1 = s1 := ps_ext (by rw [u3, hc]) (by rw [u2, ht]) (by rw [u1, hcc])
  subst this
  exact stop_step hL hC hno h

/-- Result of one iteration of the operator loop. -/
def IterPost (s0 : PS) (L : Nat) (it : Iter LV Val) (s' : PS) : Prop :=
  match it with
  | .next v => LInv s0 L v s'
  | .done v => PostE s0 L v s'

theorem IterPost.ofNext {s0 s' : PS} {L : Nat} {it : Iter LV Val} (h : ∃ v, it = .next v ∧ LInv s0 L v s') :
    IterPost s0 L it s' := by obtain ⟨v, rfl, h⟩ := h; exact h

theorem IterPost.ofDone {s0 s' : PS} {L : Nat} {it : Iter LV Val} (h : ∃ v, it = .done v ∧ PostE s0 L v s') :
    IterPost s0 L it s' := by obtain ⟨v, rfl, h⟩ := h; exact h

/-! ### the operators -/

theorem head_ne {r : List Char} {c : Char} (h : ∀ r', r ≠ c :: r') : r.head? ≠ some c := by
  cases r with
  | nil => simp
  | cons d r => intro h'; simp at h'; subst h'; exact h r rfl

theorem opAt_cons {o : Bop} {r : List Char} (h : OpAt o r) : ∃ c x, o.text = c :: x ∧ r.head? = some c := by
  obtain ⟨x, rfl, _⟩ := h
  cases o <;> exact ⟨_, _, rfl, rfl⟩

/-- A symbol followed by end of text. -/
theorem munch_end {x : List Char} (h : [] ∉ extensions x) : MaxMunch x [] := by
  intro y hy hp
  rw [List.prefix_nil] at hp; subst hp; exact h hy

theorem ext_lt : extensions ['<'] = [['<'], ['=']] := by rfl
theorem ext_gt : extensions ['>'] = [['>'], ['=']] := by rfl
theorem ext_add : extensions ['+'] = [['+']] := by rfl
theorem ext_sub : extensions ['-'] = [['-']] := by rfl
theorem ext_not : extensions ['!'] = [['=']] := by rfl
theorem ext_div : extensions ['/'] = [['*']] := by rfl
theorem ext_eqeq : extensions ['=', '='] = [['=']] := by rfl
theorem ext_eq : extensions ['='] = [['='], ['='], ['=', '='], ['+'], ['-'], ['*'], ['/'], ['%'],
   ['&'], ['|'], ['<'], ['<', '<'], ['<', '='], ['>'], ['>', '>'], ['>', '='], ['!', '=']] := by rfl

/-- An operator read completely. -/
theorem op_read {o : Bop} {s1 s2 : PS} (hc : s1.lex.chars = o.text ++ s2.lex.chars)
    (hm : MaxMunch o.text s2.lex.chars) (ht : s2.lex.tail = s1.lex.tail) :
    OpAt o s1.lex.chars ∧ Eats s1 [.sym o.text] s2 := by
  refine ⟨⟨_, hc, hm⟩, eats_sym ?_ hc hm ht⟩
  cases o <;> simp [Bop.text, symbols]

theorem handleLt_sound {rec : Nat → P Val} (hrec : SoundE rec) {s0 s1 s2 s' : PS} {L : Nat} {left : LV}
    {it : Iter LV Val} (hL : 6 ≤ L) (hC : Ctx s0 L left s1) (hc : s1.lex.chars = '<' :: s2.lex.chars)
    (ht : s2.lex.tail = s1.lex.tail) (hcc : s2.c = s1.c) (h : handleLt rec left s2 = .ok it s') :
    IterPost s0 L it s' := by
  unfold handleLt at h
  obind h x t1 hx
  obtain ⟨hx1, hx2⟩ := bd_ok hx
  obind h r t2 hr
  obtain ⟨r1, r2, r3⟩ := rd_ok hr
  rw [hcc] at hx1
  rcases r3 with ⟨c, rfl, r3⟩ | ⟨rfl, r3, r4, r5⟩ | ⟨rfl, r3, r4, r5⟩
  · simp only [M.ite_apply'] at h
    rw [hx2] at r3
    split at h
    · rename_i h0; subst h0
      obtain ⟨o1, o2⟩ := op_read (o := .shl) (s1 := s1) (s2 := t2) (by rw [hc, r3]; rfl) (munch_nil rfl)
        (by rw [r2, hx2, ht])
      exact .ofNext (binary_step' hrec (o := .shl) hC hL o1 o2 (by rw [r1]; exact hx1) h)
    · split at h
      · rename_i h0; subst h0
        obtain ⟨o1, o2⟩ := op_read (o := .le) (s1 := s1) (s2 := t2) (by rw [hc, r3]; rfl) (munch_nil rfl)
          (by rw [r2, hx2, ht])
        exact .ofNext (binary_step' hrec (o := .le) hC hL o1 o2 (by rw [r1]; exact hx1) h)
      · rename_i n1 n2
        obind h _u t3 hu
        have h3 : t3 = t1 := rd_un hr hu
        subst h3
        obtain ⟨o1, o2⟩ := op_read (o := .lt) (s1 := s1) (s2 := t3) (by rw [hc, hx2]; rfl)
          (munch_two ext_lt (by rw [hx2, r3]; simpa using n1) (by rw [hx2, r3]; simpa using n2))
          (by rw [hx2, ht])
        exact .ofNext (binary_step' hrec (o := .lt) hC hL o1 o2 hx1 h)
  all_goals
    rw [hx2] at r3
    obtain ⟨o1, o2⟩ := op_read (o := .lt) (s1 := s1) (s2 := t2) (by rw [hc, r3, r5]; rfl)
      (by rw [r5]; exact munch_end (x := ['<']) (by rw [ext_lt]; simp)) (by rw [r2, hx2, ht])
    exact .ofNext (binary_step' hrec (o := .lt) hC hL o1 o2 (by rw [r1]; exact hx1) h)

theorem handleGt_sound {rec : Nat → P Val} (hrec : SoundE rec) {s0 s1 s2 s' : PS} {L : Nat} {left : LV}
    {it : Iter LV Val} (hL : 6 ≤ L) (hC : Ctx s0 L left s1) (hc : s1.lex.chars = '>' :: s2.lex.chars)
    (ht : s2.lex.tail = s1.lex.tail) (hcc : s2.c = s1.c) (h : handleGt rec left s2 = .ok it s') :
    IterPost s0 L it s' := by
  unfold handleGt at h
  obind h x t1 hx
  obtain ⟨hx1, hx2⟩ := bd_ok hx
  obind h r t2 hr
  obtain ⟨r1, r2, r3⟩ := rd_ok hr
  rw [hcc] at hx1
  rcases r3 with ⟨c, rfl, r3⟩ | ⟨rfl, r3, r4, r5⟩ | ⟨rfl, r3, r4, r5⟩
  · simp only [M.ite_apply'] at h
    rw [hx2] at r3
    split at h
    · rename_i h0; subst h0
      obtain ⟨o1, o2⟩ := op_read (o := .shr) (s1 := s1) (s2 := t2) (by rw [hc, r3]; rfl) (munch_nil rfl)
        (by rw [r2, hx2, ht])
      exact .ofNext (binary_step' hrec (o := .shr) hC hL o1 o2 (by rw [r1]; exact hx1) h)
    · split at h
      · rename_i h0; subst h0
        obtain ⟨o1, o2⟩ := op_read (o := .ge) (s1 := s1) (s2 := t2) (by rw [hc, r3]; rfl) (munch_nil rfl)
          (by rw [r2, hx2, ht])
        exact .ofNext (binary_step' hrec (o := .ge) hC hL o1 o2 (by rw [r1]; exact hx1) h)
      · rename_i n1 n2
        obind h _u t3 hu
        have h3 : t3 = t1 := rd_un hr hu
        subst h3
        obtain ⟨o1, o2⟩ := op_read (o := .gt) (s1 := s1) (s2 := t3) (by rw [hc, hx2]; rfl)
          (munch_two ext_gt (by rw [hx2, r3]; simpa using n1) (by rw [hx2, r3]; simpa using n2))
          (by rw [hx2, ht])
        exact .ofNext (binary_step' hrec (o := .gt) hC hL o1 o2 hx1 h)
  all_goals
    rw [hx2] at r3
    obtain ⟨o1, o2⟩ := op_read (o := .gt) (s1 := s1) (s2 := t2) (by rw [hc, r3, r5]; rfl)
      (by rw [r5]; exact munch_end (x := ['>']) (by rw [ext_gt]; simp)) (by rw [r2, hx2, ht])
    exact .ofNext (binary_step' hrec (o := .gt) hC hL o1 o2 (by rw [r1]; exact hx1) h)

theorem handleAdd_sound {rec : Nat → P Val} (hrec : SoundE rec) {s0 s1 s2 s' : PS} {L : Nat} {left : LV}
    {it : Iter LV Val} {ch : Char} (hch : ch = '+' ∨ ch = '-') (hL : 4 ≤ L) (hC : Ctx s0 L left s1)
    (hc : s1.lex.chars = ch :: s2.lex.chars)
    (ht : s2.lex.tail = s1.lex.tail) (hcc : s2.c = s1.c) (h : handleAdd rec ch left s2 = .ok it s') :
    IterPost s0 L it s' := by
  obtain ⟨o, ho1, ho2, ho3, ho4, ho5⟩ : ∃ o : Bop, o.text = [ch] ∧ (if ch = '+' then Op.bin .add else .bin .sub) = opOf o ∧
      prec o = 4 ∧ rlevel o = 3 ∧ extensions [ch] = [[ch]] := by
    rcases hch with rfl | rfl
    · exact ⟨.add, rfl, rfl, rfl, rfl, rfl⟩
    · exact ⟨.sub, rfl, rfl, rfl, rfl, rfl⟩
  unfold handleAdd at h
  rw [ho2, ← ho4] at h
  obind h r t2 hr
  obtain ⟨r1, r2, r3⟩ := rd_ok hr
  rcases r3 with ⟨c, rfl, r3⟩ | ⟨rfl, r3, r4, r5⟩ | ⟨rfl, r3, r4, r5⟩
  · simp only [M.ite_apply'] at h
    split at h
    · rename_i h0; subst h0
      obind h _u t3 hu
      have h3 : t3 = s2 := rd_un hr hu
      subst h3
      obind h _u2 t4 hu2
      obtain ⟨u1, u2, u3⟩ := un_ok hu2
      have h4 : t4 = s1 := ps_ext (by rw [u3, hc]) (by rw [u2, ht]) (by rw [u1, hcc])
      subst h4
      refine .ofDone (stop_step (by omega) hC ?_ h)
      intro _ o' ho' hop
      obtain ⟨x, hx, hm⟩ := hop
      rw [hc, r3] at hx
      rcases hch with rfl | rfl
      · cases o' <;> simp [Bop.text] at hx
        subst hx
        exact hm ['+'] (by rw [Bop.text, ext_add]; simp) ⟨_, rfl⟩
      · cases o' <;> simp [Bop.text] at hx
        subst hx
        exact hm ['-'] (by rw [Bop.text, ext_sub]; simp) ⟨_, rfl⟩
    · rename_i n1
      obind h _u t3 hu
      unfold unreadNZ at hu
      have hop : OpAt o s1.lex.chars := by
        refine ⟨s2.lex.chars, by rw [ho1, hc]; rfl, ?_⟩
        rw [ho1]
        exact munch_one ho5 (by rw [r3]; simpa using n1)
      have heat : Eats s1 [.sym o.text] t3 ∧ t3.c = s1.c := by
        split at hu
        · have h3 : t3 = s2 := rd_un hr hu
          subst h3
          exact ⟨(op_read (s1 := s1) (s2 := t3) (by rw [ho1, hc]; rfl)
            (by rw [ho1]; exact munch_one ho5 (by rw [r3]; simpa using n1)) ht).2, hcc⟩
        · rename_i hz
          simp at hz; subst hz
          have hu' : t3 = t2 := by
            simp [lx] at hu; exact hu.symm
          subst hu'
          refine ⟨⟨?_, by rw [r2, ht]⟩, by rw [r1, hcc]⟩
          rw [hc, r3, ho1]
          exact .one (Lexes.symNul (s := [ch]) rfl (by rcases hch with rfl | rfl <;> simp))
      exact .ofNext (binary_step hrec hC (by omega) hop heat.1 heat.2 h)
  all_goals
    obtain ⟨o1, o2⟩ := op_read (o := o) (s1 := s1) (s2 := t2) (by rw [ho1, hc, r3, r5]; rfl)
      (by rw [r5]; exact munch_end (by rw [ho1, ho5]; simp)) (by rw [r2, ht])
    exact .ofNext (binary_step hrec hC (by omega) o1 o2 (by rw [r1, hcc]) h)

/-! ### assignment -/

/-- spelling of an assignment operator -/
def asgText : Option Bop → List Char
  | none => ['=']
  | some o => '=' :: o.text

theorem assign_done {rec : Nat → P Val} (hrec : SoundE rec) {s0 s1 s2 s3 s4 : PS} {L : Nat} {left : LV}
    {o : Option Bop} {r v : Val} (hL : 14 ≤ L) (hC : Ctx s0 L left s1) (hlv : left.2 = true)
    (he : Eats s1 [.sym (asgText o)] s2) (hcc : s2.c = s1.c) (hr : rec 14 s2 = .ok r s3)
    (hg : genAssign (o.map opOf) left.1 r s3.c = .ok v s4.c) (hl : s4.lex = s3.lex) : PostE s0 L v s4 := by
  obtain ⟨ts, e, p, h1, h2, h3, h4, h5, h6, h7⟩ := hC
  obtain rfl := h3 hlv
  obtain ⟨us, e', g1, g2, g3, g4, g5⟩ := hrec _ _ _ _ (by decide) hr
  have hgram : EGram prec L (ts ++ .sym (asgText o) :: us) (.assign o e e') := by
    cases o with
    | none => exact .assign hL h1 g1
    | some o => exact .assignOp hL h1 g1
  refine ⟨_, _, hgram, ?_, ?_, by rw [hl]; exact g4, fun h => by omega⟩
  · exact (((h4.trans he).trans g2).trans (Eats.bd hl)).cast (by simp)
  · unfold genR
    simp only [genL]
    obtain ⟨lv, fl⟩ := left
    simp at hlv; subst hlv
    rw [M.bind_ok (a := (v, false)) (s' := s4.c)]
    · rfl
    · rw [M.bind_ok h5]
      rw [M.bind_ok (show needLval (lv, true) s1.c = .ok lv s1.c from rfl)]
      unfold genR at g3
      rw [M.bind_eq_ok] at g3
      obtain ⟨rv, c1, k1, k2⟩ := g3
      rw [hcc] at k1
      rw [M.bind_ok k1, M.bind_ok k2, M.bind_ok hg]; rfl

theorem ext_mem_eq (x : List Char) (hx : x ∈ extensions ['=']) : x = ['='] ∨ x = ['=', '='] ∨ x = ['!', '='] ∨
    ∃ c, x.head? = some c ∧ c ∈ ['+', '-', '*', '/', '%', '&', '|', '<', '>'] := by
  rw [ext_eq] at hx
  have key : ∀ x ∈ [['='], ['='], ['=', '='], ['+'], ['-'], ['*'], ['/'], ['%'],
     ['&'], ['|'], ['<'], ['<', '<'], ['<', '='], ['>'], ['>', '>'], ['>', '='], ['!', '=']],
     x = ['='] ∨ x = ['=', '='] ∨ x = ['!', '='] ∨
      (x.head?.any (fun c => c ∈ ['+', '-', '*', '/', '%', '&', '|', '<', '>'])) = true := by decide
  rcases key x hx with h | h | h | h
  · exact .inl h
  · exact .inr (.inl h)
  · exact .inr (.inr (.inl h))
  · cases hh : x.head? with
    | none => rw [hh] at h; cases h
    | some c => rw [hh] at h; exact .inr (.inr (.inr ⟨c, rfl, of_decide_eq_true h⟩))

/-- the compound operator read after `=` -/
theorem compoundOp_ok {s2 t u : PS} {c2 : RC} {oo : Option Op} (hr : lx readChar s2 = .ok c2 t) (hne : c2 ≠ .ch '=')
    (h : compoundOp c2 t = .ok oo u) :
    ∃ o : Option Bop, oo = o.map opOf ∧ u.c = s2.c ∧ u.lex.tail = s2.lex.tail ∧
      '=' :: s2.lex.chars = asgText o ++ u.lex.chars ∧ MaxMunch (asgText o) u.lex.chars ∧ asgText o ∈ symbols := by
  obtain ⟨r1, r2, r3⟩ := rd_ok hr
  rcases r3 with ⟨c, rfl, r3⟩ | ⟨rfl, r3, r4, r5⟩ | ⟨rfl, r3, r4, r5⟩
  · unfold compoundOp at h
    dsimp only at h
    have hne' : c ≠ '=' := fun h => hne (by rw [h])
    replace h := ite_ok h
    rcases h with ⟨h0, h⟩ | ⟨a1, h⟩
    · subst h0; simp at h; obtain ⟨rfl, rfl⟩ := h
      exact ⟨some .add, rfl, r1, r2, by rw [r3]; rfl, munch_nil rfl, by simp [asgText, Bop.text, symbols]⟩
    replace h := ite_ok h
    rcases h with ⟨h0, h⟩ | ⟨a2, h⟩
    · subst h0; simp at h; obtain ⟨rfl, rfl⟩ := h
      exact ⟨some .sub, rfl, r1, r2, by rw [r3]; rfl, munch_nil rfl, by simp [asgText, Bop.text, symbols]⟩
    replace h := ite_ok h
    rcases h with ⟨h0, h⟩ | ⟨a3, h⟩
    · subst h0; simp at h; obtain ⟨rfl, rfl⟩ := h
      exact ⟨some .mul, rfl, r1, r2, by rw [r3]; rfl, munch_nil rfl, by simp [asgText, Bop.text, symbols]⟩
    replace h := ite_ok h
    rcases h with ⟨h0, h⟩ | ⟨a4, h⟩
    · subst h0; simp at h; obtain ⟨rfl, rfl⟩ := h
      exact ⟨some .div, rfl, r1, r2, by rw [r3]; rfl, munch_nil rfl, by simp [asgText, Bop.text, symbols]⟩
    replace h := ite_ok h
    rcases h with ⟨h0, h⟩ | ⟨a5, h⟩
    · subst h0; simp at h; obtain ⟨rfl, rfl⟩ := h
      exact ⟨some .mod, rfl, r1, r2, by rw [r3]; rfl, munch_nil rfl, by simp [asgText, Bop.text, symbols]⟩
    replace h := ite_ok h
    rcases h with ⟨h0, h⟩ | ⟨a6, h⟩
    · subst h0; simp at h; obtain ⟨rfl, rfl⟩ := h
      exact ⟨some .band, rfl, r1, r2, by rw [r3]; rfl, munch_nil rfl, by simp [asgText, Bop.text, symbols]⟩
    replace h := ite_ok h
    rcases h with ⟨h0, h⟩ | ⟨a7, h⟩
    · subst h0; simp at h; obtain ⟨rfl, rfl⟩ := h
      exact ⟨some .bor, rfl, r1, r2, by rw [r3]; rfl, munch_nil rfl, by simp [asgText, Bop.text, symbols]⟩
    replace h := ite_ok h
    rcases h with ⟨h0, h⟩ | ⟨a8, h⟩
    · subst h0
      obind h q t3 hq
      obtain ⟨q1, q2, q3⟩ := rd_ok hq
      rcases q3 with ⟨d, rfl, q3⟩ | ⟨rfl, q3, q4, q5⟩ | ⟨rfl, q3, q4, q5⟩
      · simp only [M.ite_apply'] at h
        split at h
        · rename_i h0; subst h0; simp at h; obtain ⟨rfl, rfl⟩ := h
          exact ⟨some .shl, rfl, by rw [q1, r1], by rw [q2, r2], by rw [r3, q3]; rfl, munch_nil rfl, by simp [asgText, Bop.text, symbols]⟩
        · split at h
          · rename_i h0; subst h0; simp at h; obtain ⟨rfl, rfl⟩ := h
            exact ⟨some .le, rfl, by rw [q1, r1], by rw [q2, r2], by rw [r3, q3]; rfl, munch_nil rfl, by simp [asgText, Bop.text, symbols]⟩
          · rename_i n1 n2
            obind h _u t4 hu
            have h3 : t4 = t := rd_un hq hu
            subst h3
            simp at h; obtain ⟨rfl, rfl⟩ := h
            exact ⟨some .lt, rfl, r1, r2, by rw [r3]; rfl,
              munch_two (x := ['=', '<']) (c := '<') (d := '=') rfl (by rw [q3]; simpa using n1) (by rw [q3]; simpa using n2),
              by simp [asgText, Bop.text, symbols]⟩
      all_goals
        simp at h; obtain ⟨rfl, rfl⟩ := h
        exact ⟨some .lt, rfl, by rw [q1, r1], by rw [q2, r2], by rw [r3, q3, q5]; rfl,
          by rw [q5]; exact munch_end (x := ['=', '<']) (by rw [show extensions ['=', '<'] = [['<'], ['=']] from rfl]; simp),
          by simp [asgText, Bop.text, symbols]⟩
    replace h := ite_ok h
    rcases h with ⟨h0, h⟩ | ⟨a9, h⟩
    · subst h0
      obind h q t3 hq
      obtain ⟨q1, q2, q3⟩ := rd_ok hq
      rcases q3 with ⟨d, rfl, q3⟩ | ⟨rfl, q3, q4, q5⟩ | ⟨rfl, q3, q4, q5⟩
      · simp only [M.ite_apply'] at h
        split at h
        · rename_i h0; subst h0; simp at h; obtain ⟨rfl, rfl⟩ := h
          exact ⟨some .shr, rfl, by rw [q1, r1], by rw [q2, r2], by rw [r3, q3]; rfl, munch_nil rfl, by simp [asgText, Bop.text, symbols]⟩
        · split at h
          · rename_i h0; subst h0; simp at h; obtain ⟨rfl, rfl⟩ := h
            exact ⟨some .ge, rfl, by rw [q1, r1], by rw [q2, r2], by rw [r3, q3]; rfl, munch_nil rfl, by simp [asgText, Bop.text, symbols]⟩
          · rename_i n1 n2
            obind h _u t4 hu
            have h3 : t4 = t := rd_un hq hu
            subst h3
            simp at h; obtain ⟨rfl, rfl⟩ := h
            exact ⟨some .gt, rfl, r1, r2, by rw [r3]; rfl,
              munch_two (x := ['=', '>']) (c := '>') (d := '=') rfl (by rw [q3]; simpa using n1) (by rw [q3]; simpa using n2),
              by simp [asgText, Bop.text, symbols]⟩
      all_goals
        simp at h; obtain ⟨rfl, rfl⟩ := h
        exact ⟨some .gt, rfl, by rw [q1, r1], by rw [q2, r2], by rw [r3, q3, q5]; rfl,
          by rw [q5]; exact munch_end (x := ['=', '>']) (by rw [show extensions ['=', '>'] = [['>'], ['=']] from rfl]; simp),
          by simp [asgText, Bop.text, symbols]⟩
    replace h := ite_ok h
    rcases h with ⟨h0, h⟩ | ⟨a10, h⟩
    · subst h0
      obind h q t3 hq
      obtain ⟨q1, q2, q3⟩ := rd_ok hq
      rcases q3 with ⟨d, rfl, q3⟩ | ⟨rfl, q3, q4, q5⟩ | ⟨rfl, q3, q4, q5⟩
      · simp only [M.ite_apply'] at h
        split at h
        · rename_i h0; subst h0; simp at h; obtain ⟨rfl, rfl⟩ := h
          exact ⟨some .ne, rfl, by rw [q1, r1], by rw [q2, r2], by rw [r3, q3]; rfl, munch_nil rfl, by simp [asgText, Bop.text, symbols]⟩
        · rename_i n1
          obind h _u t4 hu
          have h3 : t4 = t := rd_un hq hu
          subst h3
          obind h _u2 t5 hu2
          have h5 : t5 = s2 := rd_un hr hu2
          subst h5
          simp at h; obtain ⟨rfl, rfl⟩ := h
          refine ⟨none, rfl, rfl, rfl, rfl, ?_, by simp [asgText, symbols]⟩
          intro x hx hp
          rw [r3, q3] at hp
          rcases ext_mem_eq x hx with rfl | rfl | rfl | ⟨c, hc, hm⟩
          · simp at hp
          · simp at hp
          · simp at hp; exact n1 hp.symm
          · cases x with
            | nil => cases hc
            | cons y x => simp at hc; subst hc; simp at hp; obtain ⟨rfl, _⟩ := hp; revert hm; decide
      all_goals
        obind h _u2 t5 hu2
        simp at h; obtain ⟨rfl, rfl⟩ := h
        obtain ⟨u1, u2, u3⟩ := un_ok hu2
        refine ⟨none, rfl, by rw [u1, q1, r1], by rw [u2, q2, r2], by rw [u3, q5, r3, q3]; rfl, ?_, by simp [asgText, symbols]⟩
        intro x hx hp
        rw [u3, q5] at hp
        rcases ext_mem_eq x hx with rfl | rfl | rfl | ⟨c, hc, hm⟩
        · simp at hp
        · simp at hp
        · simp at hp
        · cases x with
          | nil => cases hc
          | cons y x => simp at hc; subst hc; simp at hp; obtain ⟨rfl, _⟩ := hp; revert hm; decide
    · skip
      obind h _u2 t5 hu2
      have h5 : t5 = s2 := rd_un hr hu2
      subst h5
      simp at h; obtain ⟨rfl, rfl⟩ := h
      refine ⟨none, rfl, rfl, rfl, rfl, ?_, by simp [asgText, symbols]⟩
      intro x hx hp
      rw [r3] at hp
      rcases ext_mem_eq x hx with rfl | rfl | rfl | ⟨c, hc, hm⟩
      · simp at hp; exact hne' hp.symm
      · simp at hp; exact hne' hp.1.symm
      · simp at hp; exact a10 hp.1.symm
      · cases x with
        | nil => cases hc
        | cons y x =>
          simp at hc; subst hc; simp at hp; obtain ⟨rfl, _⟩ := hp
          simp only [List.mem_cons, List.not_mem_nil, or_false] at hm
          rcases hm with rfl | rfl | rfl | rfl | rfl | rfl | rfl | rfl | rfl <;> contradiction
  all_goals
    simp [compoundOp] at h; obtain ⟨rfl, rfl⟩ := h
    refine ⟨none, rfl, r1, r2, by rw [r3, r5]; rfl, ?_, by simp [asgText, symbols]⟩
    rw [r5]; exact munch_end (x := ['=']) (by rw [ext_eq]; simp)

theorem assignRest_sound {rec : Nat → P Val} (hrec : SoundE rec) {s0 s1 s2 t s' : PS} {L : Nat} {left : LV}
    {it : Iter LV Val} {c2 : RC} (hL : 14 ≤ L) (hC : Ctx s0 L left s1) (hc : s1.lex.chars = '=' :: s2.lex.chars)
    (ht : s2.lex.tail = s1.lex.tail) (hcc : s2.c = s1.c) (hr : lx readChar s2 = .ok c2 t) (hne : c2 ≠ .ch '=')
    (h : assignRest rec left c2 t = .ok it s') : IterPost s0 L it s' := by
  unfold assignRest at h
  rw [M.ite_apply'] at h
  split at h
  · cases h
  rename_i hlv
  simp at hlv
  obind h oo t1 ho
  obtain ⟨o, rfl, o1, o2, o3, o4, o5⟩ := compoundOp_ok hr hne ho
  obind h r t2 hrr
  obind h v t3 hv
  obtain ⟨hv1, hv2⟩ := bd_ok hv
  simp at h; obtain ⟨rfl, rfl⟩ := h
  exact assign_done hrec hL hC hlv (eats_sym o5 (by rw [hc]; exact o3) o4 (by rw [o2, ht])) (by rw [o1, hcc]) hrr hv1 hv2

theorem assignment_sound {rec : Nat → P Val} (hrec : SoundE rec) {s0 s1 s2 s' : PS} {L : Nat} {left : LV}
    {it : Iter LV Val} (hL : 14 ≤ L) (hC : Ctx s0 L left s1) (hc : s1.lex.chars = '=' :: s2.lex.chars)
    (ht : s2.lex.tail = s1.lex.tail) (hcc : s2.c = s1.c)
    (heq : ∀ r, s2.lex.chars = '=' :: r → ∃ r', r = '=' :: r')
    (h : assignment rec left s2 = .ok it s') : IterPost s0 L it s' := by
  unfold assignment at h
  obind h c2 t hr
  obtain ⟨r1, r2, r3⟩ := rd_ok hr
  rw [M.ite_apply'] at h
  split at h
  · rename_i h0; subst h0
    obind h c3 t2 hr2
    obtain ⟨q1, q2, q3⟩ := rd_ok hr2
    rcases r3 with ⟨c, hcx, r3⟩ | ⟨hcx, _⟩ | ⟨hcx, _⟩
    · cases hcx
      obtain ⟨r', hr'⟩ := heq _ r3
      rcases q3 with ⟨d, rfl, q3⟩ | ⟨_, q3, _⟩ | ⟨_, q3, _⟩
      · rw [hr'] at q3; simp at q3
        obtain ⟨rfl, q3⟩ := q3
        simp only [if_true, M.ite_apply'] at h
        split at h
        · cases h
        rename_i hlv
        simp at hlv
        obind h r t3 hrr
        obind h v t4 hv
        obtain ⟨hv1, hv2⟩ := bd_ok hv
        simp at h; obtain ⟨rfl, rfl⟩ := h
        refine assign_done (o := some .eq) hrec hL hC hlv (s2 := t2) ?_ (by rw [q1, r1, hcc]) hrr hv1 hv2
        refine eats_sym (by simp [asgText, Bop.text, symbols]) (by rw [hc, r3, hr', q3]; rfl) (munch_nil rfl) (by rw [q2, r2, ht])
      · rw [hr'] at q3; cases q3
      · rw [hr'] at q3; cases q3
    · cases hcx
    · cases hcx
  · rename_i hne
    exact assignRest_sound hrec hL hC hc ht hcc hr hne h

theorem afterEq_sound {rec : Nat → P Val} (hrec : SoundE rec) {s0 s1 s2 s' : PS} {L : Nat} {left : LV}
    {it : Iter LV Val} (hL2 : 2 ≤ L) (hC : Ctx s0 L left s1) (hc : s1.lex.chars = '=' :: s2.lex.chars)
    (ht : s2.lex.tail = s1.lex.tail) (hcc : s2.c = s1.c)
    (heq : 7 ≤ L → ∀ r, s2.lex.chars = '=' :: r → ∃ r', r = '=' :: r')
    (h : afterEq rec L left s2 = .ok it s') : IterPost s0 L it s' := by
  unfold afterEq at h
  rw [M.ite_apply'] at h
  split at h
  · rename_i hL
    exact assignment_sound hrec hL hC hc ht hcc (heq (by omega)) h
  · refine .ofDone (noOp_step hL2 hC ?_ hc ht hcc h)
    rintro _ o ho ⟨x, hx, hm⟩
    rw [hc] at hx
    cases o <;> simp [Bop.text] at hx
    simp [prec] at ho
    obtain ⟨r', rfl⟩ := heq (by omega) _ hx
    exact hm ['='] (by rw [Bop.text, ext_eqeq]; simp) ⟨_, rfl⟩

theorem handleEq_sound {rec : Nat → P Val} (hrec : SoundE rec) {s0 s1 s2 s' : PS} {L : Nat} {left : LV}
    {it : Iter LV Val} (hL2 : 2 ≤ L) (hC : Ctx s0 L left s1) (hc : s1.lex.chars = '=' :: s2.lex.chars)
    (ht : s2.lex.tail = s1.lex.tail) (hcc : s2.c = s1.c) (h : handleEq rec L left s2 = .ok it s') :
    IterPost s0 L it s' := by
  unfold handleEq at h
  rw [M.ite_apply'] at h
  split at h
  · rename_i hL
    obind h c2 t hr
    obtain ⟨r1, r2, r3⟩ := rd_ok hr
    rcases r3 with ⟨c, rfl, r3⟩ | ⟨rfl, r3, r4, r5⟩ | ⟨rfl, r3, r4, r5⟩
    · simp only [M.ite_apply'] at h
      split at h
      · rename_i h0; subst h0
        obind h c3 t2 hr2
        obtain ⟨q1, q2, q3⟩ := rd_ok hr2
        rcases q3 with ⟨d, rfl, q3⟩ | ⟨rfl, q3, q4, q5⟩ | ⟨rfl, q3, q4, q5⟩
        · simp only [M.ite_apply'] at h
          split at h
          · rename_i h0; subst h0
            obind h _u t4 hu
            have h3 : t4 = t := rd_un hr2 hu
            subst h3
            obind h _u2 t5 hu2
            have h5 : t5 = s2 := rd_un hr hu2
            subst h5
            refine afterEq_sound hrec hL2 hC hc ht hcc ?_ h
            intro _ r hr'
            rw [r3] at hr'; simp at hr'; rw [q3] at hr'; exact ⟨_, hr'.symm⟩
          · rename_i n1
            obind h _u t4 hu
            have h3 : t4 = t := rd_un hr2 hu
            subst h3
            obtain ⟨o1, o2⟩ := op_read (o := .eq) (s1 := s1) (s2 := t4) (by rw [hc, r3]; rfl)
              (munch_one ext_eqeq (by rw [q3]; simpa using n1)) (by rw [r2, ht])
            exact .ofNext (binary_step hrec (o := .eq) hC hL o1 o2 (by rw [r1, hcc]) h)
        all_goals
          obtain ⟨o1, o2⟩ := op_read (o := .eq) (s1 := s1) (s2 := t2) (by rw [hc, r3, q3, q5]; rfl)
            (by rw [q5]; exact munch_end (x := ['=', '=']) (by rw [ext_eqeq]; simp)) (by rw [q2, r2, ht])
          exact .ofNext (binary_step hrec (o := .eq) hC hL o1 o2 (by rw [q1, r1, hcc]) h)
      · rename_i n1
        obind h _u2 t5 hu2
        have h5 : t5 = s2 := rd_un hr hu2
        subst h5
        refine afterEq_sound hrec hL2 hC hc ht hcc ?_ h
        intro _ r hr'
        rw [r3] at hr'; simp at hr'; exact absurd hr'.1 n1
    all_goals
      have h5 : t = s2 := ps_ext (by rw [r5, r3]) r2 r1
      subst h5
      refine afterEq_sound hrec hL2 hC hc ht hcc ?_ h
      intro _ r hr'
      rw [r3] at hr'; cases hr'
  · rename_i hL
    exact afterEq_sound hrec hL2 hC hc ht hcc (fun h => absurd h hL) h

/-! ### `?:` -/

theorem genR_eq {e : Ex} {s t : CState} {v : Val} (h : genR e s = .ok v t) :
    ∃ lv c1, genL e s = .ok lv c1 ∧ rval lv c1 = .ok v t := by
  unfold genR at h; rw [M.bind_eq_ok] at h; exact h

theorem ternary_sound {rec : Nat → P Val} (hrec : SoundE rec) {s0 s1 s2 s' : PS} {L : Nat} {left : LV}
    {it : Iter LV Val} (hL : 13 ≤ L) (hC : Ctx s0 L left s1) (hc : s1.lex.chars = '?' :: s2.lex.chars)
    (ht : s2.lex.tail = s1.lex.tail) (hcc : s2.c = s1.c) (h : ternary rec left s2 = .ok it s') :
    IterPost s0 L it s' := by
  unfold ternary at h
  obind h cond t1 h1
  obind h condID t2 h2
  obind h tb t3 h3
  obind h eb t4 h4
  obind h nb t5 h5
  obind h cmp t6 h6
  obind h _u7 t7 h7
  obind h _u8 t8 h8
  obind h tv t9 h9
  obind h te t10 h10
  obind h _u11 t11 h11
  obind h _u12 t12 h12
  obind h _u13 t13 h13
  obind h _u14 t14 h14
  obind h ev t15 h15
  obind h ee t16 h16
  obind h _u17 t17 h17
  obind h _u18 t18 h18
  obind h v t19 h19
  simp at h; obtain ⟨rfl, rfl⟩ := h
  obtain ⟨a1, b1⟩ := bd_ok h1
  obtain ⟨a2, b2⟩ := bd_ok h2
  obtain ⟨a3, b3⟩ := bd_ok h3
  obtain ⟨a4, b4⟩ := bd_ok h4
  obtain ⟨a5, b5⟩ := bd_ok h5
  obtain ⟨a6, b6⟩ := bd_ok h6
  obtain ⟨a7, b7⟩ := bd_ok h7
  obtain ⟨a8, b8⟩ := bd_ok h8
  obtain ⟨ts1, e1, g1, g2, g3, g4, g5⟩ := hrec _ _ _ _ (by decide) h9
  obtain ⟨a10, b10⟩ := bd_ok h10
  obtain ⟨a11, b11⟩ := bd_ok h11
  obtain ⟨w1, w2, w3⟩ := ws_ok h12
  obtain ⟨x1, x2, x3⟩ := exp_ok h13
  obtain ⟨a14, b14⟩ := bd_ok h14
  obtain ⟨ts2, e2, k1, k2, k3, k4, k5⟩ := hrec _ _ _ _ (by decide) h15
  obtain ⟨a16, b16⟩ := bd_ok h16
  obtain ⟨a17, b17⟩ := bd_ok h17
  obtain ⟨a18, b18⟩ := bd_ok h18
  obtain ⟨a19, b19⟩ := bd_ok h19
  obtain ⟨ts, e, p, i1, i2, i3, i4, i5, i6, i7⟩ := hC
  have q1 : Eats s1 [.sym ['?']] s2 := eats_sym1 (by simp [symbols]) hc rfl ht
  have q2 : Eats s2 [] t8 := Eats.bd (by rw [b8, b7, b6, b5, b4, b3, b2, b1])
  have q3 : Eats t9 [] t11 := Eats.bd (by rw [b11, b10])
  have q4 : Eats t12 [.sym [':']] t13 := eats_sym1 (by simp [symbols]) x3 rfl x2
  have q5 : Eats t13 [] t14 := Eats.bd b14
  have q6 : Eats t15 [] t19 := Eats.bd (by rw [b19, b18, b17, b16])
  refine ⟨_, _, .cond hL (i1.mono (by omega)) g1 k1, ?_, ?_, by rw [b19, b18, b17, b16]; exact k4, fun h => by omega⟩
  · exact ((((((((i4.trans q1).trans q2).trans g2).trans q3).trans w1).trans q4).trans q5).trans (k2.trans q6)).cast
      (by simp)
  · obtain ⟨lv1, c1, m1, m2⟩ := genR_eq g3
    obtain ⟨lv2, c2, n1, n2⟩ := genR_eq k3
    unfold genR
    simp only [genL]
    rw [hcc] at a1
    rw [x1, w2] at a14
    have hcs : condStart cond t1.c = .ok (tb, eb, nb) t7.c := by
      unfold condStart
      rw [M.bind_ok a2, M.bind_ok a3, M.bind_ok a4, M.bind_ok a5, M.bind_ok a6, M.bind_ok a7]; rfl
    rw [M.bind_ok (a := (v, false)) (s' := t19.c)]
    · rfl
    · rw [M.bind_ok i5, M.bind_ok a1, M.bind_ok hcs]
      dsimp only
      rw [M.bind_ok a8, M.bind_ok m1, M.bind_ok m2, M.bind_ok a10, M.bind_ok a11, M.bind_ok a14, M.bind_ok n1,
        M.bind_ok n2, M.bind_ok a16, M.bind_ok a17, M.bind_ok a18, M.bind_ok a19]; rfl

/-! ### the loop -/

theorem opAt_head {o : Bop} {c : Char} {r : List Char} (h : OpAt o (c :: r)) :
    (c = '*' ∨ c = '/' ∨ c = '%') ∧ prec o = 3 ∨ (c = '+' ∨ c = '-') ∧ prec o = 4 ∨
    (c = '<' ∨ c = '>') ∧ prec o = 6 ∨ (c = '=' ∨ c = '!') ∧ prec o = 7 ∨ c = '&' ∧ prec o = 8 ∨ c = '|' ∧ prec o = 10 := by
  obtain ⟨x, hx, _⟩ := h
  cases o <;> simp [Bop.text] at hx <;> simp [prec, hx]

theorem exprBody_sound {rec : Nat → P Val} (hrec : SoundE rec) {s0 s s' : PS} {L : Nat} {left : LV}
    {it : Iter LV Val} (hL : 2 ≤ L) (hI : LInv s0 L left s) (h : exprBody rec L left s = .ok it s') :
    IterPost s0 L it s' := by
  unfold exprBody at h
  obind h _u s1 h1
  have hC := hI.ctx h1
  obind h r s2 hr
  obtain ⟨r1, r2, r3⟩ := rd_ok hr
  rcases r3 with ⟨c, rfl, r3⟩ | ⟨rfl, r3, r4, r5⟩ | ⟨rfl, r3, r4, r5⟩
  · dsimp only at h
    replace h := ite_ok h
    rcases h with ⟨⟨k1, rfl⟩, h⟩ | ⟨n1, h⟩
    · exact ternary_sound hrec k1 hC r3 r2 r1 h
    replace h := ite_ok h
    rcases h with ⟨rfl, h⟩ | ⟨n2, h⟩
    · exact handleEq_sound hrec hL hC r3 r2 r1 h
    replace h := ite_ok h
    rcases h with ⟨⟨k1, rfl⟩, h⟩ | ⟨n3, h⟩
    · obtain ⟨o1, o2⟩ := op_read (o := .bor) r3 (munch_nil rfl) r2
      exact .ofNext (binary_step hrec (o := .bor) hC k1 o1 o2 r1 h)
    replace h := ite_ok h
    rcases h with ⟨⟨k1, rfl⟩, h⟩ | ⟨n4, h⟩
    · obtain ⟨o1, o2⟩ := op_read (o := .band) r3 (munch_nil rfl) r2
      exact .ofNext (binary_step hrec (o := .band) hC k1 o1 o2 r1 h)
    replace h := ite_ok h
    rcases h with ⟨⟨k1, rfl⟩, h⟩ | ⟨n5, h⟩
    · obind h q t hq
      obtain ⟨q1, q2, q3⟩ := rd_ok hq
      rcases q3 with ⟨d, rfl, q3⟩ | ⟨rfl, q3, q4, q5⟩ | ⟨rfl, q3, q4, q5⟩
      · dsimp only at h
        replace h := ite_ok h
        rcases h with ⟨_, h⟩ | ⟨n, h⟩
        · cases h
        · simp at n; subst n
          obtain ⟨o1, o2⟩ := op_read (o := .ne) (s1 := s1) (s2 := t) (by rw [r3, q3]; rfl) (munch_nil rfl)
            (by rw [q2, r2])
          exact .ofNext (binary_step hrec (o := .ne) hC k1 o1 o2 (by rw [q1, r1]) h)
      · cases h
      · cases h
    replace h := ite_ok h
    rcases h with ⟨⟨k1, rfl⟩, h⟩ | ⟨n6, h⟩
    · exact handleLt_sound hrec k1 hC r3 r2 r1 h
    replace h := ite_ok h
    rcases h with ⟨⟨k1, rfl⟩, h⟩ | ⟨n7, h⟩
    · exact handleGt_sound hrec k1 hC r3 r2 r1 h
    replace h := ite_ok h
    rcases h with ⟨⟨k1, k2⟩, h⟩ | ⟨n8, h⟩
    · exact handleAdd_sound hrec k2 k1 hC r3 r2 r1 h
    replace h := ite_ok h
    rcases h with ⟨⟨k1, rfl⟩, h⟩ | ⟨n9, h⟩
    · obtain ⟨o1, o2⟩ := op_read (o := .mul) r3 (munch_nil rfl) r2
      exact .ofNext (binary_step hrec (o := .mul) hC k1 o1 o2 r1 h)
    replace h := ite_ok h
    rcases h with ⟨⟨k1, rfl⟩, h⟩ | ⟨n10, h⟩
    · obtain ⟨o1, o2⟩ := op_read (o := .div) r3 (by
        refine munch_one (x := ['/']) ext_div ?_
        obtain ⟨_, _, _, _, _, _, _, _, hst, _⟩ := hC
        rw [r3] at hst
        intro hh
        cases hs2 : s2.lex.chars with
        | nil => rw [hs2] at hh; cases hh
        | cons d r =>
          rw [hs2] at hh hst; simp at hh; subst hh
          exact (startsSolid_cons.1 hst.1).2 ⟨rfl, rfl⟩) r2
      exact .ofNext (binary_step hrec (o := .div) hC k1 o1 o2 r1 h)
    replace h := ite_ok h
    rcases h with ⟨⟨k1, rfl⟩, h⟩ | ⟨n11, h⟩
    · obtain ⟨o1, o2⟩ := op_read (o := .mod) r3 (munch_nil rfl) r2
      exact .ofNext (binary_step hrec (o := .mod) hC k1 o1 o2 r1 h)
    refine .ofDone (noOp_step hL hC ?_ r3 r2 r1 h)
    intro _ o ho hop
    rw [r3] at hop
    rcases opAt_head hop with ⟨rfl | rfl | rfl, hp⟩ | ⟨rfl | rfl, hp⟩ | ⟨rfl | rfl, hp⟩ | ⟨rfl | rfl, hp⟩ | ⟨rfl, hp⟩ | ⟨rfl, hp⟩ <;>
      simp_all
  · refine .ofDone (stop_step hL (s1 := s2) ?_ ?_ h)
    · have : s2 = s1 := ps_ext (by rw [r5, r3]) r2 r1
      rw [this]; exact hC
    · intro _ o _ hop
      obtain ⟨_, _, _, hh⟩ := opAt_cons hop
      rw [r5] at hh; cases hh
  · cases h

/-! ### primary expressions -/

theorem id_ok {s s' : PS} {name : Name} (h : lx identifier s = .ok name s') :
    s'.c = s.c ∧ Stops (name ++ s'.lex.chars) s.lex.tail ∧ NotStarting IdentChar s'.lex.chars ∧
      (∀ c ∈ name, IdentChar c) ∧ (name ≠ [] → Eats s [.word name] s') ∧ (name = [] → Eats s [] s') ∧
      ∃ lay, s.lex.chars = lay ++ (name ++ s'.lex.chars) ∧ Layout lay ∧ s'.lex.tail = s.lex.tail := by
  obtain ⟨h, hc⟩ := lx_ok h
  obtain ⟨lay, h1, h2, h3, h4, h5, h6, h7⟩ := identifier_ok h
  refine ⟨hc, h5, h4, h3, fun hne => ⟨?_, h7⟩, fun hne => ⟨?_, h7⟩, lay, h1, h2, h7⟩
  · rw [h1]; exact .lay h2 (.one (.word hne h3 h4))
  · subst hne; rw [h1]; exact .lay h2 (.refl _)

theorem num_ok {s s' : PS} {w : W} (h : lx number s = .ok w s') :
    ∃ ds, s'.c = s.c ∧ w = BitVec.ofNat 64 (literalValue ds) ∧ s'.lex.tail = s.lex.tail ∧
      (∀ c ∈ ds, Digit c) ∧ (ds ≠ [] → Eats s [.num ds] s') ∧ (ds = [] → Eats s [] s' ∧ w = 0) ∧
      ∃ lay, s.lex.chars = lay ++ (ds ++ s'.lex.chars) ∧ Layout lay ∧ Stops (ds ++ s'.lex.chars) s.lex.tail := by
  obtain ⟨h, hc⟩ := lx_ok h
  obtain ⟨lay, ds, h1, h2, h3, h4, h5, h6, h7, h8, h9⟩ := number_ok h
  refine ⟨ds, hc, h9, h6, h3, fun hne => ⟨?_, h6⟩, fun hne => ⟨⟨?_, h6⟩, ?_⟩, lay, h1, h2, h5⟩
  · rw [h1]; exact .lay h2 (.one (.num hne h3 h4))
  · subst hne; rw [h1]; exact .lay h2 (.refl _)
  · subst hne; rw [h9]; rfl

/-- the layout before a solid character is empty -/
theorem layout_solid {lay r : List Char} {c : Char} {x : List Char} (h : Layout lay) (hs : lay ++ r = c :: x)
    (hb : ¬ Blank c) (hc : c ≠ '/') : lay = [] := by
  cases h with
  | nil => rfl
  | blank h _ => simp at hs; rw [hs.1] at h; exact absurd h hb
  | comment h _ => simp at hs; exact absurd hs.1.symm hc

/-- What `parsePrimary` and the loop of `parsePostfix` guarantee. -/
def PInv (s0 : PS) (v : LV) (s : PS) : Prop :=
  (∃ ts e, EGram prec 1 ts e ∧ Eats s0 ts s ∧ genL e s0.c = .ok v s.c ∧
    ((∃ x, e = .var x) → Stops s.lex.chars s.lex.tail ∧ s.lex.chars.head? ≠ some '(')) ∨
  (∃ x, StartsLetter x ∧ Eats s0 [.word x] s ∧ genCallee x s0.c = .ok v s.c ∧
    Stops s.lex.chars s.lex.tail ∧ s.lex.chars.head? = some '(')

theorem funcValue_sound {s s' : PS} {name : Name} {v : LV} (hs : Stops s.lex.chars s.lex.tail)
    (h0 : getAddress name s.c = .ok none s.c)
    (h : funcValue name s = .ok v s') : s'.lex = s.lex ∧ genVar name s.c = .ok v s'.c := by
  unfold funcValue at h
  obind h _u s1 h1
  have := ws_stop hs h1; subst this
  obind h nc s2 h2
  obind h _u2 s3 h3
  have := unRC_ok h2 h3; subst this
  replace h := ite_ok h
  rcases h with ⟨_, h⟩ | ⟨_, h⟩
  · cases h
  · unfold genVar
    rw [M.bind_ok h0]
    dsimp only
    rw [M.bind_ok (M.get_apply _)]
    rw [M.bind_ok (M.get_apply _)] at h
    cases hf : findFuncByName s3.c name with
    | some fn =>
      rw [hf] at h
      dsimp only at h ⊢
      obind h w s4 h4
      obtain ⟨a, b⟩ := bd_ok h4
      simp at h; obtain ⟨rfl, rfl⟩ := h
      exact ⟨b, by rw [M.bind_ok a]; rfl⟩
    | none =>
      rw [hf] at h
      dsimp only at h ⊢
      obind h w s4 h4
      obtain ⟨a, b⟩ := bd_ok h4
      rw [M.bind_ok a]
      cases w with
      | none => cases h
      | some fn =>
        dsimp only at h ⊢
        obind h w s5 h5
        obtain ⟨a2, b2⟩ := bd_ok h5
        simp at h; obtain ⟨rfl, rfl⟩ := h
        exact ⟨by rw [b2, b], by rw [M.bind_ok a2]; rfl⟩

theorem callee_sound {s s' : PS} {name : Name} {v : LV} (h : callee name s = .ok v s') :
    s'.lex = s.lex ∧ genCallee name s.c = .ok v s'.c := by
  unfold callee at h
  unfold genCallee
  rw [M.bind_ok (M.get_apply _)] at h ⊢
  cases hf : findFuncByName s.c name with
  | some fn =>
    rw [hf] at h
    simp at h; obtain ⟨rfl, rfl⟩ := h
    exact ⟨rfl, rfl⟩
  | none =>
    rw [hf] at h
    dsimp only at h ⊢
    cases hl : lookup name s.c.ctx with
    | some g =>
      rw [hl] at h
      simp at h; obtain ⟨rfl, rfl⟩ := h
      exact ⟨rfl, rfl⟩
    | none =>
      rw [hl] at h
      dsimp only at h ⊢
      obind h w s4 h4
      obtain ⟨a, b⟩ := bd_ok h4
      rw [M.bind_ok a]
      cases w with
      | none => cases h
      | some fn =>
        simp at h; obtain ⟨rfl, rfl⟩ := h
        exact ⟨b, rfl⟩

/-- `getAddress` does not change the state when it finds nothing. -/
theorem getAddress_none {c c' : CState} {name : Name} (h : getAddress name c = .ok none c') : c' = c := by
  unfold getAddress at h
  rw [M.bind_ok (M.get_apply _)] at h
  cases h1 : lookup name c.locals with
  | some v => rw [h1] at h; cases h
  | none =>
    rw [h1] at h
    dsimp only at h
    generalize lookup name c.ctx = o at h
    split at h
    · obind h e t2 h2; cases h
    · obind h e t2 h2; cases h
    · cases h
    · cases h; rfl

theorem identExpr_sound {s0 s s' : PS} {v : LV} {ch : Char} {r : List Char} (hlet : Letter ch)
    (hs0 : Eats s0 [] s) (hc0 : s.c = s0.c) (hs : s.lex.chars = ch :: r) (h : identExpr s = .ok v s') : PInv s0 v s' := by
  unfold identExpr at h
  obind h name s1 h1
  obtain ⟨a1, a2, a3, a4, a5, a6, lay, a7, a8, a9⟩ := id_ok h1
  have hlay : lay = [] := by
    refine layout_solid a8 (a7.symm.trans hs) (letter_not_blank hlet) ?_
    rintro rfl; revert hlet; decide
  subst hlay
  have hname : StartsLetter name := by
    cases name with
    | nil =>
      simp at a7
      rw [← a7, hs] at a3
      exact absurd (Or.inl hlet) a3
    | cons c x =>
      rw [hs] at a7; simp at a7
      rw [← a7.1]; exact hlet
  have hne : name ≠ [] := by rintro rfl; exact hname
  obind h _u s2 h2
  obtain ⟨w1, w2, w3⟩ := ws_ok h2
  rw [← w1.2] at w3
  obind h nc s3 h3
  obind h _u2 s4 h4
  have := unRC_ok h3 h4; subst this
  have heat : Eats s0 [.word name] s4 := ((hs0.trans (a5 hne)).trans w1).cast (by simp)
  have hcc : s4.c = s0.c := by rw [w2, a1, hc0]
  obtain ⟨r1, r2, r3⟩ := rd_ok h3
  replace h := ite_ok h
  rcases h with ⟨hp, h⟩ | ⟨hp, h⟩
  · obtain ⟨b1, b2⟩ := callee_sound h
    rcases r3 with ⟨c, rfl, r3⟩ | ⟨rfl, r3, r4, r5⟩ | ⟨rfl, r3, r4, r5⟩
    · simp at hp; subst hp
      refine .inr ⟨name, hname, (heat.trans (Eats.bd b1)).cast (by simp), by rw [← hcc]; exact b2, by rw [b1]; exact w3, ?_⟩
      rw [b1, r3]; rfl
    · cases hp
    · cases hp
  · have hnp : s4.lex.chars.head? ≠ some '(' := by
      rcases r3 with ⟨c, rfl, r3⟩ | ⟨rfl, r3, r4, r5⟩ | ⟨rfl, r3, r4, r5⟩
      · rw [r3]; simpa using hp
      · rw [r3]; simp
      · rw [r3]; simp
    obind h oa s5 h5
    obtain ⟨b1, b2⟩ := bd_ok h5
    refine .inl ⟨[.word name], .var name, .var hname, ?_⟩
    cases oa with
    | some addr =>
      simp at h; obtain ⟨rfl, rfl⟩ := h
      refine ⟨(heat.trans (Eats.bd b2)).cast (by simp), ?_, fun _ => by rw [b2]; exact ⟨w3, hnp⟩⟩
      simp only [genL]
      unfold genVar
      rw [← hcc, M.bind_ok b1]; rfl
    | none =>
      dsimp only at h
      have e1 := getAddress_none b1
      have : s5 = s4 := by cases s5; cases s4; simp at e1 b2; rw [e1, b2]
      subst this
      obtain ⟨d1, d2⟩ := funcValue_sound w3 b1 h
      refine ⟨(heat.trans (Eats.bd d1)).cast (by simp), ?_, fun _ => by rw [d1]; exact ⟨w3, hnp⟩⟩
      simp only [genL]
      rw [← hcc]; exact d2

theorem parsePrimary_sound {rec : Nat → P Val} (hrec : SoundE rec) {s0 s' : PS} {v : LV}
    (h : parsePrimary rec s0 = .ok v s') : PInv s0 v s' := by
  unfold parsePrimary at h
  obind h _u s1 h1
  obtain ⟨w1, w2, w3⟩ := ws_ok h1
  obind h r s2 hr
  obtain ⟨r1, r2, r3⟩ := rd_ok hr
  rcases r3 with ⟨c, rfl, r3⟩ | ⟨rfl, r3, r4, r5⟩ | ⟨rfl, r3, r4, r5⟩
  · dsimp only at h
    replace h := ite_ok h
    rcases h with ⟨rfl, h⟩ | ⟨n1, h⟩
    · obind h val s3 h3
      obtain ⟨k1, k2⟩ := lx_ok h3
      obtain ⟨ts, vs, k3, k4, k5, k6, k7⟩ := character_ok k1
      simp at h; obtain ⟨rfl, rfl⟩ := h
      refine .inl ⟨[.chr vs], .num (charValue vs), .chr, ?_, ?_, by rintro ⟨x, hx⟩; cases hx⟩
      · refine (w1.trans (b := [.chr vs]) ⟨?_, by rw [k6, r2]⟩).cast (by simp)
        rw [r3, k5]; exact .one (.chr k3 k4)
      · simp only [genL]; rw [k2, r1, w2, k7]; rfl
    replace h := ite_ok h
    rcases h with ⟨rfl, h⟩ | ⟨n2, h⟩
    · obind h str s3 h3
      obtain ⟨k1, k2⟩ := lx_ok h3
      obtain ⟨ts, vs, k3, k5, k6, k7⟩ := stringLit_ok k1
      obind h val s4 h4
      obtain ⟨b1, b2⟩ := bd_ok h4
      simp at h; obtain ⟨rfl, rfl⟩ := h
      refine .inl ⟨[.str vs], .str vs, .str, ?_, ?_, by rintro ⟨x, hx⟩; cases hx⟩
      · refine (w1.trans (b := [.str vs]) ⟨?_, by rw [b2, k6, r2]⟩).cast (by simp)
        rw [r3, k5, b2]; exact .one (.str k3)
      · simp only [genL]
        rw [k2, r1, w2, k7] at b1
        rw [M.bind_ok b1]; rfl
    replace h := ite_ok h
    rcases h with ⟨rfl, h⟩ | ⟨n3, h⟩
    · obind h val s3 h3
      obtain ⟨us, e, g1, g2, g3, g4, g5⟩ := hrec _ _ _ _ (by decide) h3
      obind h _u4 s4 h4
      obtain ⟨x1, x2, x3⟩ := exp_ok h4
      simp at h; obtain ⟨rfl, rfl⟩ := h
      have q1 : Eats s1 [.sym ['(']] s2 := eats_sym1 (by simp [symbols]) r3 rfl r2
      have q2 : Eats s3 [.sym [')']] s4 := eats_sym1 (by simp [symbols]) x3 rfl x2
      refine .inl ⟨_, .paren e, .paren g1, (((w1.trans q1).trans g2).trans q2).cast (by simp), ?_,
        by rintro ⟨x, hx⟩; cases hx⟩
      simp only [genL]
      obtain ⟨lv, c1, m1, m2⟩ := genR_eq g3
      rw [r1, w2] at m1
      rw [M.bind_ok m1, M.bind_ok m2, x1]; rfl
    replace h := ite_ok h
    rcases h with ⟨hd, h⟩ | ⟨n4, h⟩
    · obind h _u3 s3 h3
      have := rd_un hr h3; subst this
      obind h val s4 h4
      obtain ⟨ds, d1, d2, d3, d4, d5, d6, lay, d7, d8, d9⟩ := num_ok h4
      simp at h; obtain ⟨rfl, rfl⟩ := h
      rw [isDigit_iff] at hd
      have hlay : lay = [] := by
        refine layout_solid d8 (d7.symm.trans r3) (digit_not_blank hd) ?_
        rintro rfl; revert hd; decide
      subst hlay
      by_cases hne : ds = []
      · obtain ⟨lay2, ds2, e1, e2, e3, e4, _⟩ := number_ok (lx_ok h4).1
        subst hne
        simp at d7
        rw [← d7, r3] at e4
        exact absurd hd e4
      · refine .inl ⟨[.num ds], .num _, .num, (w1.trans (d5 hne)).cast (by simp), ?_, by rintro ⟨x, hx⟩; cases hx⟩
        simp only [genL]; rw [d1, w2, d2]; rfl
    replace h := ite_ok h
    rcases h with ⟨hl, h⟩ | ⟨n5, h⟩
    · obind h _u3 s3 h3
      have := rd_un hr h3; subst this
      exact identExpr_sound ((isLetter_iff c).1 hl) w1 w2 r3 h
    · cases h
  · cases h
  · cases h

/-! ### calls, subscripts, postfix operators -/

theorem args_sound {rec : Nat → P Val} (hrec : SoundE rec) {n : Nat} {acc vs : List Val} {s s' : PS}
    (h : loop n (argsBody rec) acc s = .ok vs s') :
    ∃ ts es ws, AGram prec ts es ∧ Eats s ts s' ∧ genArgs es s.c = .ok ws s'.c ∧ vs = acc ++ ws := by
  induction n generalizing acc s with
  | zero => cases h
  | succ n ih =>
    rw [loop_succ] at h
    cases hb : argsBody rec acc s with
    | err e => rw [hb] at h; cases h
    | ok it t =>
      rw [hb] at h
      unfold argsBody at hb
      obind hb ch s1 h1
      obtain ⟨a1, a2, a3⟩ := re_ok h1
      replace hb := ite_ok hb
      rcases hb with ⟨rfl, hb⟩ | ⟨n1, hb⟩
      · simp at hb; obtain ⟨rfl, rfl⟩ := hb
        simp at h; obtain ⟨rfl, rfl⟩ := h
        exact ⟨_, [], [], .nil, eats_sym1 (by simp [symbols]) a3 rfl a2, by rw [a1]; rfl, by simp⟩
      · obind hb _u s2 h2
        obtain ⟨u1, u2, u3⟩ := un_ok h2
        have : s2 = s := ps_ext (by rw [u3, a3]) (by rw [u2, a2]) (by rw [u1, a1])
        subst this
        obind hb arg s3 h3
        obtain ⟨us, e, g1, g2, g3, g4, g5⟩ := hrec _ _ _ _ (by decide) h3
        obtain ⟨lv, c1, m1, m2⟩ := genR_eq g3
        obind hb _u4 s4 h4
        obtain ⟨w1, w2, w3⟩ := ws_ok h4
        obind hb ch2 s5 h5
        obtain ⟨b1, b2, b3⟩ := re_ok h5
        replace hb := ite_ok hb
        rcases hb with ⟨rfl, hb⟩ | ⟨n2, hb⟩
        · simp at hb; obtain ⟨rfl, rfl⟩ := hb
          simp at h; obtain ⟨rfl, rfl⟩ := h
          have q : Eats s4 [.sym [')']] s5 := eats_sym1 (by simp [symbols]) b3 rfl b2
          refine ⟨_, [e], [arg], .last g1, ((g2.trans w1).trans q).cast (by simp), ?_, rfl⟩
          simp only [genArgs]
          rw [M.bind_ok m1, M.bind_ok m2, b1, w2]; rfl
        · replace hb := ite_ok hb
          rcases hb with ⟨_, hb⟩ | ⟨n3, hb⟩
          · cases hb
          · simp at n3; subst n3
            simp at hb; obtain ⟨rfl, rfl⟩ := hb
            have q : Eats s4 [.sym [',']] s5 := eats_sym1 (by simp [symbols]) b3 rfl b2
            obtain ⟨ts, es, ws, i1, i2, i3, i4⟩ := ih h
            refine ⟨_, e :: es, arg :: ws, .cons g1 i1, (((g2.trans w1).trans q).trans i2).cast (by simp), ?_, by rw [i4]; simp⟩
            simp only [genArgs]
            rw [b1, w2] at i3
            rw [M.bind_ok m1, M.bind_ok m2, M.bind_ok i3]; rfl

/-- What `parseUnary` guarantees. -/
def PostU (s0 : PS) (v : LV) (s : PS) : Prop :=
  ∃ ts e, EGram prec 2 ts e ∧ Eats s0 ts s ∧ genL e s0.c = .ok v s.c

def PIter (s0 : PS) (it : Iter LV LV) (s' : PS) : Prop :=
  match it with
  | .next v => PInv s0 v s'
  | .done v => PostU s0 v s'

theorem postfixOp_sound {s0 s s1 s' : PS} {ts : List Tok} {e : Ex} {v : LV} {d : Dir} {ch : Char} {it : Iter LV LV}
    (hd : d.text = [ch, ch]) (hg : EGram prec 1 ts e) (he : Eats s0 ts s) (hv : genL e s0.c = .ok v s.c)
    (hs : s.lex.chars = ch :: s1.lex.chars) (ht : s1.lex.tail = s.lex.tail) (hc : s1.c = s.c)
    (h : postfixOp ch (dirOp d) v s1 = .ok it s') : PIter s0 it s' := by
  unfold postfixOp at h
  obind h r s2 hr
  obtain ⟨r1, r2, r3⟩ := rd_ok hr
  rcases r3 with ⟨c, rfl, r3⟩ | ⟨rfl, r3, r4, r5⟩ | ⟨rfl, r3, r4, r5⟩
  · dsimp only at h
    replace h := ite_ok h
    rcases h with ⟨n1, h⟩ | ⟨n1, h⟩
    · obind h _u s3 h3
      have := rd_un hr h3; subst this
      obind h _u2 s4 h4
      obtain ⟨u1, u2, u3⟩ := un_ok h4
      have : s4 = s := ps_ext (by rw [u3, hs]) (by rw [u2, ht]) (by rw [u1, hc])
      subst this
      simp at h; obtain ⟨rfl, rfl⟩ := h
      exact ⟨ts, e, hg.mono (by decide), he, hv⟩
    · simp at n1; subst n1
      replace h := ite_ok h
      rcases h with ⟨n2, h⟩ | ⟨n2, h⟩
      · cases h
      · simp at n2
        obind h r s3 h3
        obtain ⟨b1, b2⟩ := bd_ok h3
        simp at h; obtain ⟨rfl, rfl⟩ := h
        have q : Eats s [.sym d.text] s3 := by
          refine eats_sym ?_ (by rw [hs, r3, hd, b2]; rfl) (munch_nil (by cases d <;> rfl)) (by rw [b2, r2, ht])
          cases d <;> simp [Dir.text, symbols]
        refine .inl ⟨_, .post d e, .post (by decide) hg, he.trans q, ?_, by rintro ⟨x, hx⟩; cases hx⟩
        simp only [genL]
        obtain ⟨v1, v2⟩ := v
        simp at n2; subst n2
        rw [M.bind_ok hv]
        rw [M.bind_ok (show needLval (v1, true) s.c = .ok v1 s.c from rfl)]
        rw [r1, hc] at b1
        rw [M.bind_ok b1]; rfl
  all_goals
    obind h _u2 s4 h4
    obtain ⟨u1, u2, u3⟩ := un_ok h4
    have : s4 = s := ps_ext (by rw [u3, hs, r3, r5]) (by rw [u2, r2, ht]) (by rw [u1, r1, hc])
    subst this
    simp at h; obtain ⟨rfl, rfl⟩ := h
    exact ⟨ts, e, hg.mono (by decide), he, hv⟩

theorem postfixBody_sound {rec : Nat → P Val} (hrec : SoundE rec) {n : Nat} {s0 s s' : PS} {v : LV} {it : Iter LV LV}
    (hI : PInv s0 v s) (h : postfixBody rec n v s = .ok it s') : PIter s0 it s' := by
  unfold postfixBody at h
  obind h _u s1 h1
  rcases hI with ⟨ts, e, i1, i2, i3, i4⟩ | ⟨x, i1, i2, i3, i4, i5⟩
  · obtain ⟨w1, w2, w3⟩ := ws_ok h1
    have he : Eats s0 ts s1 := (i2.trans w1).cast (by simp)
    rw [← w2] at i3
    obind h r s2 hr
    obtain ⟨r1, r2, r3⟩ := rd_ok hr
    rcases r3 with ⟨c, rfl, r3⟩ | ⟨rfl, r3, r4, r5⟩ | ⟨rfl, r3, r4, r5⟩
    · dsimp only at h
      replace h := ite_ok h
      rcases h with ⟨rfl, h⟩ | ⟨n1, h⟩
      · obind h base s3 h3
        obind h ptr s4 h4
        obind h index s5 h5
        obind h _u6 s6 h6
        obind h elem s7 h7
        simp at h; obtain ⟨rfl, rfl⟩ := h
        obtain ⟨a3, b3⟩ := bd_ok h3
        obtain ⟨a4, b4⟩ := bd_ok h4
        obtain ⟨us, i, g1, g2, g3, g4, g5⟩ := hrec _ _ _ _ (by decide) h5
        obtain ⟨x1, x2, x3⟩ := exp_ok h6
        obtain ⟨a7, b7⟩ := bd_ok h7
        obtain ⟨lv, c1, m1, m2⟩ := genR_eq g3
        have q1 : Eats s1 [.sym ['[']] s2 := eats_sym1 (by simp [symbols]) r3 rfl r2
        have q2 : Eats s5 [.sym [']']] s6 := eats_sym1 (by simp [symbols]) x3 rfl x2
        have q3 : Eats s2 [] s4 := Eats.bd (by rw [b4, b3])
        refine .inl ⟨_, .index e i, .index (by decide) i1 g1,
          (((((he.trans q1).trans q3).trans g2).trans q2).trans (Eats.bd b7)).cast (by simp), ?_, by rintro ⟨x, hx⟩; cases hx⟩
        simp only [genL]
        rw [r1] at a3
        rw [x1] at a7
        rw [M.bind_ok i3, M.bind_ok a3, M.bind_ok a4, M.bind_ok m1, M.bind_ok m2, M.bind_ok a7]; rfl
      replace h := ite_ok h
      rcases h with ⟨rfl, h⟩ | ⟨n2, h⟩
      · obind h fn s3 h3
        obind h args s4 h4
        obind h r s5 h5
        simp at h; obtain ⟨rfl, rfl⟩ := h
        obtain ⟨a3, b3⟩ := bd_ok h3
        obtain ⟨us, es, ws, g1, g2, g3, g4⟩ := args_sound hrec h4
        obtain ⟨a5, b5⟩ := bd_ok h5
        have q1 : Eats s1 [.sym ['(']] s2 := eats_sym1 (by simp [symbols]) r3 rfl r2
        have hnv : ∀ x, e ≠ .var x := by
          rintro x rfl
          obtain ⟨j1, j2⟩ := i4 ⟨x, rfl⟩
          have := ws_stop j1 h1; subst this
          rw [r3] at j2; simp at j2
        refine .inl ⟨_, .call e es, .call (by decide) i1 hnv g1,
          ((((he.trans q1).trans (Eats.bd b3)).trans g2).trans (Eats.bd b5)).cast (by simp), ?_, by rintro ⟨x, hx⟩; cases hx⟩
        simp only [genL]
        rw [r1] at a3
        simp at g4; subst g4
        rw [M.bind_ok i3, M.bind_ok a3, M.bind_ok g3, M.bind_ok a5]; rfl
      replace h := ite_ok h
      rcases h with ⟨rfl, h⟩ | ⟨n3, h⟩
      · exact postfixOp_sound (d := .inc) rfl i1 he i3 r3 r2 r1 h
      replace h := ite_ok h
      rcases h with ⟨rfl, h⟩ | ⟨n4, h⟩
      · exact postfixOp_sound (d := .dec) rfl i1 he i3 r3 r2 r1 h
      obind h _u3 s3 h3
      have := rd_un hr h3; subst this
      simp at h; obtain ⟨rfl, rfl⟩ := h
      exact ⟨ts, e, i1.mono (by decide), he, i3⟩
    · simp at h; obtain ⟨rfl, rfl⟩ := h
      have : s2 = s1 := ps_ext (by rw [r5, r3]) r2 r1
      subst this
      exact ⟨ts, e, i1.mono (by decide), he, i3⟩
    · cases h
  · have := ws_stop i4 h1; subst this
    obind h r s2 hr
    obtain ⟨r1, r2, r3⟩ := rd_ok hr
    rcases r3 with ⟨c, rfl, r3⟩ | ⟨rfl, r3, r4, r5⟩ | ⟨rfl, r3, r4, r5⟩
    · rw [r3] at i5; simp at i5; subst i5
      dsimp only at h
      replace h := ite_ok h
      rcases h with ⟨n1, h⟩ | ⟨_, h⟩
      · exact absurd n1 (by decide)
      replace h := ite_ok h
      rcases h with ⟨_, h⟩ | ⟨n1, h⟩
      · obind h fn s3 h3
        obind h args s4 h4
        obind h r s5 h5
        simp at h; obtain ⟨rfl, rfl⟩ := h
        obtain ⟨a3, b3⟩ := bd_ok h3
        obtain ⟨us, es, ws, g1, g2, g3, g4⟩ := args_sound hrec h4
        obtain ⟨a5, b5⟩ := bd_ok h5
        have q1 : Eats s1 [.sym ['(']] s2 := eats_sym1 (by simp [symbols]) r3 rfl r2
        refine .inl ⟨_, .callName x es, .callName (by decide) i1 g1,
          ((((i2.trans q1).trans (Eats.bd b3)).trans g2).trans (Eats.bd b5)).cast (by simp), ?_, by rintro ⟨x, hx⟩; cases hx⟩
        simp only [genL]
        rw [r1] at a3
        simp at g4; subst g4
        rw [M.bind_ok i3, M.bind_ok a3, M.bind_ok g3, M.bind_ok a5]; rfl
      · exact absurd rfl n1
    · rw [r3] at i5; cases i5
    · rw [r3] at i5; cases i5

theorem parsePostfix_sound {rec : Nat → P Val} (hrec : SoundE rec) {n : Nat} {s0 s' : PS} {v : LV}
    (h : parsePostfix rec n s0 = .ok v s') : PostU s0 v s' := by
  unfold parsePostfix at h
  obind h v0 s1 h1
  exact loop_inv (PInv s0) (PostU s0) (fun b s b' s' hI hb => postfixBody_sound hrec hI hb)
    (fun b s r s' hI hb => postfixBody_sound hrec hI hb) (parsePrimary_sound hrec h1) h

/-! ### unary operators -/

theorem postU_pre {s0 s1 s2 s' : PS} {v : LV} {d : Dir} (w1 : Eats s0 [] s1) (w2 : s1.c = s0.c)
    (q : Eats s1 [.sym d.text] s2) (hc : s2.c = s1.c) {s3 : PS} (hP : PostU s2 v s3) (hlv : v.2 = true)
    (h : bd (genPrefix (dirOp d) v.1) s3 = .ok () s') : PostU s0 (v.1, true) s' := by
  obtain ⟨ts, e, g1, g2, g3⟩ := hP
  obtain ⟨b1, b2⟩ := bd_ok h
  refine ⟨_, .pre d e, .pre (by decide) g1, (((w1.trans q).trans g2).trans (Eats.bd b2)).cast (by simp), ?_⟩
  simp only [genL]
  obtain ⟨v1, v2⟩ := v
  simp at hlv; subst hlv
  rw [hc, w2] at g3
  rw [M.bind_ok g3, M.bind_ok (show needLval (v1, true) s3.c = .ok v1 s3.c from rfl), M.bind_ok b1]; rfl

/-- The first token of an expression. -/
def ExprStart : Tok → Prop
  | .num _ | .chr _ | .str _ => True
  | .word w => StartsLetter w
  | .sym s => s ∈ [['('], ['+', '+'], ['-', '-'], ['!'], ['-'], ['*'], ['&']]
  | _ => False

theorem egram_start {pr : Bop → Nat} {L : Nat} {ts : List Tok} {e : Ex} (h : EGram pr L ts e) :
    ∃ t us, ts = t :: us ∧ ExprStart t := by
  match h with
  | .num => exact ⟨_, _, rfl, trivial⟩
  | .chr => exact ⟨_, _, rfl, trivial⟩
  | .str => exact ⟨_, _, rfl, trivial⟩
  | .var h => exact ⟨_, _, rfl, h⟩
  | .paren h => exact ⟨_, _, rfl, by simp [ExprStart]⟩
  | .index _ h1 _ => obtain ⟨t, us, rfl, h⟩ := egram_start h1; exact ⟨t, _, rfl, h⟩
  | .callName _ h _ => exact ⟨_, _, rfl, h⟩
  | .call _ h1 _ _ => obtain ⟨t, us, rfl, h⟩ := egram_start h1; exact ⟨t, _, rfl, h⟩
  | .post _ h1 => obtain ⟨t, us, rfl, h⟩ := egram_start h1; exact ⟨t, _, rfl, h⟩
  | .pre (d := d) _ h1 => exact ⟨_, _, rfl, by cases d <;> simp [ExprStart, Dir.text]⟩
  | .not _ h1 => exact ⟨_, _, rfl, by simp [ExprStart]⟩
  | .neg _ h1 => exact ⟨_, _, rfl, by simp [ExprStart]⟩
  | .deref _ h1 => exact ⟨_, _, rfl, by simp [ExprStart]⟩
  | .addr _ h1 => exact ⟨_, _, rfl, by simp [ExprStart]⟩
  | .bin _ h1 _ => obtain ⟨t, us, rfl, h⟩ := egram_start h1; exact ⟨t, _, rfl, h⟩
  | .cond _ h1 _ _ => obtain ⟨t, us, rfl, h⟩ := egram_start h1; exact ⟨t, _, rfl, h⟩
  | .assign _ h1 _ => obtain ⟨t, us, rfl, h⟩ := egram_start h1; exact ⟨t, _, rfl, h⟩
  | .assignOp _ h1 _ => obtain ⟨t, us, rfl, h⟩ := egram_start h1; exact ⟨t, _, rfl, h⟩

theorem lexes_first {q : Bool} {a b : List Char} {t : Tok} (h : Lexes q a t b) :
    ∃ c x, a = c :: x ∧ match t with
      | .num _ => Digit c
      | .chr _ => c = '\''
      | .str _ => c = '"'
      | .word _ | .defn _ => IdentChar c
      | .head _ => Letter c
      | .els => c = 'e'
      | .sym s => s.head? = some c ∧ s ∈ symbols := by
  have hw : ∀ {p : Char → Prop} {ds : List Char}, ds ≠ [] → (∀ c ∈ ds, p c) → ∃ c x, ds = c :: x ∧ p c := by
    intro p ds h1 h2
    cases ds with
    | nil => exact absurd rfl h1
    | cons c x => exact ⟨c, x, rfl, h2 c (by simp)⟩
  have hl : ∀ {w : List Char}, StartsLetter w → ∃ c x, w = c :: x ∧ Letter c := by
    intro w h1
    cases w with
    | nil => exact absurd h1 id
    | cons c x => exact ⟨c, x, rfl, h1⟩
  cases h with
  | num h1 h2 _ => obtain ⟨c, x, rfl, h⟩ := hw h1 h2; exact ⟨c, _, rfl, h⟩
  | chr => exact ⟨_, _, rfl, rfl⟩
  | str => exact ⟨_, _, rfl, rfl⟩
  | word h1 h2 _ | defn h1 h2 _ => obtain ⟨c, x, rfl, h⟩ := hw h1 h2; exact ⟨c, _, rfl, h⟩
  | head h1 _ _ _ => obtain ⟨c, x, rfl, h⟩ := hl h1; exact ⟨c, _, rfl, h⟩
  | headQuirk _ h1 _ _ _ _ _ => obtain ⟨c, x, rfl, h⟩ := hl h1; exact ⟨c, _, rfl, h⟩
  | els => exact ⟨_, _, rfl, rfl⟩
  | elsEnd => exact ⟨_, _, rfl, rfl⟩
  | elsQuirk => exact ⟨_, _, rfl, rfl⟩
  | @sym s _ h1 _ =>
    have : ∀ s ∈ symbols, s ≠ [] := by decide
    cases s with
    | nil => exact absurd rfl (this _ h1)
    | cons c x => exact ⟨c, _, rfl, rfl, h1⟩
  | symNul _ h1 =>
    rcases h1 with rfl | rfl
    · exact ⟨_, _, rfl, rfl, by simp [symbols]⟩
    · exact ⟨_, _, rfl, rfl, by simp [symbols]⟩

theorem egram_no_eq {pr : Bop → Nat} {L : Nat} {ts : List Tok} {e : Ex} {q : Bool} {a b : List Char}
    (h : EGram pr L ts e) (ht : TokSeq q a ts b) (ha : a.head? = some '=') : False := by
  obtain ⟨t, us, rfl, hs⟩ := egram_start h
  cases ht with
  | @cons lay inp mid _ _ _ h1 h2 h3 =>
    obtain ⟨c, x, rfl, hc⟩ := lexes_first h2
    have hlay : lay = [] := by
      cases h1 with
      | nil => rfl
      | blank hb _ => simp at ha; subst ha; exact absurd hb (by decide)
      | comment => simp at ha
    subst hlay
    simp at ha; subst ha
    cases t <;> simp only at hc
    · revert hc; decide
    · revert hc; decide
    · revert hc; decide
    · revert hc; decide
    · revert hc; decide
    · exact hs
    · revert hc; decide
    · simp only [ExprStart, List.mem_cons, List.not_mem_nil, or_false] at hs
      rcases hs with rfl | rfl | rfl | rfl | rfl | rfl | rfl <;> simp at hc

theorem egram_ne {L : Nat} {ts : List Tok} {e : Ex} (h : EGram prec L ts e) : ts ≠ [] := by
  cases h <;> simp

theorem parseUnary_sound {rec : Nat → P Val} (hrec : SoundE rec) {n : Nat} {s0 s' : PS} {v : LV}
    (h : parseUnary rec n s0 = .ok v s') : PostU s0 v s' := by
  induction n generalizing s0 s' v with
  | zero => cases h
  | succ n ih =>
    unfold parseUnary at h
    obind h _u s1 h1
    obtain ⟨w1, w2, w3⟩ := ws_ok h1
    obind h r s2 hr
    obtain ⟨r1, r2, r3⟩ := rd_ok hr
    rcases r3 with ⟨c, rfl, r3⟩ | ⟨rfl, r3, r4, r5⟩ | ⟨rfl, r3, r4, r5⟩
    · dsimp only at h
      replace h := ite_ok h
      rcases h with ⟨rfl, h⟩ | ⟨n1, h⟩
      · obind h v1 s3 h3
        obind h r s4 h4
        simp at h; obtain ⟨rfl, rfl⟩ := h
        obtain ⟨ts, e, g1, g2, g3⟩ := ih h3
        obtain ⟨b1, b2⟩ := bd_ok h4
        have hm : MaxMunch ['!'] s2.lex.chars := by
          refine munch_one ext_not ?_
          intro hh
          have hx := g2.1
          exact egram_no_eq g1 hx hh
        have q : Eats s1 [.sym ['!']] s2 := eats_sym (by simp [symbols]) r3 hm r2
        refine ⟨_, .not e, .not (by decide) g1, (((w1.trans q).trans g2).trans (Eats.bd b2)).cast (by simp), ?_⟩
        simp only [genL]
        rw [r1, w2] at g3
        rw [M.bind_ok g3, M.bind_ok b1]; rfl
      replace h := ite_ok h
      rcases h with ⟨rfl, h⟩ | ⟨n2, h⟩
      · obind h c2 s3 h3
        obtain ⟨q1, q2, q3⟩ := rd_ok h3
        replace h := ite_ok h
        rcases h with ⟨rfl, h⟩ | ⟨n3, h⟩
        · obind h v1 s4 h4
          replace h := ite_ok h
          rcases h with ⟨_, h⟩ | ⟨hlv, h⟩
          · cases h
          simp at hlv
          obind h _u5 s5 h5
          simp at h; obtain ⟨rfl, rfl⟩ := h
          rcases q3 with ⟨d, hd, q3⟩ | ⟨hd, _⟩ | ⟨hd, _⟩
          · cases hd
            have q : Eats s1 [.sym Dir.dec.text] s3 :=
              eats_sym (by simp [Dir.text, symbols]) (by rw [r3, q3]; rfl) (munch_nil rfl) (by rw [q2, r2])
            exact postU_pre w1 w2 q (by rw [q1, r1]) (ih h4) hlv h5
          · cases hd
          · cases hd
        · obind h _u4 s4 h4
          have := unRC_ok h3 h4; subst this
          obind h v1 s5 h5
          obind h r s6 h6
          simp at h; obtain ⟨rfl, rfl⟩ := h
          obtain ⟨ts, e, g1, g2, g3⟩ := ih h5
          obtain ⟨b1, b2⟩ := bd_ok h6
          have hm : MaxMunch ['-'] s4.lex.chars := by
            refine munch_one ext_sub ?_
            rcases q3 with ⟨d, rfl, q3⟩ | ⟨rfl, q3, q4, q5⟩ | ⟨rfl, q3, q4, q5⟩
            · rw [q3]; simpa using n3
            · rw [q3]; simp
            · rw [q3]; simp
          have q : Eats s1 [.sym ['-']] s4 := eats_sym (by simp [symbols]) r3 hm r2
          refine ⟨_, .neg e, .neg (by decide) g1, (((w1.trans q).trans g2).trans (Eats.bd b2)).cast (by simp), ?_⟩
          simp only [genL]
          rw [r1, w2] at g3
          rw [M.bind_ok g3, M.bind_ok b1]; rfl
      replace h := ite_ok h
      rcases h with ⟨rfl, h⟩ | ⟨n3, h⟩
      · obind h c2 s3 h3
        obtain ⟨q1, q2, q3⟩ := rd_ok h3
        rcases q3 with ⟨d, rfl, q3⟩ | ⟨rfl, _⟩ | ⟨rfl, _⟩
        · dsimp only at h
          replace h := ite_ok h
          rcases h with ⟨_, h⟩ | ⟨n4, h⟩
          · cases h
          simp at n4; subst n4
          obind h v1 s4 h4
          replace h := ite_ok h
          rcases h with ⟨_, h⟩ | ⟨hlv, h⟩
          · cases h
          simp at hlv
          obind h _u5 s5 h5
          simp at h; obtain ⟨rfl, rfl⟩ := h
          have q : Eats s1 [.sym Dir.inc.text] s3 :=
            eats_sym (by simp [Dir.text, symbols]) (by rw [r3, q3]; rfl) (munch_nil rfl) (by rw [q2, r2])
          exact postU_pre w1 w2 q (by rw [q1, r1]) (ih h4) hlv h5
        · cases h
        · cases h
      replace h := ite_ok h
      rcases h with ⟨rfl, h⟩ | ⟨n4, h⟩
      · obind h v1 s3 h3
        obind h r s4 h4
        simp at h; obtain ⟨rfl, rfl⟩ := h
        obtain ⟨ts, e, g1, g2, g3⟩ := ih h3
        obtain ⟨b1, b2⟩ := bd_ok h4
        have q : Eats s1 [.sym ['*']] s2 := eats_sym1 (by simp [symbols]) r3 rfl r2
        refine ⟨_, .deref e, .deref (by decide) g1, (((w1.trans q).trans g2).trans (Eats.bd b2)).cast (by simp), ?_⟩
        simp only [genL]
        rw [r1, w2] at g3
        rw [M.bind_ok g3, M.bind_ok b1]; rfl
      replace h := ite_ok h
      rcases h with ⟨rfl, h⟩ | ⟨n5, h⟩
      · obind h v1 s3 h3
        replace h := ite_ok h
        rcases h with ⟨_, h⟩ | ⟨hlv, h⟩
        · cases h
        simp at hlv
        obind h r s4 h4
        simp at h; obtain ⟨rfl, rfl⟩ := h
        obtain ⟨ts, e, g1, g2, g3⟩ := ih h3
        obtain ⟨b1, b2⟩ := bd_ok h4
        have q : Eats s1 [.sym ['&']] s2 := eats_sym1 (by simp [symbols]) r3 rfl r2
        refine ⟨_, .addr e, .addr (by decide) g1, (((w1.trans q).trans g2).trans (Eats.bd b2)).cast (by simp), ?_⟩
        simp only [genL]
        obtain ⟨x1, x2⟩ := v1
        simp at hlv; subst hlv
        rw [r1, w2] at g3
        rw [M.bind_ok g3, M.bind_ok (show needLval (x1, true) s3.c = .ok x1 s3.c from rfl), M.bind_ok b1]; rfl
      obind h _u3 s3 h3
      have := rd_un hr h3; subst this
      obtain ⟨ts, e, g1, g2, g3⟩ := parsePostfix_sound hrec h
      exact ⟨ts, e, g1, (w1.trans g2).cast (by simp), by rw [← w2]; exact g3⟩
    · cases h
    · cases h

theorem parseExpr_sound (n : Nat) : SoundE (parseExpr n) := by
  induction n with
  | zero => intro L s v s' _ h; cases h
  | succ n ih =>
    intro L s v s' hL h
    unfold parseExpr at h
    obind h left s1 h1
    obtain ⟨ts, e, g1, g2, g3⟩ := parseUnary_sound ih h1
    exact loop_inv (LInv s L) (PostE s L) (fun b s b' s' hI hb => exprBody_sound ih hL hI hb)
      (fun b s r s' hI hb => exprBody_sound ih hL hI hb) ⟨ts, e, 2, g1, .inl rfl, fun _ => rfl, g2, g3, .inl rfl⟩ h

end Blang
