import Verif.Model.Runtime
import Verif.Spec.Numerals
import Verif.Proofs.Loop
import Verif.Proofs.Lexer
/-
Lemmas about the runtime library.
-/
namespace Blang
open Spec

/-! ### numerals -/

theorem digitsValue_snoc (b : Nat) (ds : List Char) (d : Char) :
    digitsValue b (ds ++ [d]) = digitsValue b ds * b + (d.toNat - 48) := by
  induction ds with
  | nil => simp [digitsValue]
  | cons c ds ih =>
    simp only [List.cons_append, digitsValue, List.length_append, List.length_cons, List.length_nil, ih,
      Nat.pow_succ, Nat.add_mul, Nat.mul_assoc]
    omega

theorem numeral_digit {b v : Nat} (hb : 2 ≤ b) (hv : v < b) (hb10 : b ≤ 10) : Numeral b v [Char.ofNat (48 + v)] := by
  have h : (Char.ofNat (48 + v)).toNat = 48 + v := charOfNat_toNat (by omega)
  refine ⟨?_, ?_, by simp, by simp⟩
  · simp only [List.mem_singleton, forall_eq, h]; omega
  · simp only [digitsValue, h, List.length_nil, Nat.pow_zero]; omega

theorem numeral_snoc {b v : Nat} {ds : List Char} (hb : 2 ≤ b) (hb10 : b ≤ 10) (hv : v / b ≠ 0)
    (h : Numeral b (v / b) ds) : Numeral b v (ds ++ [Char.ofNat (48 + v % b)]) := by
  obtain ⟨h1, h2, h3, h4⟩ := h
  have hm : v % b < b := Nat.mod_lt _ (by omega)
  have hc : (Char.ofNat (48 + v % b)).toNat = 48 + v % b := charOfNat_toNat (by omega)
  refine ⟨?_, ?_, by simp, ?_⟩
  · intro c hcm
    rcases List.mem_append.1 hcm with h | h
    · exact h1 c h
    · simp only [List.mem_singleton] at h; subst h; rw [hc]; omega
  · rw [digitsValue_snoc, h2, hc]
    have := Nat.div_add_mod v b
    rw [Nat.mul_comm] at this; omega
  · intro hh
    exfalso
    cases ds with
    | nil => exact h3 rfl
    | cons c ds =>
      have := h4 (by simpa using hh)
      rw [this] at h2
      simp [digitsValue] at h2
      exact hv h2.symm

/-! ### the digit loops -/

/-- Common form of the digit loops. -/
def digitsBody (b : W) (st : W × List Byte × Nat) : RT (Iter (W × List Byte × Nat) (List Byte × Nat)) := do
  let r ← pushFront st.2.1 st.2.2 (digitByte (st.1 % b))
  if st.1 / b ≠ 0 then pure (.next (st.1 / b, r.1, r.2)) else pure (.done r)

theorem printdBody_eq : printdBody = digitsBody 10 := rfl

theorem printoBody_eq : printoBody = digitsBody 8 := by
  have h1 : ∀ v : W, v &&& 7 = v % 8 := by
    intro v
    apply BitVec.eq_of_toNat_eq
    simp only [BitVec.toNat_and, BitVec.toNat_umod]
    exact Nat.and_two_pow_sub_one_eq_mod v.toNat 3
  have h2 : ∀ v : W, v >>> 3 = v / 8 := by
    intro v
    apply BitVec.eq_of_toNat_eq
    simp only [BitVec.toNat_ushiftRight, BitVec.toNat_udiv]
    rw [Nat.shiftRight_eq_div_pow]; rfl
  funext st
  unfold printoBody digitsBody
  rw [h1, h2]

theorem pushFront_ok {buf : List Byte} {p : Nat} (h : 0 < p) (h' : p ≤ buf.length) (b : Byte) (s : RTState) :
    pushFront buf p b s = .ok (buf.set (p - 1) b, p - 1) s := by
  simp [pushFront, h, h']

theorem drop_set (buf : List Byte) (p : Nat) (h : 0 < p) (h' : p ≤ buf.length) (b : Byte) :
    (buf.set (p - 1) b).drop (p - 1) = b :: buf.drop p := by
  rw [List.drop_eq_getElem_cons (by simp; omega)]
  simp only [List.getElem_set_self]
  rw [show p - 1 + 1 = p by omega, List.drop_set_of_lt (by omega)]

theorem digitByte_eq {d : W} (h : d.toNat < 10) : digitByte d = BitVec.ofNat 8 (Char.ofNat (48 + d.toNat)).toNat := by
  rw [charOfNat_toNat (by omega)]
  apply BitVec.eq_of_toNat_eq
  simp [digitByte, BitVec.toNat_add]

theorem loop_digits {b : Nat} (hb : 2 ≤ b) (hb10 : b ≤ 10) (p : Nat) (v : W) (buf : List Byte) (s : RTState)
    (hv : v.toNat < b ^ p) (hp : 0 < p) (hlen : p ≤ buf.length) (fuel : Nat) (hf : p ≤ fuel) :
    ∃ ds buf', Numeral b v.toNat ds ∧ ds.length ≤ p ∧
      loop fuel (digitsBody (BitVec.ofNat 64 b)) (v, buf, p) s = .ok (buf', p - ds.length) s ∧
      buf'.drop (p - ds.length) = codes ds ++ buf.drop p ∧ buf'.length = buf.length := by
  have hbn : (BitVec.ofNat 64 b).toNat = b := by simp; omega
  induction p generalizing v buf fuel with
  | zero => omega
  | succ p ih =>
    obtain ⟨fuel, rfl⟩ : ∃ f, fuel = f + 1 := ⟨fuel - 1, by omega⟩
    have hm : v.toNat % b < b := Nat.mod_lt _ (by omega)
    have hd : digitByte (v % BitVec.ofNat 64 b) = BitVec.ofNat 8 (Char.ofNat (48 + v.toNat % b)).toNat := by
      rw [digitByte_eq] <;> rw [BitVec.toNat_umod, hbn]; omega
    by_cases hz : v.toNat / b = 0
    · have hz' : v / BitVec.ofNat 64 b = 0 := by
        apply BitVec.eq_of_toNat_eq; rw [BitVec.toNat_udiv, hbn, hz]; rfl
      have hlt : v.toNat < b := by
        rw [Nat.div_eq_zero_iff] at hz; omega
      refine ⟨[Char.ofNat (48 + v.toNat)], buf.set p (digitByte (v % BitVec.ofNat 64 b)), numeral_digit hb hlt hb10,
        by simp, ?_, ?_, by simp⟩
      · apply loop_done
        unfold digitsBody
        rw [M.bind_ok (pushFront_ok (by omega) hlen _ s)]
        simp [hz']
      · have := drop_set buf (p + 1) (by omega) hlen (digitByte (v % BitVec.ofNat 64 b))
        simp only [Nat.add_sub_cancel, List.length_singleton, hd, Nat.mod_eq_of_lt hlt] at this ⊢
        rw [this]; rfl
    · have hz' : v / BitVec.ofNat 64 b ≠ 0 := by
        intro h
        have : (v / BitVec.ofNat 64 b).toNat = 0 := by rw [h]; rfl
        rw [BitVec.toNat_udiv, hbn] at this; exact hz this
      have hp0 : 0 < p := by
        rcases Nat.eq_zero_or_pos p with rfl | h
        · exfalso; apply hz; simp at hv; exact Nat.div_eq_of_lt hv
        · exact h
      have hv' : (v / BitVec.ofNat 64 b).toNat < b ^ p := by
        rw [BitVec.toNat_udiv, hbn]
        exact Nat.div_lt_of_lt_mul (by rw [Nat.mul_comm, ← Nat.pow_succ]; exact hv)
      obtain ⟨ds, buf', h1, h2, h3, h4, h5⟩ := ih (v / BitVec.ofNat 64 b) (buf.set p (digitByte (v % BitVec.ofNat 64 b)))
        hv' hp0 (by simp; omega) fuel (by omega)
      rw [BitVec.toNat_udiv, hbn] at h1
      refine ⟨ds ++ [Char.ofNat (48 + v.toNat % b)], buf', numeral_snoc hb hb10 hz h1, by simp; omega, ?_, ?_, by simpa using h5⟩
      · rw [loop_next (b' := (v / BitVec.ofNat 64 b, buf.set p (digitByte (v % BitVec.ofNat 64 b)), p)) (s' := s), h3]
        · simp [show p + 1 - (ds.length + 1) = p - ds.length by omega]
        · unfold digitsBody
          rw [M.bind_ok (pushFront_ok (by omega) hlen _ s), if_pos hz']
          rfl
      · have := drop_set buf (p + 1) (by omega) hlen (digitByte (v % BitVec.ofNat 64 b))
        simp only [Nat.add_sub_cancel] at this
        simp only [List.length_append, List.length_singleton, show p + 1 - (ds.length + 1) = p - ds.length by omega]
        rw [h4, this, hd]
        simp [codes]


/-! ### write -/

/-- the top `k` bytes of a word, big-endian -/
def bytesBE : Nat → W → List Byte
  | 0, _ => []
  | k + 1, w => (w >>> 56).setWidth 8 :: bytesBE k (w <<< 8)

theorem length_bytesBE (k : Nat) (w : W) : (bytesBE k w).length = k := by
  induction k generalizing w with
  | zero => rfl
  | succ k ih => simp [bytesBE, ih]

theorem beValue_bytesBE (k : Nat) (hk : k ≤ 8) (w : W) : beValue (bytesBE k w) = w.toNat / 256 ^ (8 - k) := by
  induction k generalizing w with
  | zero =>
    have := w.isLt
    simp only [bytesBE, beValue]
    symm; apply Nat.div_eq_of_lt; simpa using this
  | succ k ih =>
    have hw := w.isLt
    rw [bytesBE, beValue, ih (by omega), length_bytesBE]
    have h1 : ((w >>> 56).setWidth 8).toNat = w.toNat / 2 ^ 56 := by
      simp only [BitVec.toNat_setWidth, BitVec.toNat_ushiftRight, Nat.shiftRight_eq_div_pow]
      omega
    have h2 : (w <<< 8).toNat = (w.toNat % 2 ^ 56) * 256 := by
      simp only [BitVec.toNat_shiftLeft, Nat.shiftLeft_eq]; omega
    rw [h1, h2]
    have h3 : 8 - k = (8 - (k + 1)) + 1 := by omega
    rw [h3]
    generalize 8 - (k + 1) = j at h3 ⊢
    rw [show (256 : Nat) ^ (j + 1) = 256 * 256 ^ j by rw [Nat.pow_succ, Nat.mul_comm], ← Nat.div_div_eq_div_mul,
      Nat.mul_div_cancel _ (by omega)]
    have h4 : (2:Nat) ^ 56 = 256 ^ k * 256 ^ j := by
      rw [← Nat.pow_add, show k + j = 7 by omega]
    conv => rhs; rw [← Nat.div_add_mod w.toNat (2 ^ 56)]
    rw [h4, Nat.mul_comm (256 ^ k), Nat.mul_assoc, Nat.mul_add_div (Nat.pow_pos (by omega)), Nat.mul_comm (256 ^ k)]

theorem writeLoop_acc (k : Nat) (w : W) (acc : List Byte) (h : acc ≠ []) :
    writeLoop k w acc = acc ++ bytesBE k w := by
  induction k generalizing w acc with
  | zero => simp [writeLoop, bytesBE]
  | succ k ih =>
    simp only [writeLoop, bytesBE]
    rw [if_pos (by simp [h]), ih _ _ (by simp)]
    simp

theorem writeLoop_nil (k : Nat) (w : W) :
    beValue (writeLoop (k + 1) w []) = beValue (bytesBE (k + 1) w) ∧ writeLoop (k + 1) w [] ≠ [] ∧
      ((writeLoop (k + 1) w []).head? = some 0 → writeLoop (k + 1) w [] = [0]) := by
  induction k generalizing w with
  | zero => simp [writeLoop, bytesBE]
  | succ k ih =>
    rw [writeLoop, bytesBE]
    by_cases hb : (w >>> 56).setWidth 8 = (0 : Byte)
    · simp only [hb, ne_eq, not_true, Nat.succ_ne_zero, or_false]
      have := ih (w <<< 8)
      simp only [beValue]
      simpa using this
    · simp only [ne_eq, hb, not_false_eq_true, true_or, if_true]
      rw [writeLoop_acc _ _ _ (by simp)]
      refine ⟨rfl, by simp, ?_⟩
      intro h
      simp at h
      exact absurd h hb

theorem write_packed (w : W) : PackedChars w (writeLoop 8 w []) := by
  obtain ⟨h1, h2, h3⟩ := writeLoop_nil 7 w
  rw [beValue_bytesBE 8 (by omega)] at h1
  exact ⟨by simpa using h1, h2, h3⟩

/-! ### uniqueness of canonical numerals -/

def valueB (b : Nat) : List Nat → Nat
  | [] => 0
  | d :: ds => d * b ^ ds.length + valueB b ds

theorem valueB_snoc (b : Nat) (ds : List Nat) (d : Nat) : valueB b (ds ++ [d]) = valueB b ds * b + d := by
  induction ds with
  | nil => simp [valueB]
  | cons c ds ih =>
    simp only [List.cons_append, valueB, List.length_append, List.length_cons, List.length_nil, ih,
      Nat.pow_succ, Nat.add_mul, Nat.mul_assoc]
    omega

theorem valueB_pos {b : Nat} (hb : 0 < b) {ds : List Nat} (h : ds.head? ≠ some 0) (hne : ds ≠ []) : 0 < valueB b ds := by
  cases ds with
  | nil => exact absurd rfl hne
  | cons d ds =>
    have hd : 0 < d := by
      rcases Nat.eq_zero_or_pos d with rfl | h'
      · simp at h
      · exact h'
    have := Nat.mul_pos hd (Nat.pow_pos (n := ds.length) hb)
    simp only [valueB]; omega

theorem valueB_unique_aux {b : Nat} (hb : 0 < b) : ∀ (n : Nat) (l1 l2 : List Nat), l1.length = n →
    (∀ d ∈ l1, d < b) → (∀ d ∈ l2, d < b) → l1.head? ≠ some 0 → l2.head? ≠ some 0 →
    valueB b l1 = valueB b l2 → l1 = l2 := by
  intro n
  induction n with
  | zero =>
    intro l1 l2 hl _ _ _ h2 he
    have : l1 = [] := List.length_eq_zero_iff.1 hl
    subst this
    cases l2 with
    | nil => rfl
    | cons d ds =>
      have := valueB_pos hb h2 (by simp)
      rw [← he] at this; simp [valueB] at this
  | succ n ih =>
    intro l1 l2 hl hd1 hd2 h1 h2 he
    rcases List.eq_nil_or_concat l1 with rfl | ⟨a, x, rfl⟩
    · simp at hl
    rcases List.eq_nil_or_concat l2 with rfl | ⟨c, y, rfl⟩
    · have := valueB_pos hb h1 (by simp)
      rw [he] at this; simp [valueB] at this
    rw [List.concat_eq_append] at hl hd1 h1 he
    rw [List.concat_eq_append] at hd2 h2 he
    rw [List.concat_eq_append, List.concat_eq_append]
    rw [valueB_snoc, valueB_snoc] at he
    have hx := hd1 x (by simp)
    have hy := hd2 y (by simp)
    have e1 : x = y := by
      have := congrArg (· % b) he
      simpa [Nat.mul_comm _ b, Nat.mul_add_mod, Nat.mod_eq_of_lt hx, Nat.mod_eq_of_lt hy] using this
    subst e1
    have e2 : valueB b a = valueB b c := Nat.eq_of_mul_eq_mul_right hb (by omega)
    have hh : ∀ (l : List Nat), (l ++ [x]).head? ≠ some 0 → l.head? ≠ some 0 := by
      intro l h; cases l <;> simp_all
    rw [ih a c (by simpa using hl) (fun d hd => hd1 d (by simp [hd])) (fun d hd => hd2 d (by simp [hd]))
      (hh a h1) (hh c h2) e2]

theorem valueB_unique {b : Nat} (hb : 0 < b) {l1 l2 : List Nat} (hd1 : ∀ d ∈ l1, d < b) (hd2 : ∀ d ∈ l2, d < b)
    (hn1 : l1 ≠ []) (hn2 : l2 ≠ []) (h1 : l1.head? = some 0 → l1 = [0]) (h2 : l2.head? = some 0 → l2 = [0])
    (he : valueB b l1 = valueB b l2) : l1 = l2 := by
  by_cases z1 : l1.head? = some 0
  · by_cases z2 : l2.head? = some 0
    · rw [h1 z1, h2 z2]
    · have := valueB_pos hb z2 hn2
      rw [← he, h1 z1] at this; simp [valueB] at this
  · by_cases z2 : l2.head? = some 0
    · have := valueB_pos hb z1 hn1
      rw [he, h2 z2] at this; simp [valueB] at this
    · exact valueB_unique_aux hb _ l1 l2 rfl hd1 hd2 z1 z2 he

theorem beValue_eq (bs : List Byte) : beValue bs = valueB 256 (bs.map (·.toNat)) := by
  induction bs with
  | nil => rfl
  | cons b bs ih => simp [beValue, valueB, ih]

theorem packed_unique {w : W} {b1 b2 : List Byte} (h1 : PackedChars w b1) (h2 : PackedChars w b2) : b1 = b2 := by
  obtain ⟨v1, n1, c1⟩ := h1
  obtain ⟨v2, n2, c2⟩ := h2
  have hlt : ∀ (l : List Byte), ∀ d ∈ l.map (·.toNat), d < 256 := by
    intro l d hd
    obtain ⟨x, _, rfl⟩ := List.mem_map.1 hd
    exact x.isLt
  have hz : ∀ (l : List Byte), (l.head? = some 0 → l = [0]) → (l.map (·.toNat)).head? = some 0 → l.map (·.toNat) = [0] := by
    intro l hl h
    cases l with
    | nil => simp at h
    | cons x xs =>
      simp only [List.map_cons, List.head?_cons, Option.some.injEq] at h
      have : x = 0 := BitVec.eq_of_toNat_eq (by simpa using h)
      have := hl (by simp [this])
      rw [this]; rfl
  have := valueB_unique (b := 256) (by omega) (hlt b1) (hlt b2) (by simpa using n1) (by simpa using n2)
    (hz b1 c1) (hz b2 c2) (by rw [← beValue_eq, ← beValue_eq, v1, v2])
  exact List.map_inj_right (fun x y h => BitVec.eq_of_toNat_eq h) |>.1 this

theorem digitsValue_eq (b : Nat) (ds : List Char) : digitsValue b ds = valueB b (ds.map (fun c => c.toNat - 48)) := by
  induction ds with
  | nil => rfl
  | cons d ds ih => simp [digitsValue, valueB, ih]

theorem numeral_unique {b n : Nat} (hb : 0 < b) {d1 d2 : List Char} (h1 : Numeral b n d1) (h2 : Numeral b n d2) : d1 = d2 := by
  obtain ⟨r1, v1, n1, c1⟩ := h1
  obtain ⟨r2, v2, n2, c2⟩ := h2
  have hlt : ∀ (l : List Char), (∀ c ∈ l, 48 ≤ c.toNat ∧ c.toNat < 48 + b) → ∀ d ∈ l.map (fun c => c.toNat - 48), d < b := by
    intro l hl d hd
    obtain ⟨x, hx, rfl⟩ := List.mem_map.1 hd
    have := hl x hx; omega
  have hz : ∀ (l : List Char), (∀ c ∈ l, 48 ≤ c.toNat ∧ c.toNat < 48 + b) → (l.head? = some '0' → l = ['0']) →
      (l.map (fun c => c.toNat - 48)).head? = some 0 → l.map (fun c => c.toNat - 48) = [0] := by
    intro l hr hl h
    cases l with
    | nil => simp at h
    | cons x xs =>
      simp only [List.map_cons, List.head?_cons, Option.some.injEq] at h
      have hx := hr x (by simp)
      have : x = '0' := (char_eq_iff _ _).2 (by show x.toNat = 48; omega)
      have := hl (by simp [this])
      rw [this]; rfl
  have := valueB_unique (b := b) hb (hlt d1 r1) (hlt d2 r2) (by simpa using n1) (by simpa using n2)
    (hz d1 r1 c1) (hz d2 r2 c2) (by rw [← digitsValue_eq, ← digitsValue_eq, v1, v2])
  clear v1 v2 n1 n2 c1 c2
  induction d1 generalizing d2 with
  | nil => cases d2 <;> simp_all
  | cons x xs ih =>
    cases d2 with
    | nil => simp at this
    | cons y ys =>
      simp only [List.map_cons, List.cons.injEq] at this
      have hx := r1 x (by simp)
      have hy := r2 y (by simp)
      rw [(char_eq_iff x y).2 (by omega), ih (fun c hc => r1 c (by simp [hc])) (fun c hc => r2 c (by simp [hc])) this.2]

theorem intNumeral_unique {b : Nat} {n : Int} (hb : 0 < b) {d1 d2 : List Char} (h1 : IntNumeral b n d1)
    (h2 : IntNumeral b n d2) : d1 = d2 := by
  obtain ⟨m1, h1, rfl⟩ := h1
  obtain ⟨m2, h2, rfl⟩ := h2
  rw [numeral_unique hb h1 h2]

/-! ### printing -/

/-- `m`, started in `s`, ends normally, changes nothing but the trace of writes, and writes exactly
`out` to the current output descriptor. -/
def Emits {α : Type} (m : RT α) (s : RTState) (a : α) (out : List Byte) : Prop :=
  ∃ ws, m s = .ok a { s with trace := s.trace ++ ws } ∧ (∀ w ∈ ws, w.1 = s.fout + 1) ∧
    (ws.map (·.2)).flatten = out

theorem emits_write (w : W) (s : RTState) : Emits (rtWrite w) s () (writeLoop 8 w []) :=
  ⟨[(s.fout + 1, writeLoop 8 w [])], rfl, by simp, by simp⟩

theorem emits_pure {α : Type} (a : α) (s : RTState) : Emits (pure a : RT α) s a [] :=
  ⟨[], by simp, by simp, rfl⟩

/-- sequencing: the second part is considered in every state that differs in the trace only -/
theorem emits_bind {α β : Type} {m : RT α} {f : α → RT β} {s : RTState} {a : α} {b : β} {o1 o2 : List Byte}
    (h1 : Emits m s a o1) (h2 : ∀ tr, Emits (f a) { s with trace := tr } b o2) :
    Emits (m >>= f) s b (o1 ++ o2) := by
  obtain ⟨w1, e1, f1, g1⟩ := h1
  obtain ⟨w2, e2, f2, g2⟩ := h2 (s.trace ++ w1)
  refine ⟨w1 ++ w2, ?_, ?_, by simp [g1, g2]⟩
  · rw [M.bind_ok e1, e2]; simp
  · intro w hw
    rcases List.mem_append.1 hw with h | h
    · exact f1 w h
    · exact f2 w h

theorem emits_then {α β : Type} {m : RT α} {s : RTState} {a : α} {o : List Byte} (h : Emits m s a o) (g : α → β) :
    Emits (m >>= fun x => pure (g x)) s (g a) o := by
  have := emits_bind (f := fun x => pure (g x)) h (fun tr => emits_pure (g a) { s with trace := tr })
  rwa [List.append_nil] at this

theorem numeral_length {b n k : Nat} {ds : List Char} (hb : 0 < b) (h : Numeral b n ds) (hk : 1 ≤ k) (hn : n < b ^ k) :
    ds.length ≤ k := by
  obtain ⟨r, v, ne, z⟩ := h
  apply Classical.byContradiction
  intro hlen
  cases ds with
  | nil => exact ne rfl
  | cons c cs =>
    have hc : c ≠ '0' := by
      rintro rfl
      have := z (by simp)
      rw [this] at hlen; simp at hlen; omega
    have hcr := r c (by simp)
    have hc1 : 1 ≤ c.toNat - 48 := by
      have : c.toNat ≠ 48 := fun h => hc ((char_eq_iff _ _).2 h)
      omega
    have : b ^ k ≤ b ^ cs.length := Nat.pow_le_pow_right hb (by simp at hlen; omega)
    have h10 : 1 * b ^ cs.length ≤ (c.toNat - 48) * b ^ cs.length := Nat.mul_le_mul_right _ hc1
    simp only [digitsValue] at v
    omega

theorem magnitude (n : W) : (if n.slt 0 = true then 1 + ~~~n else n).toNat = n.toInt.natAbs := by
  have hslt : n.slt 0 = true ↔ n.toInt < 0 := by simp [BitVec.slt]
  have hn := n.isLt
  have hti := BitVec.toInt_eq_toNat_cond n
  by_cases hneg : n.toInt < 0
  · rw [if_pos (hslt.2 hneg)]
    have h1 : BitVec.toNat (1 : W) = 1 := rfl
    simp only [BitVec.toNat_add, BitVec.toNat_not, h1]
    split at hti <;> omega
  · rw [if_neg (by rw [hslt]; exact hneg)]
    split at hti <;> omega

theorem slt_zero_iff (n : W) : n.slt 0 = true ↔ n.toInt < 0 := by simp [BitVec.slt]

theorem writeBuf_emits {buf : List Byte} {p : Nat} (s : RTState) : Emits (writeBuf buf p) s () (buf.drop p) :=
  ⟨[(s.fout + 1, buf.drop p)], rfl, by simp, by simp⟩

theorem printd_emits (junk : Nat → Byte) (n : W) (s : RTState) (fuel : Nat) (hf : 26 ≤ fuel) :
    ∃ ds, IntNumeral 10 n.toInt ds ∧ Emits (rtPrintd fuel junk n) s () (codes ds) := by
  have hmag := magnitude n
  have hslt := slt_zero_iff n
  unfold rtPrintd
  simp only
  generalize (if n.slt 0 = true then 1 + ~~~n else n) = value at hmag
  have hvl := value.isLt
  obtain ⟨ds, buf', h1, h2, h3, h4, h5⟩ := loop_digits (b := 10) (by omega) (by omega) 26 value
    ((List.range 26).map junk) s (by omega) (by omega) (by simp) fuel (by omega)
  have hdl : ds.length ≤ 20 := numeral_length (by omega) h1 (by omega) (by omega)
  have hbl : buf'.length = 26 := by rw [h5]; simp
  have hd26 : ((List.range 26).map junk).drop 26 = [] := List.drop_eq_nil_of_le (by simp)
  rw [hd26, List.append_nil] at h4
  refine ⟨if n.toInt < 0 then '-' :: ds else ds, ⟨ds, by rw [← hmag]; exact h1, rfl⟩, ?_⟩
  have key : ∀ r, Emits (pushSign (n.slt 0) r >>= fun r => writeBuf r.1 r.2) s () (codes (if n.toInt < 0 then '-' :: ds else ds)) →
      loop fuel printdBody (value, (List.range 26).map junk, 26) s = .ok r s →
      Emits (loop fuel printdBody (value, (List.range 26).map junk, 26) >>= fun r => pushSign (n.slt 0) r >>= fun r => writeBuf r.1 r.2) s ()
        (codes (if n.toInt < 0 then '-' :: ds else ds)) := by
    rintro r ⟨ws, e, f, g⟩ hl
    exact ⟨ws, by rw [M.bind_ok hl, e], f, g⟩
  refine key _ ?_ h3
  by_cases hneg : n.toInt < 0
  · have hp : pushSign (n.slt 0) (buf', 26 - ds.length) s = .ok (buf'.set (26 - ds.length - 1) 45, 26 - ds.length - 1) s := by
      simp only [pushSign, hslt.2 hneg, if_true]
      exact pushFront_ok (by omega) (by omega) _ s
    refine ⟨[(s.fout + 1, (buf'.set (26 - ds.length - 1) 45).drop (26 - ds.length - 1))], ?_, by simp, ?_⟩
    · rw [M.bind_ok hp]; rfl
    · rw [drop_set _ _ (by omega) (by omega), h4]
      simp [hneg, codes]
  · have hp : pushSign (n.slt 0) (buf', 26 - ds.length) s = .ok (buf', 26 - ds.length) s := by
      have : n.slt 0 = false := by rw [← hslt] at hneg; simpa using hneg
      simp only [pushSign, this]; rfl
    refine ⟨[(s.fout + 1, buf'.drop (26 - ds.length))], ?_, by simp, ?_⟩
    · rw [M.bind_ok hp]; rfl
    · rw [h4]; simp [hneg]

theorem printo_emits (junk : Nat → Byte) (n : W) (s : RTState) (fuel : Nat) (hf : 22 ≤ fuel) :
    ∃ ds, Numeral 8 n.toNat ds ∧ Emits (rtPrinto fuel junk n) s () (codes ds) := by
  have hvl := n.isLt
  obtain ⟨ds, buf', h1, h2, h3, h4, h5⟩ := loop_digits (b := 8) (by omega) (by omega) 22 n
    ((List.range 22).map junk) s (by omega) (by omega) (by simp) fuel (by omega)
  have hd22 : ((List.range 22).map junk).drop 22 = [] := List.drop_eq_nil_of_le (by simp)
  rw [hd22, List.append_nil] at h4
  refine ⟨ds, h1, [(s.fout + 1, buf'.drop (22 - ds.length))], ?_, by simp, by simp [h4]⟩
  have h3' : loop fuel (digitsBody 8) (n, (List.range 22).map junk, 22) s = .ok (buf', 22 - ds.length) s := h3
  unfold rtPrinto
  rw [printoBody_eq, M.bind_ok h3']; rfl

/-! ### printf -/

theorem charToWord_ascii (sc : Bool) {b : Byte} (h : sc = true → b.toNat < 128) : (charToWord sc b).toNat = b.toNat := by
  unfold charToWord
  cases sc with
  | false => simp; omega
  | true =>
    have hb := h rfl
    simp only [if_true]
    rw [BitVec.toNat_signExtend]
    have : b.msb = false := by
      rw [BitVec.msb_eq_decide]; simp; omega
    simp [this]; omega

theorem write_byte {c : W} {b : Byte} (h : c.toNat = b.toNat) : writeLoop 8 c [] = [b] := by
  have h1 := write_packed c
  have h2 : PackedChars c [b] := by
    refine ⟨by simp [beValue, h], by simp, ?_⟩
    intro h; simp at h; rw [h]; rfl
  exact packed_unique h1 h2

theorem rtChar_apply (sc : Bool) (a i : W) (s : RTState) : rtChar sc a i s = .ok (charToWord sc (s.mem (a + i))) s := rfl

theorem charToWord_low (sc : Bool) (b : Byte) : (charToWord sc b).setWidth 8 = b := by
  revert sc b; decide +kernel

theorem charToWord_ne {sc : Bool} {b : Byte} {k : Nat} (hk : b ≠ BitVec.ofNat 8 k) : charToWord sc b ≠ BitVec.ofNat 64 k := by
  intro he
  apply hk
  rw [← charToWord_low sc b, he]
  apply BitVec.eq_of_toNat_eq
  simp only [BitVec.toNat_setWidth, BitVec.toNat_ofNat]
  omega

theorem write_char (sc : Bool) (b : Byte) : writeLoop 8 (charToWord sc b) [] = charOut sc b := by
  revert sc b; decide +kernel

theorem charToWord_eq {sc : Bool} {k : Nat} (hk : k < 128) : charToWord sc (BitVec.ofNat 8 k) = BitVec.ofNat 64 k := by
  apply BitVec.eq_of_toNat_eq
  rw [charToWord_ascii]
  · simp; omega
  · intro _; simp; omega

/-- ASCII when plain `char` is signed -/
def Plain (sc : Bool) (bs : List Byte) : Prop := ∀ b ∈ bs, sc = true → b.toNat < 128

theorem ofNat_add_one (a : W) (k : Nat) : a + BitVec.ofNat 64 k + 1 = a + BitVec.ofNat 64 (k + 1) := by
  rw [BitVec.add_assoc, BitVec.ofNat_add]; rfl

/-- the `%s` loop -/
theorem str_emits (sc : Bool) (x : W) (bs : List Byte) (done : List Byte) (s : RTState) (fuel : Nat)
    (hs : StrAt s.mem x (done ++ bs)) (hf : bs.length < fuel) :
    Emits (loop fuel (printfStrBody sc x) (BitVec.ofNat 64 done.length)) s () (bs.flatMap (charOut sc)) := by
  induction bs generalizing done s fuel with
  | nil =>
    obtain ⟨fuel, rfl⟩ : ∃ f, fuel = f + 1 := ⟨fuel - 1, by simp at hf; omega⟩
    refine ⟨[], ?_, by simp, rfl⟩
    rw [loop_done (r := ()) (s' := s)]
    · simp
    · have := hs.2
      simp only [List.append_nil] at this
      unfold printfStrBody
      rw [M.bind_ok (rtChar_apply sc x _ s), this]
      have : charToWord sc 0 = 0 := charToWord_eq (k := 0) (by omega)
      rw [this]; rfl
  | cons b bs ih =>
    obtain ⟨fuel, rfl⟩ : ∃ f, fuel = f + 1 := ⟨fuel - 1, by simp at hf; omega⟩
    have hb := hs.1 done.length (by simp)
    simp only [List.getElem_append_right (Nat.le_refl _), Nat.sub_self, List.getElem_cons_zero] at hb
    have hne : charToWord sc b ≠ 0 := charToWord_ne (k := 0) hb.2
    have hw := write_char sc b
    have hlen : BitVec.ofNat 64 done.length + 1 = BitVec.ofNat 64 (done ++ [b]).length := by
      simp [BitVec.ofNat_add]
    have hbody : printfStrBody sc x (BitVec.ofNat 64 done.length) s =
        .ok (.next (BitVec.ofNat 64 (done ++ [b]).length)) { s with trace := s.trace ++ [(s.fout + 1, charOut sc b)] } := by
      unfold printfStrBody
      rw [M.bind_ok (rtChar_apply sc x _ s), hb.1, if_pos hne, ← hlen, ← hw]; rfl
    obtain ⟨ws, e, f, g⟩ := ih (done ++ [b]) { s with trace := s.trace ++ [(s.fout + 1, charOut sc b)] } fuel
      (by simpa using hs) (by simp at hf; omega)
    refine ⟨(s.fout + 1, charOut sc b) :: ws, ?_, ?_, by simp [g]⟩
    · rw [loop_next hbody, e]; simp
    · intro w hw
      rcases List.mem_cons.1 hw with rfl | h
      · rfl
      · exact f w h

/-- what the arguments of a `printf` need for the exact output -/
def GoodArgs (sc : Bool) (mem : W → Byte) (fuel : Nat) : W → List Byte → Prop := fun x bs =>
  StrAt mem x bs ∧ Plain sc bs ∧ bs.length < fuel

/-- a `%s` argument: a string, shorter than the fuel -/
def StrArg (mem : W → Byte) (fuel : Nat) : W → List Byte → Prop := fun x bs => StrAt mem x bs ∧ bs.length < fuel

theorem charOut_plain {sc : Bool} {c : Byte} (h : sc = true → c.toNat < 128) : charOut sc c = [c] := by
  unfold charOut
  rw [if_neg]
  rintro ⟨h1, h2⟩
  have := h h1
  omega

theorem flatMap_plain {sc : Bool} {bs : List Byte} (h : Plain sc bs) : bs.flatMap (charOut sc) = bs := by
  induction bs with
  | nil => rfl
  | cons b bs ih => rw [List.flatMap_cons, charOut_plain (h b (by simp)), ih fun c hc => h c (by simp [hc])]; rfl

/-- where nothing special occurs, what is printed is the expansion of the format -/
theorem printed_of_expand {sc : Bool} {mem : W → Byte} {fuel : Nat} {f : List Byte} {as : List W} {o : List Byte}
    (he : Expand (GoodArgs sc mem fuel) f as o) (hp : Plain sc f) (hm : ∀ x ∈ as, x ≠ BitVec.intMin 64) :
    Printed sc (StrArg mem fuel) f as o := by
  induction he with
  | done => exact .done
  | @plain c f as o h1 _ ih =>
    have := Printed.plain h1 (ih (fun b hb => hp b (by simp [hb])) hm)
    rwa [charOut_plain (hp c (by simp))] at this
  | decimal h1 _ ih => exact .decimal (hm _ (by simp)) h1 (ih (fun b hb => hp b (by simp [hb])) fun x hx => hm x (by simp [hx]))
  | octal h1 _ ih => exact .octal h1 (ih (fun b hb => hp b (by simp [hb])) fun x hx => hm x (by simp [hx]))
  | char h1 _ ih => exact .char h1 (ih (fun b hb => hp b (by simp [hb])) fun x hx => hm x (by simp [hx]))
  | @string x bs f as o h1 _ ih =>
    have := Printed.string (sc := sc) (str := StrArg mem fuel) ⟨h1.1, h1.2.2⟩
      (ih (fun b hb => hp b (by simp [hb])) fun x hx => hm x (by simp [hx]))
    rwa [flatMap_plain h1.2.1] at this
  | percent _ ih => exact .percent (ih (fun b hb => hp b (by simp [hb])) hm)
  | unknown h1 _ ih => exact .unknown h1 (ih (fun b hb => hp b (by simp [hb])) hm)

theorem printfSign_emits {x : W} (hx : x ≠ BitVec.intMin 64) (s : RTState) :
    ∃ y, Emits (printfSign x) s y (if x.toInt < 0 then [45] else []) ∧ y.toInt = (x.toInt.natAbs : Int) := by
  have hslt := slt_zero_iff x
  by_cases hneg : x.toInt < 0
  · refine ⟨-x, ?_, ?_⟩
    · rw [if_pos hneg]
      unfold printfSign
      rw [if_pos (hslt.2 hneg)]
      have h1 : Emits (rtWrite 45) s () [45] := by
        have := emits_write 45 s
        rwa [write_byte (b := 45) (by rfl)] at this
      exact emits_then h1 (fun _ => -x)
    · rw [BitVec.toInt_neg_of_ne_intMin hx]; omega
  · refine ⟨x, ?_, by omega⟩
    rw [if_neg hneg]
    unfold printfSign
    rw [if_neg (by rw [hslt]; exact hneg)]
    exact emits_pure x s

theorem emits_loop_next {β ρ : Type} {n : Nat} {body : β → RT (Iter β ρ)} {b b' : β} {s : RTState} {r : ρ}
    {o1 o2 : List Byte} (h1 : Emits (body b) s (.next b') o1)
    (h2 : ∀ tr, Emits (loop n body b') { s with trace := tr } r o2) :
    Emits (loop (n + 1) body b) s r (o1 ++ o2) := by
  obtain ⟨w1, e1, f1, g1⟩ := h1
  obtain ⟨w2, e2, f2, g2⟩ := h2 (s.trace ++ w1)
  refine ⟨w1 ++ w2, ?_, ?_, by simp [g1, g2]⟩
  · rw [loop_next e1, e2]; simp
  · intro w hw
    rcases List.mem_append.1 hw with h | h
    · exact f1 w h
    · exact f2 w h

/-- reading is silent -/
theorem emits_char_bind {β : Type} {sc : Bool} {a i : W} {f : W → RT β} {s : RTState} {b : β} {o : List Byte} {c : W}
    (hc : charToWord sc (s.mem (a + i)) = c) (h : Emits (f c) s b o) : Emits (rtChar sc a i >>= f) s b o := by
  subst hc
  obtain ⟨ws, e, f', g⟩ := h
  exact ⟨ws, by rw [M.bind_ok (rtChar_apply sc a i s), e], f', g⟩

theorem intNumeral_sign {b : Nat} {x y : W} {ds m : List Char} (hb : 0 < b) (h : IntNumeral b x.toInt ds)
    (hy : y.toInt = (x.toInt.natAbs : Int)) (hm : Numeral b y.toInt.natAbs m) :
    codes ds = (if x.toInt < 0 then [45] else []) ++ codes m := by
  obtain ⟨m', h1, rfl⟩ := h
  rw [hy] at hm
  rw [numeral_unique hb h1 hm]
  split <;> simp [codes]

theorem printfConv_emits {sc : Bool} {fuel : Nat} {junk : Nat → Byte} {args : Nat → W} {i : W} {k : Nat} {s : RTState}
    (hf : 26 ≤ fuel) {x : W} (hk : args k = x) :
    (∀ ds, IntNumeral 10 x.toInt ds → x ≠ BitVec.intMin 64 →
      Emits (printfConv sc fuel junk args i k 100) s (i, k + 1) (codes ds)) ∧
    (x = BitVec.intMin 64 → Emits (printfConv sc fuel junk args i k 100) s (i, k + 1) (codes ("--9223372036854775808".toList))) ∧
    (∀ ds, IntNumeral 8 x.toInt ds →
      Emits (printfConv sc fuel junk args i k 111) s (i, k + 1) (codes ds)) ∧
    (∀ bs, PackedChars x bs → Emits (printfConv sc fuel junk args i k 99) s (i, k + 1) bs) ∧
    (∀ bs, StrArg s.mem fuel x bs → Emits (printfConv sc fuel junk args i k 115) s (i, k + 1) (bs.flatMap (charOut sc))) ∧
    Emits (printfConv sc fuel junk args i k 37) s (i, k) [37] := by
  have e37 : Emits (rtWrite 37) s () [37] := by
    have := emits_write 37 s
    rwa [write_byte (b := 37) (by rfl)] at this
  refine ⟨?_, ?_, ?_, ?_, ?_, ?_⟩
  · intro ds hd hx
    subst hk
    obtain ⟨y, h1, h2⟩ := printfSign_emits hx s
    show Emits (printfSign (args k) >>= fun x => rtPrintd fuel junk x >>= fun _ => pure (i, k + 1)) s (i, k + 1) (codes ds)
    obtain ⟨m, hm, rfl⟩ := hd
    have h2' : y.toInt.natAbs = (args k).toInt.natAbs := by omega
    have hmy : IntNumeral 10 y.toInt m := ⟨m, by rw [h2']; exact hm, by rw [if_neg (by omega)]⟩
    have := emits_bind h1 (f := fun x => rtPrintd fuel junk x >>= fun _ => pure (i, k + 1)) (b := (i, k + 1))
      (o2 := codes m) (fun tr => by
        obtain ⟨ds, hds, he⟩ := printd_emits junk y { s with trace := tr } fuel hf
        rw [intNumeral_unique (by omega) hmy hds]
        exact emits_then he (fun _ => (i, k + 1)))
    have ho : codes (if (args k).toInt < 0 then '-' :: m else m) = (if (args k).toInt < 0 then [45] else []) ++ codes m := by
      split <;> simp [codes]
    rw [ho]; exact this
  · intro hx
    subst hk
    show Emits (printfSign (args k) >>= fun x => rtPrintd fuel junk x >>= fun _ => pure (i, k + 1)) s (i, k + 1) _
    rw [hx]
    have h1 : Emits (printfSign (BitVec.intMin 64)) s (BitVec.intMin 64) [45] := by
      have h1 : Emits (rtWrite 45) s () [45] := by
        have := emits_write 45 s
        rwa [write_byte (b := 45) (by rfl)] at this
      exact emits_then h1 (fun _ => -BitVec.intMin 64)
    have hm : IntNumeral 10 (BitVec.intMin 64).toInt "-9223372036854775808".toList :=
      ⟨"9223372036854775808".toList, ⟨by decide, by decide +kernel, by decide, by decide⟩, by decide +kernel⟩
    have := emits_bind h1 (f := fun x => rtPrintd fuel junk x >>= fun _ => pure (i, k + 1)) (b := (i, k + 1))
      (o2 := codes "-9223372036854775808".toList) (fun tr => by
        obtain ⟨ds, hds, he⟩ := printd_emits junk (BitVec.intMin 64) { s with trace := tr } fuel hf
        rw [intNumeral_unique (by omega) hm hds]
        exact emits_then he (fun _ => (i, k + 1)))
    exact this
  · intro ds hd
    subst hk
    show Emits (printfSign (args k) >>= fun x => rtPrinto fuel junk x >>= fun _ => pure (i, k + 1)) s (i, k + 1) (codes ds)
    obtain ⟨m, hm, rfl⟩ := hd
    obtain ⟨y, h1, hy⟩ : ∃ y : W, Emits (printfSign (args k)) s y (if (args k).toInt < 0 then [45] else []) ∧
        y.toNat = (args k).toInt.natAbs := by
      by_cases hx : args k = BitVec.intMin 64
      · rw [hx]
        refine ⟨BitVec.intMin 64, ?_, by decide +kernel⟩
        rw [if_pos (by decide +kernel)]
        have h1 : Emits (rtWrite 45) s () [45] := by
          have := emits_write 45 s
          rwa [write_byte (b := 45) (by rfl)] at this
        exact emits_then h1 (fun _ => -BitVec.intMin 64)
      · obtain ⟨y, h1, h2⟩ := printfSign_emits hx s
        refine ⟨y, h1, ?_⟩
        have hyl := y.isLt
        have hyc := BitVec.toInt_eq_toNat_cond y
        split at hyc <;> omega
    have hmy : Numeral 8 y.toNat m := by rw [hy]; exact hm
    have := emits_bind h1 (f := fun x => rtPrinto fuel junk x >>= fun _ => pure (i, k + 1)) (b := (i, k + 1))
      (o2 := codes m) (fun tr => by
        obtain ⟨ds, hds, he⟩ := printo_emits junk y { s with trace := tr } fuel (by omega)
        rw [numeral_unique (by omega) hmy hds]
        exact emits_then he (fun _ => (i, k + 1)))
    have ho : codes (if (args k).toInt < 0 then '-' :: m else m) = (if (args k).toInt < 0 then [45] else []) ++ codes m := by
      split <;> simp [codes]
    rw [ho]; exact this
  · intro bs hb
    subst hk
    rw [packed_unique hb (write_packed _)]
    exact emits_then (emits_write (args k) s) (fun _ => (i, k + 1))
  · intro bs ⟨h1, h3⟩
    subst hk
    have := str_emits sc (args k) bs [] s fuel h1 h3
    exact emits_then this (fun _ => (i, k + 1))
  · exact emits_then e37 (fun _ => (i, k))

theorem printfConv_unknown {sc : Bool} {fuel : Nat} {junk : Nat → Byte} {args : Nat → W} {i : W} {k : Nat} {s : RTState}
    {c : W} (h : c ∉ [100, 111, 99, 115, 37]) : Emits (printfConv sc fuel junk args i k c) s (i - 1, k) [37] := by
  simp only [List.mem_cons, List.not_mem_nil, or_false, not_or] at h
  have e37 : Emits (rtWrite 37) s () [37] := by
    have := emits_write 37 s
    rwa [write_byte (b := 37) (by rfl)] at this
  unfold printfConv
  rw [if_neg h.1, if_neg h.2.1, if_neg h.2.2.1, if_neg h.2.2.2.1, if_neg h.2.2.2.2]
  exact emits_then e37 (fun _ => (i - 1, k))

theorem loop_printf {sc : Bool} {fuel : Nat} {junk : Nat → Byte} {fmt : W} {args : Nat → W} {mem : W → Byte}
    (hf : 26 ≤ fuel) {f : List Byte} {as : List W} {o : List Byte}
    (he : Printed sc (StrArg mem fuel) f as o) :
    ∀ (done : List Byte) (k : Nat) (s : RTState) (n : Nat), s.mem = mem → StrAt mem fmt (done ++ f) →
      (∀ i (h : i < as.length), args (k + i) = as[i]) → f.length < n →
      Emits (loop n (printfBody sc fuel junk fmt args) (BitVec.ofNat 64 done.length, k)) s () o := by
  -- what reading the format yields
  have rd : ∀ {done f : List Byte} {c : Byte}, StrAt mem fmt (done ++ c :: f) → mem (fmt + BitVec.ofNat 64 done.length) = c ∧ c ≠ 0 := by
    intro done f c h
    have := h.1 done.length (by simp)
    simpa using this
  have rd1 : ∀ {done f : List Byte} {b c : Byte}, StrAt mem fmt (done ++ b :: c :: f) →
      mem (fmt + (BitVec.ofNat 64 done.length + 1)) = c ∧ c ≠ 0 := by
    intro done f b c h
    have := @rd (done ++ [b]) f c (by simpa using h)
    rw [← BitVec.add_assoc, ofNat_add_one]
    simpa using this
  have len1 : ∀ (done : List Byte) (b : Byte), BitVec.ofNat 64 done.length + 1 = BitVec.ofNat 64 (done ++ [b]).length := by
    intro done b; simp [BitVec.ofNat_add]
  have len2 : ∀ (done : List Byte) (b c : Byte), BitVec.ofNat 64 done.length + 2 = BitVec.ofNat 64 (done ++ [b, c]).length := by
    intro done b c; simp [BitVec.ofNat_add]
  have c37 : charToWord sc 37 = 37 := charToWord_eq (k := 37) (by omega)
  -- a conversion: `%` and one more character
  have conv : ∀ {f : List Byte} {as : List W} {c : Byte} {o1 o2 : List Byte} {k' : Nat} (done : List Byte) (k : Nat) (s : RTState) (n : Nat),
      s.mem = mem → StrAt mem fmt (done ++ 37 :: c :: f) → (37#8 :: c :: f).length < n →
      Emits (printfConv sc fuel junk args (BitVec.ofNat 64 (done ++ [37, c]).length) k (charToWord sc c)) s
        (BitVec.ofNat 64 (done ++ [37, c]).length, k') o1 →
      (∀ tr, f.length < n - 1 → Emits (loop (n - 1) (printfBody sc fuel junk fmt args) (BitVec.ofNat 64 (done ++ [37, c]).length, k')) { s with trace := tr } () o2) →
      Emits (loop n (printfBody sc fuel junk fmt args) (BitVec.ofNat 64 done.length, k)) s () (o1 ++ o2) := by
    intro f as c o1 o2 k' done k s n hmem hstr hn h1 h2
    simp only [List.length_cons] at hn
    obtain ⟨n, rfl⟩ : ∃ m, n = m + 1 := ⟨n - 1, by omega⟩
    refine emits_loop_next (b' := (BitVec.ofNat 64 (done ++ [37, c]).length, k')) ?_ (fun tr => h2 tr (by omega))
    unfold printfBody
    refine emits_char_bind (c := 37) (by rw [hmem, (rd hstr).1, c37]) ?_
    rw [if_neg (by simp)]
    refine emits_char_bind (c := charToWord sc c) (by rw [hmem, (rd1 hstr).1]) ?_
    simp only [len2 done 37 c]
    exact emits_then h1 Iter.next
  induction he with
  | done =>
    intro done k s n hmem hstr _ hn
    obtain ⟨n, rfl⟩ : ∃ m, n = m + 1 := ⟨n - 1, by simp at hn; omega⟩
    refine ⟨[], ?_, by simp, rfl⟩
    rw [loop_done (r := ()) (s' := s)]
    · simp
    · have h0 := hstr.2
      rw [List.append_nil] at h0
      unfold printfBody
      rw [M.bind_ok (rtChar_apply sc fmt _ s), hmem]
      simp only
      rw [h0, show charToWord sc 0 = 0 from charToWord_eq (k := 0) (by omega)]
      rfl
  | @plain c f as o hc _ ih =>
    intro done k s n hmem hstr hargs hn
    simp only [List.length_cons] at hn
    obtain ⟨n, rfl⟩ : ∃ m, n = m + 1 := ⟨n - 1, by omega⟩
    have h1 : Emits (printfBody sc fuel junk fmt args (BitVec.ofNat 64 done.length, k)) s
        (.next (BitVec.ofNat 64 (done ++ [c]).length, k)) (charOut sc c) := by
      unfold printfBody
      refine emits_char_bind (c := charToWord sc c) (by rw [hmem, (rd hstr).1]) ?_
      have hn37 : charToWord sc c ≠ 37 := charToWord_ne (k := 37) hc
      have hn0 : charToWord sc c ≠ 0 := charToWord_ne (k := 0) (rd hstr).2
      rw [if_pos hn37, if_neg hn0]
      have := emits_write (charToWord sc c) s
      rw [write_char] at this
      simp only [len1 done c]
      exact emits_then this (fun _ => Iter.next (BitVec.ofNat 64 (done ++ [c]).length, k))
    exact emits_loop_next h1 (fun tr => ih (done ++ [c]) k _ n hmem (by simpa using hstr) hargs (by omega))
  | @decimal x ds f as o hmin hd _ ih =>
    intro done k s n hmem hstr hargs hn
    have hx := hargs 0 (by simp)
    refine conv (as := as) done k s n hmem hstr hn
      (by rw [show charToWord sc 100#8 = 100 from charToWord_eq (k := 100) (by omega)]
          exact (printfConv_emits hf hx).1 ds hd hmin) ?_
    intro tr hn'
    exact ih _ _ _ _ hmem (by simpa using hstr)
      (fun i h => by have := hargs (i + 1) (by simpa using h); rw [← show k + (i + 1) = k + 1 + i by omega]; simpa using this) hn'
  | @smallest f as o _ ih =>
    intro done k s n hmem hstr hargs hn
    have hx := hargs 0 (by simp)
    refine conv (as := as) done k s n hmem hstr hn
      (by rw [show charToWord sc 100#8 = 100 from charToWord_eq (k := 100) (by omega)]
          exact (printfConv_emits hf hx).2.1 rfl) ?_
    intro tr hn'
    exact ih _ _ _ _ hmem (by simpa using hstr)
      (fun i h => by have := hargs (i + 1) (by simpa using h); rw [← show k + (i + 1) = k + 1 + i by omega]; simpa using this) hn'
  | @octal x ds f as o hd _ ih =>
    intro done k s n hmem hstr hargs hn
    have hx := hargs 0 (by simp)
    refine conv (as := as) done k s n hmem hstr hn
      (by rw [show charToWord sc 111#8 = 111 from charToWord_eq (k := 111) (by omega)]
          exact (printfConv_emits hf hx).2.2.1 ds hd) ?_
    intro tr hn'
    exact ih _ _ _ _ hmem (by simpa using hstr)
      (fun i h => by have := hargs (i + 1) (by simpa using h); rw [← show k + (i + 1) = k + 1 + i by omega]; simpa using this) hn'
  | @char x bs f as o hd _ ih =>
    intro done k s n hmem hstr hargs hn
    have hx := hargs 0 (by simp)
    refine conv (as := as) done k s n hmem hstr hn
      (by rw [show charToWord sc 99#8 = 99 from charToWord_eq (k := 99) (by omega)]
          exact (printfConv_emits hf hx).2.2.2.1 bs hd) ?_
    intro tr hn'
    exact ih _ _ _ _ hmem (by simpa using hstr)
      (fun i h => by have := hargs (i + 1) (by simpa using h); rw [← show k + (i + 1) = k + 1 + i by omega]; simpa using this) hn'
  | @string x bs f as o hd _ ih =>
    intro done k s n hmem hstr hargs hn
    have hx := hargs 0 (by simp)
    refine conv (as := as) done k s n hmem hstr hn
      (by rw [show charToWord sc 115#8 = 115 from charToWord_eq (k := 115) (by omega)]
          exact (printfConv_emits hf hx).2.2.2.2.1 bs (by rw [hmem]; exact hd)) ?_
    intro tr hn'
    exact ih _ _ _ _ hmem (by simpa using hstr)
      (fun i h => by have := hargs (i + 1) (by simpa using h); rw [← show k + (i + 1) = k + 1 + i by omega]; simpa using this) hn'
  | @percent f as o _ ih =>
    intro done k s n hmem hstr hargs hn
    refine conv (as := as) (o1 := [37]) done k s n hmem hstr hn
      (by rw [show charToWord sc 37#8 = 37 from c37]; exact (printfConv_emits hf rfl).2.2.2.2.2) ?_
    intro tr hn'
    exact ih _ _ _ _ hmem (by simpa using hstr) hargs hn'
  | @unknown f as o hu _ ih =>
    intro done k s n hmem hstr hargs hn
    simp only [List.length_cons] at hn
    obtain ⟨n, rfl⟩ : ∃ m, n = m + 1 := ⟨n - 1, by omega⟩
    have hsub : BitVec.ofNat 64 done.length + 2 - 1 = BitVec.ofNat 64 (done ++ [37]).length := by
      rw [← len1 done 37, BitVec.sub_eq_add_neg, BitVec.add_assoc]; rfl
    have h1 : Emits (printfBody sc fuel junk fmt args (BitVec.ofNat 64 done.length, k)) s
        (.next (BitVec.ofNat 64 (done ++ [37]).length, k)) [37] := by
      unfold printfBody
      refine emits_char_bind (c := 37) (by rw [hmem, (rd hstr).1]; exact c37) ?_
      rw [if_neg (by simp)]
      have hcase : ∃ c, charToWord sc (s.mem (fmt + (BitVec.ofNat 64 done.length + 1))) = c ∧ c ∉ [100, 111, 99, 115, 37] := by
        cases f with
        | nil =>
          refine ⟨0, ?_, by decide⟩
          have := hstr.2
          rw [hmem, ← BitVec.add_assoc, ofNat_add_one]
          simp only [List.length_append, List.length_singleton] at this
          rw [this]; exact charToWord_eq (k := 0) (by omega)
        | cons c f =>
          refine ⟨charToWord sc c, by rw [hmem, (rd1 hstr).1], ?_⟩
          have hc := hu c (by simp)
          simp only [List.mem_cons, List.not_mem_nil, or_false, not_or] at hc ⊢
          exact ⟨charToWord_ne (k := 100) hc.1, charToWord_ne (k := 111) hc.2.1,
            charToWord_ne (k := 99) hc.2.2.1, charToWord_ne (k := 115) hc.2.2.2.1,
            charToWord_ne (k := 37) hc.2.2.2.2⟩
      obtain ⟨c, hc, hnc⟩ := hcase
      refine emits_char_bind (c := c) hc ?_
      have := printfConv_unknown (sc := sc) (fuel := fuel) (junk := junk) (args := args)
        (i := BitVec.ofNat 64 done.length + 2) (k := k) (s := s) hnc
      rw [hsub] at this
      exact emits_then this Iter.next
    exact emits_loop_next h1 (fun tr => ih (done ++ [37]) k _ n hmem (by simpa using hstr) hargs (by omega))

end Blang
