import Verif.Props.Euler
import Verif.Proofs.Spigot
/-
C75: the run of `examples/e-2.b`.
-/
namespace Blang.Props
open Blang Blang.Spec

/-! ### arithmetic on small numbers -/

theorem mul_sem (x y : Word) : Bop.sem x y .mul = some (x * y) := by
  simp [Bop.sem, BitVec.ofInt_mul]

theorem sub_one_sem {a : Nat} (h : 0 < a) : Bop.sem (BitVec.ofNat 64 a) 1 .sub = some (BitVec.ofNat 64 (a - 1)) := by
  show some (BitVec.ofInt 64 _) = _
  congr 1
  rw [Int.sub_eq_add_neg, BitVec.ofInt_add, BitVec.ofInt_toInt, show BitVec.ofInt 64 (-(1 : Word).toInt) = -1 from rfl]
  bv_omega

theorem div_small {j m : Nat} (hj : j < 2 ^ 63) (hm : 0 < m) (hm' : m < 2 ^ 63) :
    Bop.sem (BitVec.ofNat 64 j) (BitVec.ofNat 64 m) .div = some (BitVec.ofNat 64 (j / m)) := by
  have e : ((j : Int).tdiv m) = ((j / m : Nat) : Int) := by rw [Int.tdiv_eq_ediv_of_nonneg (by omega)]; rfl
  simp only [Bop.sem]
  rw [toInt_small hj, toInt_small hm', if_neg (by omega), e, BitVec.ofInt_natCast]

theorem lt_small {j m : Nat} (hj : j < 2 ^ 63) (hm : m < 2 ^ 63) :
    Bop.sem (BitVec.ofNat 64 j) (BitVec.ofNat 64 m) .lt = some (truth (j < m)) := by
  simp only [Bop.sem]
  rw [toInt_small hj, toInt_small hm]
  congr 1
  unfold truth
  by_cases h : j < m
  · rw [if_pos h, if_pos (by omega)]
  · rw [if_neg h, if_neg (by omega)]

/-! ### the variables -/

/-- the words in memory that the program uses -/
inductive Slot where
  | i | c | col | a | n | v
  | w (k : Nat)
  deriving DecidableEq

/-- the elements of the vector end at 2000 -/
def Slot.Ok : Slot → Prop
  | .w k => k < 2000
  | _ => True

/-- the values of the variables -/
structure ES where
  i : Nat
  c : Nat
  col : Nat
  a : Nat
  vec : Nat → Nat

/-- what is in memory -/
def ES.val (base : Word) (e : ES) : Slot → Word
  | .i => BitVec.ofNat 64 e.i
  | .c => BitVec.ofNat 64 e.c
  | .col => BitVec.ofNat 64 e.col
  | .a => BitVec.ofNat 64 e.a
  | .n => 2000
  | .v => base
  | .w k => BitVec.ofNat 64 (e.vec k)

/-- where it is, and that it does not overlap -/
structure Slots (base : Word) (at_ : Slot → Word) : Prop where
  apart : ∀ s t : Slot, s.Ok → t.Ok → s ≠ t → Apart (at_ s) (at_ t)
  elem : ∀ k, k < 2000 → at_ (.w k) = base + 8 * BitVec.ofNat 64 k

/-- the memory holds these values -/
def At (base : Word) (at_ : Slot → Word) (m : Mem) (e : ES) : Prop := ∀ s : Slot, s.Ok → loadW m (at_ s) = e.val base s

theorem At.store {base : Word} {at_ : Slot → Word} (S : Slots base at_) {m : Mem} {e e' : ES} (h : At base at_ m e) {s : Slot} (hs : s.Ok)
    {x : Word} (h1 : e'.val base s = x) (h2 : ∀ t : Slot, t.Ok → t ≠ s → e'.val base t = e.val base t) : At base at_ (storeW m (at_ s) x) e' := by
  intro t ht
  by_cases hts : t = s
  · rw [hts, loadW_storeW, h1]
  · rw [loadW_other (S.apart s t hs ht (Ne.symm hts)), h t ht, h2 t ht hts]

theorem At.congr {base : Word} {at_ : Slot → Word} {m : Mem} {e e' : ES} (h : At base at_ m e) (h1 : e'.i = e.i) (h2 : e'.c = e.c) (h3 : e'.col = e.col)
    (h4 : e'.a = e.a) (h5 : ∀ k, k < 2000 → e'.vec k = e.vec k) : At base at_ m e' := by
  intro s hs
  rw [h s hs]
  cases s with
  | w k => simp only [ES.val]; rw [h5 k hs]
  | _ => simp only [ES.val, *]

/-- the vector with one element changed -/
def setv (v : Nat → Nat) (i x : Nat) : Nat → Nat := fun k => if k = i then x else v k

/-- what the names mean inside `main` -/
structure EC (at_ : Slot → Word) (addr : List Char → Word) (locs exts : List Ident) (ρ : Frame) : Prop where
  li : "i".toList ∈ locs
  lc : "c".toList ∈ locs
  lcol : "col".toList ∈ locs
  la : "a".toList ∈ locs
  ln : "n".toList ∉ locs
  lv : "v".toList ∉ locs
  en : "n".toList ∈ exts
  ev : "v".toList ∈ exts
  lw : "write".toList ∉ locs
  ew : "write".toList ∉ exts
  ri : ρ "i".toList = some (at_ .i)
  rc : ρ "c".toList = some (at_ .c)
  rcol : ρ "col".toList = some (at_ .col)
  ra : ρ "a".toList = some (at_ .a)
  gn : addr (symbolOf "n".toList) = at_ .n
  gv : addr (symbolOf "v".toList) = at_ .v

section
variable {C : Computer} {R : Calls C.machine.World} {P0 : Place} {body : St} {ρ : Frame} {base : Word} {at_ : Slot → Word} {locs exts : List Ident}

section
variable (V : EC at_ C.addr locs exts ρ) {P : Place} (hL : P.env.locals = locs) (hE : P.env.exts = exts)
include V hL hE

theorem ev_i (n : Nat) (σ : Store C.machine.World) : vI.Eval C.machine.toB R P.env ρ n σ (.cell (at_ .i)) σ := eval_local (hL ▸ V.li) V.ri _ _
theorem ev_c (n : Nat) (σ : Store C.machine.World) : vC.Eval C.machine.toB R P.env ρ n σ (.cell (at_ .c)) σ := eval_local (hL ▸ V.lc) V.rc _ _
theorem ev_col (n : Nat) (σ : Store C.machine.World) : vCol.Eval C.machine.toB R P.env ρ n σ (.cell (at_ .col)) σ := eval_local (hL ▸ V.lcol) V.rcol _ _
theorem ev_a (n : Nat) (σ : Store C.machine.World) : vA.Eval C.machine.toB R P.env ρ n σ (.cell (at_ .a)) σ := eval_local (hL ▸ V.la) V.ra _ _
theorem ev_n (n : Nat) (σ : Store C.machine.World) : vN.Eval C.machine.toB R P.env ρ n σ (.cell (at_ .n)) σ := by
  refine ⟨?_, rfl⟩
  rw [nameRes, if_neg (hL ▸ V.ln), if_pos (hE ▸ V.en)]
  exact congrArg (fun a => some (Res.cell a)) V.gn
theorem ev_v (n : Nat) (σ : Store C.machine.World) : vV.Eval C.machine.toB R P.env ρ n σ (.cell (at_ .v)) σ := by
  refine ⟨?_, rfl⟩
  rw [nameRes, if_neg (hL ▸ V.lv), if_pos (hE ▸ V.ev)]
  exact congrArg (fun a => some (Res.cell a)) V.gv

/-- `v[i]` -/
theorem ev_elem (S : Slots base at_) {e : ES} (n : Nat) {σ : Store C.machine.World} (h : At base at_ σ.mem e) (hi : e.i < 2000) :
    (Ex.index vV vI).Eval C.machine.toB R P.env ρ n σ (.cell (at_ (.w e.i))) σ := by
  refine ⟨_, σ, _, ev_v V hL hE _ _, ev_i V hL hE _ _, ?_⟩
  show _ = Res.cell (loadW σ.mem (at_ .v) + 8 * loadW σ.mem (at_ .i))
  rw [h .v trivial, h .i trivial, S.elem _ hi]; rfl

end

variable (S : Slots base at_) (V : EC at_ C.addr locs exts ρ)
include S V

/-- `v[i++]` -/
theorem ev_elem_next {e : ES} {σ : Store C.machine.World} (h : At base at_ σ.mem e) (hi : e.i < 2000) :
    ∃ σ', (∀ (P : Place) (n : Nat), P.env.locals = locs → P.env.exts = exts →
        (Ex.index vV (.post .inc vI)).Eval C.machine.toB R P.env ρ n σ (.cell (at_ (.w e.i))) σ') ∧
      At base at_ σ'.mem { e with i := e.i + 1 } ∧ σ'.world = σ.world := by
  refine ⟨σ.store (at_ .i) (Dir.sem (loadW σ.mem (at_ .i)) .inc), fun P n hL hE => ⟨_, σ, .val (loadW σ.mem (at_ .i)), ev_v V hL hE _ _, ⟨_, σ, ev_i V hL hE _ _, rfl, rfl⟩, ?_⟩,
    h.store S (s := .i) trivial ?_ ?_, rfl⟩
  · show _ = Res.cell (loadW σ.mem (at_ .v) + 8 * loadW σ.mem (at_ .i))
    rw [h .v trivial, h .i trivial, S.elem _ hi]; rfl
  · rw [h .i trivial, inc_sem]
    show BitVec.ofNat 64 (e.i + 1) = BitVec.ofNat 64 e.i + 1
    rw [BitVec.ofNat_add]; rfl
  · intro t _ ht
    cases t <;> first | rfl | exact absurd rfl ht

/-- `v[i++] = 1;` -/
theorem do_fill {e : ES} {σ : Store C.machine.World} (h : At base at_ σ.mem e) (hi : e.i < 2000) :
    ∃ σ', (∀ (P : Place) (k : Cont), P.env.locals = locs → P.env.exts = exts → BStep C.machine.toB R P0 body
        (.run P (.expr (.assign none (.index vV (.post .inc vI)) (.num 1))) k ρ σ) (.run P .skip k ρ σ')) ∧
      At base at_ σ'.mem { e with i := e.i + 1, vec := setv e.vec e.i 1 } ∧ σ'.world = σ.world := by
  obtain ⟨σ1, e1, a1, w1⟩ := ev_elem_next (C := C) (R := R) S V h hi
  refine ⟨σ1.store (at_ (.w e.i)) 1, fun P k hL hE => .expr ⟨_, ⟨_, σ1, .val 1, σ1, e1 P _ hL hE, ⟨rfl, rfl⟩, rfl, rfl⟩, rfl⟩, a1.store S (s := .w e.i) hi ?_ ?_, w1⟩
  · simp [ES.val, setv]
  · intro t _ ht
    cases t <;> try rfl
    simp only [ES.val, setv]
    rw [if_neg (fun e => ht (by rw [e]))]

/-- `v[i++] = c % a;` -/
theorem do_mod {e : ES} {σ : Store C.machine.World} (h : At base at_ σ.mem e) (hi : e.i < 2000) (hc : e.c < 2 ^ 63) (ha : 0 < e.a) (ha' : e.a < 2 ^ 63) :
    ∃ σ', (∀ (P : Place) (k : Cont), P.env.locals = locs → P.env.exts = exts → BStep C.machine.toB R P0 body
        (.run P (.expr (.assign none (.index vV (.post .inc vI)) (.bin .mod vC vA))) k ρ σ) (.run P .skip k ρ σ')) ∧
      At base at_ σ'.mem { e with i := e.i + 1, vec := setv e.vec e.i (e.c % e.a) } ∧ σ'.world = σ.world := by
  obtain ⟨σ1, e1, a1, w1⟩ := ev_elem_next (C := C) (R := R) S V h hi
  refine ⟨σ1.store (at_ (.w e.i)) (BitVec.ofNat 64 (e.c % e.a)), fun P k hL hE => .expr ⟨_, ⟨_, σ1, .val _, σ1, e1 P _ hL hE, ⟨_, σ1, _, _, ev_c V hL hE _ _, ev_a V hL hE _ _, ?_, rfl⟩, rfl, rfl⟩, rfl⟩,
    a1.store S (s := .w e.i) hi ?_ ?_, w1⟩
  · show Bop.sem (loadW σ1.mem (at_ .c)) (loadW σ1.mem (at_ .a)) .mod = _
    rw [a1 .c trivial, a1 .a trivial]
    exact mod_zero hc ha ha'
  · simp [ES.val, setv]
  · intro t _ ht
    cases t <;> try rfl
    simp only [ES.val, setv]
    rw [if_neg (fun e => ht (by rw [e]))]

/-- `c =+ v[i] * 10;` -/
theorem do_add {e : ES} {σ : Store C.machine.World} (h : At base at_ σ.mem e) (hi : e.i < 2000) :
    ∃ σ', (∀ (P : Place) (k : Cont), P.env.locals = locs → P.env.exts = exts → BStep C.machine.toB R P0 body
        (.run P (.expr (.assign (some .add) vC (.bin .mul (.index vV vI) (.num 10)))) k ρ σ) (.run P .skip k ρ σ')) ∧
      At base at_ σ'.mem { e with c := e.c + e.vec e.i * 10 } ∧ σ'.world = σ.world := by
  refine ⟨σ.store (at_ .c) (BitVec.ofNat 64 (e.c + e.vec e.i * 10)), fun P k hL hE => .expr ⟨_, ⟨_, σ, .val (BitVec.ofNat 64 (e.vec e.i * 10)), σ, _, ev_c V hL hE _ _,
    ⟨_, σ, .val 10, _, ev_elem V hL hE S _ h hi, ⟨rfl, rfl⟩, ?_, rfl⟩, ?_, rfl, rfl⟩, rfl⟩, h.store S (s := .c) trivial rfl ?_, rfl⟩
  · show Bop.sem (loadW σ.mem (at_ (.w e.i))) 10 .mul = _
    rw [h (.w e.i) hi, mul_sem, BitVec.ofNat_mul]; rfl
  · show Bop.sem (loadW σ.mem (at_ .c)) _ .add = _
    rw [h .c trivial, BitVec.ofNat_add]; exact add_sem _ _
  · intro t _ ht
    cases t <;> first | rfl | exact absurd rfl ht

/-- `c = c / a;` -/
theorem do_div {e : ES} {σ : Store C.machine.World} (h : At base at_ σ.mem e) (hc : e.c < 2 ^ 63) (ha : 0 < e.a) (ha' : e.a < 2 ^ 63) :
    ∃ σ', (∀ (P : Place) (k : Cont), P.env.locals = locs → P.env.exts = exts → BStep C.machine.toB R P0 body
        (.run P (.expr (.assign none vC (.bin .div vC vA))) k ρ σ) (.run P .skip k ρ σ')) ∧
      At base at_ σ'.mem { e with c := e.c / e.a } ∧ σ'.world = σ.world := by
  refine ⟨σ.store (at_ .c) (BitVec.ofNat 64 (e.c / e.a)), fun P k hL hE => .expr ⟨_, ⟨_, σ, .val _, σ, ev_c V hL hE _ _, ⟨_, σ, _, _, ev_c V hL hE _ _, ev_a V hL hE _ _, ?_, rfl⟩, rfl, rfl⟩, rfl⟩,
    h.store S (s := .c) trivial rfl ?_, rfl⟩
  · show Bop.sem (loadW σ.mem (at_ .c)) (loadW σ.mem (at_ .a)) .div = _
    rw [h .c trivial, h .a trivial]
    exact div_small hc ha ha'
  · intro t _ ht
    cases t <;> first | rfl | exact absurd rfl ht

/-- `a = a - 1;` -/
theorem do_dec {e : ES} {σ : Store C.machine.World} (h : At base at_ σ.mem e) (ha : 0 < e.a) :
    ∃ σ', (∀ (P : Place) (k : Cont), P.env.locals = locs → P.env.exts = exts → BStep C.machine.toB R P0 body
        (.run P (.expr (.assign none vA (.bin .sub vA (.num 1)))) k ρ σ) (.run P .skip k ρ σ')) ∧
      At base at_ σ'.mem { e with a := e.a - 1 } ∧ σ'.world = σ.world := by
  refine ⟨σ.store (at_ .a) (BitVec.ofNat 64 (e.a - 1)), fun P k hL hE => .expr ⟨_, ⟨_, σ, .val _, σ, ev_a V hL hE _ _, ⟨_, σ, .val 1, _, ev_a V hL hE _ _, ⟨rfl, rfl⟩, ?_, rfl⟩, rfl, rfl⟩, rfl⟩,
    h.store S (s := .a) trivial rfl ?_, rfl⟩
  · show Bop.sem (loadW σ.mem (at_ .a)) 1 .sub = _
    rw [h .a trivial]
    exact sub_one_sem ha
  · intro t _ ht
    cases t <;> first | rfl | exact absurd rfl ht

/-- `a = n + 1;` -/
theorem do_base {e : ES} {σ : Store C.machine.World} (h : At base at_ σ.mem e) :
    ∃ σ', (∀ (P : Place) (k : Cont), P.env.locals = locs → P.env.exts = exts → BStep C.machine.toB R P0 body
        (.run P (.expr (.assign none vA (.bin .add vN (.num 1)))) k ρ σ) (.run P .skip k ρ σ')) ∧
      At base at_ σ'.mem { e with a := 2001 } ∧ σ'.world = σ.world := by
  refine ⟨σ.store (at_ .a) 2001, fun P k hL hE => .expr ⟨_, ⟨_, σ, .val _, σ, ev_a V hL hE _ _, ⟨_, σ, .val 1, _, ev_n V hL hE _ _, ⟨rfl, rfl⟩, ?_, rfl⟩, rfl, rfl⟩, rfl⟩,
    h.store S (s := .a) trivial rfl ?_, rfl⟩
  · show Bop.sem (loadW σ.mem (at_ .n)) 1 .add = _
    rw [h .n trivial, add_sem]; rfl
  · intro t _ ht
    cases t <;> first | rfl | exact absurd rfl ht

/-- `c = i = 0;` -/
theorem do_zero {e : ES} {σ : Store C.machine.World} (h : At base at_ σ.mem e) :
    ∃ σ', (∀ (P : Place) (k : Cont), P.env.locals = locs → P.env.exts = exts → BStep C.machine.toB R P0 body
        (.run P (.expr (.assign none vC (.assign none vI (.num 0)))) k ρ σ) (.run P .skip k ρ σ')) ∧
      At base at_ σ'.mem { e with i := 0, c := 0 } ∧ σ'.world = σ.world := by
  refine ⟨(σ.store (at_ .i) 0).store (at_ .c) 0, fun P k hL hE => .expr ⟨_, ⟨_, σ, .val 0, _, ev_c V hL hE _ _, ⟨_, σ, .val 0, σ, ev_i V hL hE _ _, ⟨rfl, rfl⟩, rfl, rfl⟩, rfl, rfl⟩, rfl⟩,
    At.store S (e := { e with i := 0 }) (h.store S (s := .i) trivial rfl ?_) (s := .c) trivial rfl ?_, rfl⟩
  · intro t _ ht
    cases t <;> first | rfl | exact absurd rfl ht
  · intro t _ ht
    cases t <;> first | rfl | exact absurd rfl ht

/-- `i = col = 0;` -/
theorem do_start {e : ES} {σ : Store C.machine.World} (h : At base at_ σ.mem e) :
    ∃ σ', (∀ (P : Place) (k : Cont), P.env.locals = locs → P.env.exts = exts → BStep C.machine.toB R P0 body
        (.run P (.expr (.assign none vI (.assign none vCol (.num 0)))) k ρ σ) (.run P .skip k ρ σ')) ∧
      At base at_ σ'.mem { e with i := 0, col := 0 } ∧ σ'.world = σ.world := by
  refine ⟨(σ.store (at_ .col) 0).store (at_ .i) 0, fun P k hL hE => .expr ⟨_, ⟨_, σ, .val 0, _, ev_i V hL hE _ _, ⟨_, σ, .val 0, σ, ev_col V hL hE _ _, ⟨rfl, rfl⟩, rfl, rfl⟩, rfl, rfl⟩, rfl⟩,
    At.store S (e := { e with col := 0 }) (h.store S (s := .col) trivial rfl ?_) (s := .i) trivial rfl ?_, rfl⟩
  · intro t _ ht
    cases t <;> first | rfl | exact absurd rfl ht
  · intro t _ ht
    cases t <;> first | rfl | exact absurd rfl ht

/-- `i < n` -/
theorem val_i_n {e : ES} {σ : Store C.machine.World} (h : At base at_ σ.mem e) (hi : e.i < 2 ^ 63) :
    ∀ P : Place, P.env.locals = locs → P.env.exts = exts → (Ex.bin .lt vI vN).Value C.machine.toB R P ρ σ (truth (e.i < 2000)) σ := by
  intro P hL hE
  refine ⟨_, ⟨_, σ, _, _, ev_i V hL hE _ _, ev_n V hL hE _ _, ?_, rfl⟩, rfl⟩
  show Bop.sem (loadW σ.mem (at_ .i)) (loadW σ.mem (at_ .n)) .lt = _
  rw [h .i trivial, h .n trivial]
  exact lt_small hi (by decide)

/-- `col < 2 * n` -/
theorem val_col {e : ES} {σ : Store C.machine.World} (h : At base at_ σ.mem e) (hi : e.col < 2 ^ 63) :
    ∀ P : Place, P.env.locals = locs → P.env.exts = exts → (Ex.bin .lt vCol (.bin .mul (.num 2) vN)).Value C.machine.toB R P ρ σ (truth (e.col < 4000)) σ := by
  intro P hL hE
  refine ⟨_, ⟨_, σ, .val 4000, _, ev_col V hL hE _ _, ⟨.val 2, σ, _, _, ⟨rfl, rfl⟩, ev_n V hL hE _ _, ?_, rfl⟩, ?_, rfl⟩, rfl⟩
  · show Bop.sem 2 (loadW σ.mem (at_ .n)) .mul = _
    rw [h .n trivial, mul_sem]; rfl
  · show Bop.sem (loadW σ.mem (at_ .col)) 4000 .lt = _
    rw [h .col trivial]
    exact lt_small hi (by decide)

/-- `!(++col % 5)` -/
theorem val_five {e : ES} {σ : Store C.machine.World} (h : At base at_ σ.mem e) (hi : e.col < 2 ^ 62) :
    ∃ σ', (∀ P : Place, P.env.locals = locs → P.env.exts = exts →
        (Ex.not (.paren (.bin .mod (.pre .inc vCol) (.num 5)))).Value C.machine.toB R P ρ σ (truth ((e.col + 1) % 5 = 0)) σ') ∧
      At base at_ σ'.mem { e with col := e.col + 1 } ∧ σ'.world = σ.world := by
  let σ1 : Store C.machine.World := σ.store (at_ .col) (Dir.sem (loadW σ.mem (at_ .col)) .inc)
  have a1 : At base at_ σ1.mem { e with col := e.col + 1 } := by
    refine h.store S (s := .col) trivial ?_ ?_
    · rw [h .col trivial, inc_sem]
      show BitVec.ofNat 64 (e.col + 1) = BitVec.ofNat 64 e.col + 1
      rw [BitVec.ofNat_add]; rfl
    · intro t _ ht
      cases t <;> first | rfl | exact absurd rfl ht
  refine ⟨σ1, fun P hL hE => ⟨.val _, ⟨.val (BitVec.ofNat 64 ((e.col + 1) % 5)), ⟨.val (BitVec.ofNat 64 ((e.col + 1) % 5)), ⟨.cell (at_ .col), σ1, .val 5, _,
    ⟨_, σ, ev_col V hL hE _ _, rfl, rfl⟩, ⟨rfl, rfl⟩, ?_, rfl⟩, rfl⟩, ?_⟩, rfl⟩, a1, rfl⟩
  · show Bop.sem (loadW σ1.mem (at_ .col)) 5 .mod = _
    rw [a1 .col trivial]
    exact mod_zero (m := 5) (by show e.col + 1 < 2 ^ 63; omega) (by decide) (by decide)
  · show Res.val _ = Res.val (truth (BitVec.ofNat 64 ((e.col + 1) % 5) = 0))
    congr 1
    unfold truth
    by_cases h0 : (e.col + 1) % 5 = 0
    · rw [if_pos h0, if_pos (by rw [h0]; rfl)]
    · rw [if_neg h0, if_neg]
      intro e'
      have := congrArg BitVec.toNat e'
      simp at this
      omega
end

end Blang.Props
