import Verif.Props.EulerRun
/-
C75: the loops of `examples/e-2.b` and the whole run.
-/
namespace Blang.Props
open Blang Blang.Spec

/-! ### what has been written, whatever the memory -/

/-- `bs` was written, memory may have changed -/
def Wr (C : Computer) (σ : Store C.machine.World) (bs : List (BitVec 8)) (σ' : Store C.machine.World) : Prop :=
  Wrote (C.see { σ with mem := σ'.mem }) bs (C.see σ')

theorem Wr.quiet {C : Computer} {σ σ' : Store C.machine.World} (h : σ'.world = σ.world) : Wr C σ [] σ' := by
  unfold Wr
  rw [← h]
  exact wrote_nil _

theorem Wr.trans {C : Computer} {σ σ1 σ2 : Store C.machine.World} {a b : List (BitVec 8)} (h1 : Wr C σ a σ1) (h2 : Wr C σ1 b σ2) : Wr C σ (a ++ b) σ2 := by
  refine wrote_trans (t := C.see { σ1 with mem := σ2.mem }) ?_ h2
  obtain ⟨ws, e, h3, h4⟩ := h1
  refine ⟨ws, ?_, h3, h4⟩
  exact congrArg (fun s : RTState => { s with mem := σ2.mem }) e

theorem Out.wr {C : Computer} {σ σ' : Store C.machine.World} {bs : List (BitVec 8)} (h : Out C σ bs σ') : Wr C σ bs σ' := by
  unfold Wr
  rw [h.mem]
  exact h.1

theorem packed_char {c : Nat} (h0 : 0 < c) (h : c < 256) : PackedChars (BitVec.ofNat 64 c) [BitVec.ofNat 8 c] := by
  refine ⟨?_, by simp, ?_⟩
  · simp [beValue]
    omega
  · intro e
    have := congrArg BitVec.toNat (Option.some.inj e)
    simp at this
    omega

theorem bsteps_one {M : BMachine} {R : Calls M.World} {P : Place} {b : St} {x y : BState M.World} (h : BStep M R P b x y) : BSteps M R P b x y := .head h .refl

section
variable {C : Computer} {L : Library} {P0 : Place} {body : St} {ρ : Frame} {base : Word} {at_ : Slot → Word} {locs exts : List Ident}
variable (S : Slots base at_) (V : EC at_ C.addr locs exts ρ)
include S V

/-- the first loop -/
theorem fill_loop : ∀ d j : Nat, j + d = 2000 → ∀ (e : ES) (σ : Store C.machine.World), At base at_ σ.mem e → e.i = j → (∀ k, k < j → e.vec k = 1) →
    ∃ σ', (∀ (P : Place) (k : Cont), P.env.locals = locs → P.env.exts = exts →
        BSteps C.machine.toB (C.calls L.Runs) P0 body (.run P (.while (.bin .lt vI vN) eulerFill) k ρ σ) (.run P .skip k ρ σ')) ∧
      At base at_ σ'.mem { e with i := 2000, vec := fun _ => 1 } ∧ σ'.world = σ.world := by
  intro d
  induction d with
  | zero =>
    intro j hj e σ h hi hv
    have hval := val_i_n (C := C) (R := C.calls L.Runs) S V h (by omega)
    refine ⟨σ, fun P k hL hE => .head (.whileFalse (hval P hL hE) ?_) .refl, h.congr (by simp; omega) rfl rfl rfl ?_, rfl⟩
    · rw [truth, if_neg (by omega)]
    · intro k hk; exact (hv k (by omega)).symm
  | succ d ih =>
    intro j hj e σ h hi hv
    have hval := val_i_n (C := C) (R := C.calls L.Runs) S V h (by omega)
    obtain ⟨σ1, s1, a1, w1⟩ := do_fill (C := C) (R := C.calls L.Runs) (P0 := P0) (body := body) S V h (by omega)
    obtain ⟨σ', hs, ha, hw⟩ := ih (j + 1) (by omega) _ σ1 a1 (by simp; omega) (by
      intro k hk
      simp only [setv]
      by_cases hke : k = e.i
      · rw [if_pos hke]
      · rw [if_neg hke]; exact hv k (by omega))
    refine ⟨σ', fun P k hL hE => .head (.whileTrue (hval P hL hE) ?_) (.head .seq (.head (s1 _ _ hL hE) (.head .endSeq (.head .endLoop (hs P k hL hE))))), ha, hw.trans w1⟩
    rw [truth, if_pos (by omega)]; decide

/-- the multiplication by ten -/
theorem carry_loop {v : Nat → Nat} (hp : Spigot.Proper 2000 v) : ∀ d j : Nat, j + d = 2000 → ∀ (e : ES) (σ : Store C.machine.World),
    At base at_ σ.mem e → e.i = j → e.c = Spigot.carry 2000 v j → e.a = 2001 - j → (∀ k, k < 2000 → e.vec k = if k < j then Spigot.next 2000 v k else v k) →
    ∃ σ', (∀ (P : Place) (k : Cont), P.env.locals = locs → P.env.exts = exts →
        BSteps C.machine.toB (C.calls L.Runs) P0 body (.run P (.while (.bin .lt vI vN) eulerCarry) k ρ σ) (.run P .skip k ρ σ')) ∧
      At base at_ σ'.mem { e with i := 2000, c := Spigot.carry 2000 v 2000, a := 1, vec := Spigot.next 2000 v } ∧ σ'.world = σ.world := by
  intro d
  induction d with
  | zero =>
    intro j hj e σ h hi hc ha hv
    obtain rfl : j = 2000 := by omega
    have hval := val_i_n (C := C) (R := C.calls L.Runs) S V h (by omega)
    refine ⟨σ, fun P k hL hE => .head (.whileFalse (hval P hL hE) ?_) .refl, h.congr hi.symm hc.symm rfl (by show 1 = e.a; omega) ?_, rfl⟩
    · rw [truth, if_neg (by omega)]
    · intro k hk; rw [hv k hk, if_pos hk]
  | succ d ih =>
    intro j hj e σ h hi hc ha hv
    have hval := val_i_n (C := C) (R := C.calls L.Runs) S V h (by omega)
    have hcl := Spigot.carry_le hp j (by omega)
    have hvl := hp j (by omega)
    have hvj : e.vec e.i = v j := by rw [hi, hv j (by omega), if_neg (by omega)]
    obtain ⟨σ1, s1, a1, w1⟩ := do_add (C := C) (R := C.calls L.Runs) (P0 := P0) (body := body) S V h (by omega)
    have hbig : e.c + e.vec e.i * 10 < 2 ^ 63 := by rw [hvj]; omega
    obtain ⟨σ2, s2, a2, w2⟩ := do_mod (C := C) (R := C.calls L.Runs) (P0 := P0) (body := body) S V a1 (by show e.i < 2000; omega) hbig (by show 0 < e.a; omega)
      (by show e.a < 2 ^ 63; omega)
    obtain ⟨σ3, s3, a3, w3⟩ := do_div (C := C) (R := C.calls L.Runs) (P0 := P0) (body := body) S V a2 hbig (by show 0 < e.a; omega) (by show e.a < 2 ^ 63; omega)
    obtain ⟨σ4, s4, a4, w4⟩ := do_dec (C := C) (R := C.calls L.Runs) (P0 := P0) (body := body) S V a3 (by show 0 < e.a; omega)
    obtain ⟨σ', hs, ha', hw⟩ := ih (j + 1) (by omega) _ σ4 a4 (by show e.i + 1 = _; omega)
      (by show (e.c + e.vec e.i * 10) / e.a = _; rw [hc, hvj, ha]; rfl) (by show e.a - 1 = _; omega) (by
        intro k hk
        show setv e.vec e.i ((e.c + e.vec e.i * 10) % e.a) k = _
        rw [setv, hi]
        by_cases hke : k = j
        · rw [if_pos hke, if_pos (by omega), hke, Spigot.next, ← hi, hvj, hc, hi, ha]
        · rw [if_neg hke, hv k hk]
          by_cases hkj : k < j
          · rw [if_pos hkj, if_pos (by omega)]
          · rw [if_neg hkj, if_neg (by omega)])
    refine ⟨σ', fun P k hL hE => .head (.whileTrue (hval P hL hE) ?_) (.head .seq (.head (s1 _ _ hL hE) (.head .endSeq (.head .seq (.head (s2 _ _ hL hE) (.head .endSeq
      (.head .seq (.head (s3 _ _ hL hE) (.head .endSeq (.head .seq (.head (s4 _ _ hL hE) (.head .endSeq (.head .endLoop (hs P k hL hE)))))))))))))), ha',
      hw.trans (w4.trans (w3.trans (w2.trans w1)))⟩
    rw [truth, if_pos (by omega)]; decide

/-- `write(c + '0');` -/
theorem do_digit {e : ES} {σ : Store C.machine.World} (h : At base at_ σ.mem e) (hc : e.c ≤ 9) :
    ∃ σ', (∀ (P : Place) (k : Cont), P.env.locals = locs → P.env.exts = exts → BStep C.machine.toB (C.calls L.Runs) P0 body
        (.run P (.expr (.callName "write".toList [.bin .add vC (.num 48)])) k ρ σ) (.run P .skip k ρ σ')) ∧
      At base at_ σ'.mem e ∧ Wr C σ [BitVec.ofNat 8 (48 + e.c)] σ' := by
  obtain ⟨v, σ', hcall, ho⟩ := call_write (L := L) σ (packed_char (c := 48 + e.c) (by omega) (by omega))
  refine ⟨σ', fun P k hL hE => call_step (vs := [BitVec.ofNat 64 (48 + e.c)]) (σ1 := σ) (hL ▸ V.lw) (hE ▸ V.ew) ?_ hcall, by rw [ho.mem]; exact h, ho.wr⟩
  refine ⟨.val (BitVec.ofNat 64 (48 + e.c)), σ, [], ⟨_, σ, .val 48, _, ev_c V hL hE _ _, ⟨rfl, rfl⟩, ?_, rfl⟩, ⟨rfl, rfl⟩, rfl⟩
  show Bop.sem (loadW σ.mem (at_ .c)) 48 .add = _
  rw [h .c trivial, add_sem, Nat.add_comm 48, BitVec.ofNat_add]; rfl

/-- the character after a group of five -/
def sepChar (col : Nat) : Nat := if col % 50 = 0 then 10 else 32

/-- `write(col % 50 ? ' ' : '*n');` -/
theorem do_sep {e : ES} {σ : Store C.machine.World} (h : At base at_ σ.mem e) (hc : e.col < 2 ^ 63) :
    ∃ σ', (∀ (P : Place) (k : Cont), P.env.locals = locs → P.env.exts = exts → BStep C.machine.toB (C.calls L.Runs) P0 body
        (.run P (.expr (.callName "write".toList [.cond (.bin .mod vCol (.num 50)) (.num 32) (.num 10)])) k ρ σ) (.run P .skip k ρ σ')) ∧
      At base at_ σ'.mem e ∧ Wr C σ [BitVec.ofNat 8 (sepChar e.col)] σ' := by
  have hs : 0 < sepChar e.col ∧ sepChar e.col < 256 := by unfold sepChar; split <;> omega
  obtain ⟨v, σ', hcall, ho⟩ := call_write (L := L) σ (packed_char hs.1 hs.2)
  refine ⟨σ', fun P k hL hE => call_step (vs := [BitVec.ofNat 64 (sepChar e.col)]) (σ1 := σ) (hL ▸ V.lw) (hE ▸ V.ew) ?_ hcall, by rw [ho.mem]; exact h, ho.wr⟩
  refine ⟨.val (BitVec.ofNat 64 (sepChar e.col)), σ, [], ⟨.val (BitVec.ofNat 64 (e.col % 50)), σ, .val (BitVec.ofNat 64 (sepChar e.col)),
    ⟨_, σ, .val 50, _, ev_col V hL hE _ _, ⟨rfl, rfl⟩, ?_, rfl⟩, rfl, ?_⟩, ⟨rfl, rfl⟩, rfl⟩
  · show Bop.sem (loadW σ.mem (at_ .col)) 50 .mod = _
    rw [h .col trivial]
    exact mod_zero (m := 50) hc (by decide) (by decide)
  · show if BitVec.ofNat 64 (e.col % 50) ≠ 0 then _ else _
    unfold sepChar
    by_cases h0 : e.col % 50 = 0
    · rw [if_neg (by rw [h0]; simp), if_pos h0]; exact ⟨rfl, rfl⟩
    · rw [if_pos, if_neg h0]
      · exact ⟨rfl, rfl⟩
      · intro e'
        have := congrArg BitVec.toNat e'
        simp at this
        omega

/-- what is written for one digit -/
def group (j : Nat) : List (BitVec 8) := BitVec.ofNat 8 (48 + Spigot.carry 2000 (Spigot.digits 2000 j) 2000) ::
  if (j + 1) % 5 = 0 then [BitVec.ofNat 8 (sepChar (j + 1))] else []

/-- one digit -/
theorem do_round {e : ES} {σ : Store C.machine.World} (h : At base at_ σ.mem e) {j : Nat} (hj : j < 4000) (hc : e.col = j)
    (hv : ∀ k, k < 2000 → e.vec k = Spigot.digits 2000 j k) :
    ∃ σ' e', (∀ (P : Place) (k : Cont), P.env.locals = locs → P.env.exts = exts → ∃ Q, BSteps C.machine.toB (C.calls L.Runs) P0 body
        (.run P eulerDigit k ρ σ) (.run Q .skip k ρ σ')) ∧
      At base at_ σ'.mem e' ∧ e'.col = j + 1 ∧ (∀ k, k < 2000 → e'.vec k = Spigot.digits 2000 (j + 1) k) ∧ Wr C σ (group j) σ' := by
  have hp := Spigot.digits_proper (n := 2000) j
  have h9 := Spigot.carry_le hp 2000 (Nat.le_refl _)
  obtain ⟨σ1, s1, a1, w1⟩ := do_base (C := C) (R := C.calls L.Runs) (P0 := P0) (body := body) S V h
  obtain ⟨σ2, s2, a2, w2⟩ := do_zero (C := C) (R := C.calls L.Runs) (P0 := P0) (body := body) S V a1
  obtain ⟨σ3, s3, a3, w3⟩ := carry_loop (C := C) (L := L) (P0 := P0) (body := body) S V hp 2000 0 (by omega) _ σ2 a2 rfl rfl rfl
    (fun k hk => by rw [if_neg (by omega)]; exact hv k hk)
  obtain ⟨σ4, s4, a4, w4⟩ := do_digit (C := C) (L := L) (P0 := P0) (body := body) S V a3 h9
  obtain ⟨σ5, s5, a5, w5⟩ := val_five (C := C) (R := C.calls L.Runs) S V a4 (by show e.col < 2 ^ 62; omega)
  have hw1 : Wr C σ [BitVec.ofNat 8 (48 + Spigot.carry 2000 (Spigot.digits 2000 j) 2000)] σ5 :=
    ((Wr.quiet (w3.trans (w2.trans w1))).trans w4).trans (Wr.quiet w5)
  by_cases h5 : (j + 1) % 5 = 0
  · obtain ⟨σ6, s6, a6, w6⟩ := do_sep (C := C) (L := L) (P0 := P0) (body := body) S V a5 (by show e.col + 1 < 2 ^ 63; omega)
    refine ⟨σ6, _, fun P k hL hE => ⟨_, .head .seq (.head (s1 _ _ hL hE) (.head .endSeq (.head .seq (.head (s2 _ _ hL hE) (.head .endSeq (.head .seq
      (bsteps_app (s3 _ _ hL hE) (.head .endSeq (.head .seq (.head (s4 _ _ hL hE) (.head .endSeq (.head .seq (.head (.ifTrue (s5 _ hL hE) ?_)
      (.head .seq (.head (s6 _ _ hL hE) (.head .endSeq (.head .endSeq .refl)))))))))))))))))⟩, a6, by show e.col + 1 = _; omega, fun k hk => rfl, ?_⟩
    · show truth ((e.col + 1) % 5 = 0) ≠ 0
      rw [hc, truth, if_pos h5]; decide
    · have e1 : group j = [BitVec.ofNat 8 (48 + Spigot.carry 2000 (Spigot.digits 2000 j) 2000)] ++ [BitVec.ofNat 8 (sepChar (e.col + 1))] := by
        rw [group, if_pos h5, hc]; rfl
      rw [e1]
      exact hw1.trans w6
  · refine ⟨σ5, _, fun P k hL hE => ⟨_, .head .seq (.head (s1 _ _ hL hE) (.head .endSeq (.head .seq (.head (s2 _ _ hL hE) (.head .endSeq (.head .seq
      (bsteps_app (s3 _ _ hL hE) (.head .endSeq (.head .seq (.head (s4 _ _ hL hE) (.head .endSeq (.head .seq (.head (.ifFalse (s5 _ hL hE) ?_)
      (.head .endSeq .refl))))))))))))))⟩, a5, by show e.col + 1 = _; omega, fun k hk => rfl, ?_⟩
    · show truth ((e.col + 1) % 5 = 0) = 0
      rw [hc, truth, if_neg h5]
    · rw [group, if_neg h5]; exact hw1

/-- all the digits -/
theorem digit_loop : ∀ d j : Nat, j + d = 4000 → ∀ (e : ES) (σ : Store C.machine.World), At base at_ σ.mem e → e.col = j →
    (∀ k, k < 2000 → e.vec k = Spigot.digits 2000 j k) →
    ∃ σ', (∀ (P : Place) (k : Cont), P.env.locals = locs → P.env.exts = exts → BSteps C.machine.toB (C.calls L.Runs) P0 body
        (.run P (.while (.bin .lt vCol (.bin .mul (.num 2) vN)) eulerDigit) k ρ σ) (.run P .skip k ρ σ')) ∧
      Wr C σ ((List.range' j d).flatMap group) σ' := by
  intro d
  induction d with
  | zero =>
    intro j hj e σ h hc hv
    have hval := val_col (C := C) (R := C.calls L.Runs) S V h (by omega)
    refine ⟨σ, fun P k hL hE => .head (.whileFalse (hval P hL hE) ?_) .refl, Wr.quiet rfl⟩
    rw [truth, if_neg (by omega)]
  | succ d ih =>
    intro j hj e σ h hc hv
    have hval := val_col (C := C) (R := C.calls L.Runs) S V h (by omega)
    obtain ⟨σ1, e1, s1, a1, hc1, hv1, w1⟩ := do_round (C := C) (L := L) (P0 := P0) (body := body) S V h (j := j) (by omega) hc hv
    obtain ⟨σ', hs, hw⟩ := ih (j + 1) (by omega) e1 σ1 a1 hc1 hv1
    refine ⟨σ', fun P k hL hE => ?_, w1.trans hw⟩
    obtain ⟨Q, hQ⟩ := s1 (P.afterEx (.bin .lt vCol (.bin .mul (.num 2) vN))) (.loop P (.bin .lt vCol (.bin .mul (.num 2) vN)) eulerDigit k) hL hE
    refine .head (.whileTrue (hval P hL hE) ?_) (bsteps_app hQ (.head .endLoop (hs P k hL hE)))
    rw [truth, if_pos (by omega)]; decide
end

end Blang.Props
