import Verif.Spec.Library
import Verif.Proofs.Runtime
import Verif.Props.Runtime
import Verif.Proofs.Fuel
/-
The functions of the runtime library do what `Documented` says.
-/
namespace Blang
open Spec

theorem wrote_refl (s : RTState) : Wrote s [] s := ⟨[], by simp, by simp, rfl⟩

theorem Spec.Wrote.mem {s s' : RTState} {bs : List Byte} (h : Wrote s bs s') : s'.mem = s.mem := by
  obtain ⟨ws, rfl, _⟩ := h; rfl

theorem Spec.Wrote.trans {s s1 s2 : RTState} {b1 b2 : List Byte} (h1 : Wrote s b1 s1) (h2 : Wrote s1 b2 s2) : Wrote s (b1 ++ b2) s2 := by
  obtain ⟨w1, rfl, f1, g1⟩ := h1
  obtain ⟨w2, rfl, f2, g2⟩ := h2
  refine ⟨w1 ++ w2, by simp, ?_, by simp [g1, g2]⟩
  intro w hw
  rcases List.mem_append.1 hw with h | h
  · exact f1 w h
  · exact f2 w h

theorem wrote_of_emits {α : Type} {m : RT α} {s s' : RTState} {a b : α} {o : List Byte} (h : Emits m s a o) (e : m s = .ok b s') :
    b = a ∧ Wrote s o s' := by
  obtain ⟨ws, e1, e2, e3⟩ := h
  rw [e] at e1; cases e1
  exact ⟨rfl, ws, rfl, e2, e3⟩

theorem strAt_nil {mem : W → Byte} {a : W} (h : mem a = 0) : StrAt mem a [] := ⟨fun i hi => absurd hi (by simp), by simpa using h⟩

theorem strAt_cons {mem : W → Byte} {a : W} {c : Byte} {bs : List Byte} (h : mem a = c) (hc : c ≠ 0) (hs : StrAt mem (a + 1) bs) :
    StrAt mem a (c :: bs) := by
  have e : ∀ i, a + BitVec.ofNat 64 (i + 1) = a + 1 + BitVec.ofNat 64 i := by
    intro i
    rw [← ofNat_add_one, BitVec.add_assoc, BitVec.add_assoc, BitVec.add_comm (BitVec.ofNat 64 i)]
  refine ⟨?_, ?_⟩
  · intro i hi
    cases i with
    | zero => simpa using ⟨h, hc⟩
    | succ i =>
      rw [e]
      exact hs.1 i (by simpa using hi)
  · rw [List.length_cons, e]
    exact hs.2

theorem strAt_head {mem : W → Byte} {a : W} {bs : List Byte} (h : StrAt mem a bs) : ∀ c ∈ bs.head?, c = mem a := by
  intro c hc
  cases bs with
  | nil => simp at hc
  | cons b bs =>
    simp at hc
    have := (h.1 0 (by simp)).1
    simp at this
    rw [this, hc]

theorem charToWord_zero {sc : Bool} {b : Byte} (h : charToWord sc b = 0) : b = 0 := by
  apply Classical.byContradiction
  intro hb
  exact charToWord_ne (sc := sc) (k := 0) hb h

/-- the `%s` loop that ends has met the end of a string -/
theorem str_run {sc : Bool} {x : W} : ∀ (n : Nat) (j : W) (s s' : RTState), loop n (printfStrBody sc x) j s = .ok () s' →
    ∃ bs, StrAt s.mem (x + j) bs ∧ Wrote s (bs.flatMap (charOut sc)) s' := by
  intro n
  induction n with
  | zero => intro j s s' h; cases h
  | succ n ih =>
    intro j s s' h
    rw [loop_succ] at h
    have hb : printfStrBody sc x j s = if charToWord sc (s.mem (x + j)) ≠ 0 then
        .ok (.next (j + 1)) { s with trace := s.trace ++ [(s.fout + 1, writeLoop 8 (charToWord sc (s.mem (x + j))) [])] } else .ok (.done ()) s := by
      unfold printfStrBody
      rw [M.bind_ok (rtChar_apply sc x j s)]
      split
      · rfl
      · rfl
    rw [hb] at h
    by_cases hc : charToWord sc (s.mem (x + j)) = 0
    · rw [if_neg (by simpa using hc)] at h
      simp at h
      subst h
      exact ⟨[], strAt_nil (charToWord_zero hc), wrote_refl _⟩
    · rw [if_pos hc] at h
      obtain ⟨bs, h1, h2⟩ := ih _ _ _ h
      refine ⟨s.mem (x + j) :: bs, strAt_cons rfl ?_ (by rw [BitVec.add_assoc]; exact h1), ?_⟩
      · intro e; rw [e] at hc; revert hc; cases sc <;> decide
      · rw [List.flatMap_cons]
        exact Wrote.trans (s1 := { s with trace := s.trace ++ [(s.fout + 1, writeLoop 8 (charToWord sc (s.mem (x + j))) [])] })
          ⟨_, rfl, by simp, by simp [write_char]⟩ h2


/-- arguments beyond those that are used do not matter -/
theorem Spec.Printed.more {sc : Bool} {str : W → List Byte → Prop} {f : List Byte} {as : List W} {o : List Byte} (h : Printed sc str f as o)
    (more : List W) : Printed sc str f (as ++ more) o := by
  induction h with
  | done => exact .done
  | plain h1 _ ih => exact .plain h1 ih
  | decimal h1 h2 _ ih => exact .decimal h1 h2 ih
  | smallest _ ih => exact .smallest ih
  | octal h1 _ ih => exact .octal h1 ih
  | char h1 _ ih => exact .char h1 ih
  | string h1 _ ih => exact .string h1 ih
  | percent _ ih => exact .percent ih
  | unknown h1 _ ih => exact .unknown h1 ih

/-- a `printf` that ends has met the end of its format, and has printed it -/
theorem printf_run {sc : Bool} {fuel : Nat} {junk : Nat → Byte} {fmt : W} {args : Nat → W} (hf : 26 ≤ fuel) :
    ∀ (n : Nat) (i : W) (k : Nat) (s s' : RTState), loop n (printfBody sc fuel junk fmt args) (i, k) s = .ok () s' →
    ∃ f as out, StrAt s.mem (fmt + i) f ∧ (∀ j (h : j < as.length), args (k + j) = as[j]) ∧
      Printed sc (StrAt s.mem) f as out ∧ Wrote s out s' := by
  intro n
  induction n with
  | zero => intro i k s s' h; cases h
  | succ n ih =>
    intro i k s s' h
    rw [loop_succ] at h
    have hb : printfBody sc fuel junk fmt args (i, k) s = if charToWord sc (s.mem (fmt + i)) ≠ 37 then
        if charToWord sc (s.mem (fmt + i)) = 0 then .ok (.done ()) s
        else .ok (.next (i + 1, k)) { s with trace := s.trace ++ [(s.fout + 1, writeLoop 8 (charToWord sc (s.mem (fmt + i))) [])] }
        else (do
          let r ← printfConv sc fuel junk args (i + 2) k (charToWord sc (s.mem (fmt + (i + 1))))
          pure (Iter.next r) : RT (Iter (W × Nat) Unit)) s := by
      unfold printfBody
      rw [M.bind_ok (rtChar_apply sc fmt i s)]
      split
      · split
        · rfl
        · rfl
      · rw [M.bind_ok (rtChar_apply sc fmt (i + 1) s)]
    rw [hb] at h
    -- one more character of the format
    have chr : ∀ k, k < 128 → charToWord sc (s.mem (fmt + i)) = BitVec.ofNat 64 k → s.mem (fmt + i) = BitVec.ofNat 8 k := by
      intro k hk e
      apply Classical.byContradiction
      intro hne; exact charToWord_ne hne e
    have chr1 : ∀ k, k < 128 → charToWord sc (s.mem (fmt + (i + 1))) = BitVec.ofNat 64 k → s.mem (fmt + (i + 1)) = BitVec.ofNat 8 k := by
      intro k hk e
      apply Classical.byContradiction
      intro hne; exact charToWord_ne hne e
    by_cases hc : charToWord sc (s.mem (fmt + i)) = 37
    · rw [if_neg (by simpa using hc)] at h
      have h37 := chr 37 (by omega) hc
      -- after the conversion
      have two : ∀ {c : Byte} {f : List Byte}, s.mem (fmt + (i + 1)) = c → c ≠ 0 → StrAt s.mem (fmt + (i + 2)) f → StrAt s.mem (fmt + i) (37#8 :: c :: f) := by
        intro c f hc0 hn hs
        refine strAt_cons h37 (by decide) (strAt_cons (by rw [BitVec.add_assoc]; exact hc0) hn ?_)
        have : fmt + i + 1 + 1 = fmt + (i + 2) := by
          rw [BitVec.add_assoc, BitVec.add_assoc]; rfl
        rw [this]; exact hs
      have conv : ∀ {c : W} {k' : Nat} {o : List Byte}, charToWord sc (s.mem (fmt + (i + 1))) = c →
          Emits (printfConv sc fuel junk args (i + 2) k c) s (i + 2, k') o →
          ∃ f as out, StrAt s.mem (fmt + (i + 2)) f ∧ (∀ j (h : j < as.length), args (k' + j) = as[j]) ∧
            Printed sc (StrAt s.mem) f as out ∧ Wrote s (o ++ out) s' := by
        intro c k' o hc1 he
        rw [hc1] at h
        obtain ⟨ws, e1, e2, e3⟩ := he
        rw [M.bind_ok e1] at h
        obtain ⟨f, as, out, a1, a2, a3, a4⟩ := ih _ _ _ _ h
        exact ⟨f, as, out, a1, a2, a3, Wrote.trans ⟨ws, rfl, e2, e3⟩ a4⟩
      have args1 : ∀ {as : List W}, (∀ j (h : j < as.length), args (k + 1 + j) = as[j]) → ∀ j (h : j < (args k :: as).length), args (k + j) = (args k :: as)[j] := by
        intro as ha j hj
        cases j with
        | zero => rfl
        | succ j =>
          rw [List.getElem_cons_succ, ← ha j (by simpa using hj)]
          congr 1; omega
      obtain ⟨k1, k2, k3, k4, k5, k6⟩ := printfConv_emits (sc := sc) (junk := junk) (i := i + 2) (s := s) hf (x := args k) rfl
      by_cases c1 : charToWord sc (s.mem (fmt + (i + 1))) = 100
      · by_cases hm : args k = BitVec.intMin 64
        · obtain ⟨f, as, out, a1, a2, a3, a4⟩ := conv c1 (k2 hm)
          refine ⟨_, args k :: as, _, two (chr1 100 (by omega) c1) (by decide) a1, args1 a2, ?_, a4⟩
          rw [hm]; exact .smallest a3
        · obtain ⟨ds, hd, _⟩ := printd_emits junk (args k) s fuel hf
          obtain ⟨f, as, out, a1, a2, a3, a4⟩ := conv c1 (k1 ds hd hm)
          exact ⟨_, args k :: as, _, two (chr1 100 (by omega) c1) (by decide) a1, args1 a2, .decimal hm hd a3, a4⟩
      by_cases c2 : charToWord sc (s.mem (fmt + (i + 1))) = 111
      · obtain ⟨ds, hd⟩ : ∃ ds, IntNumeral 8 (args k).toInt ds := by
          obtain ⟨ds, hd, _⟩ := printo_emits junk (BitVec.ofNat 64 (args k).toInt.natAbs) s fuel (by omega)
          have : (BitVec.ofNat 64 (args k).toInt.natAbs).toNat = (args k).toInt.natAbs := by
            have h1 := BitVec.le_toInt (x := args k)
            have h2 := BitVec.toInt_lt (x := args k)
            simp only [BitVec.toNat_ofNat]
            exact Nat.mod_eq_of_lt (by omega)
          rw [this] at hd
          exact ⟨_, ds, hd, rfl⟩
        obtain ⟨f, as, out, a1, a2, a3, a4⟩ := conv c2 (k3 ds hd)
        exact ⟨_, args k :: as, _, two (chr1 111 (by omega) c2) (by decide) a1, args1 a2, .octal hd a3, a4⟩
      by_cases c3 : charToWord sc (s.mem (fmt + (i + 1))) = 99
      · obtain ⟨f, as, out, a1, a2, a3, a4⟩ := conv c3 (k4 _ (write_packed _))
        exact ⟨_, args k :: as, _, two (chr1 99 (by omega) c3) (by decide) a1, args1 a2, .char (write_packed _) a3, a4⟩
      by_cases c4 : charToWord sc (s.mem (fmt + (i + 1))) = 115
      · have hs : ∃ bs, StrAt s.mem (args k) bs ∧ Emits (printfConv sc fuel junk args (i + 2) k 115) s (i + 2, k + 1) (bs.flatMap (charOut sc)) := by
          have e : printfConv sc fuel junk args (i + 2) k 115 = (loop fuel (printfStrBody sc (args k)) 0 >>= fun _ => pure (i + 2, k + 1)) := rfl
          rw [c4, e] at h
          cases hl : loop fuel (printfStrBody sc (args k)) 0 s with
          | err e => rw [M.bind_apply, M.bind_apply, hl] at h; cases h
          | ok u s1 =>
            obtain ⟨bs, b1, b2⟩ := str_run fuel 0 s s1 hl
            refine ⟨bs, by simpa using b1, ?_⟩
            obtain ⟨ws, w1, w2, w3⟩ := b2
            rw [e]
            exact ⟨ws, by rw [M.bind_ok hl, w1]; rfl, w2, w3⟩
        obtain ⟨bs, b1, b2⟩ := hs
        obtain ⟨f, as, out, a1, a2, a3, a4⟩ := conv c4 b2
        exact ⟨_, args k :: as, _, two (chr1 115 (by omega) c4) (by decide) a1, args1 a2, .string b1 a3, a4⟩
      by_cases c5 : charToWord sc (s.mem (fmt + (i + 1))) = 37
      · obtain ⟨f, as, out, a1, a2, a3, a4⟩ := conv c5 k6
        exact ⟨_, as, _, two (chr1 37 (by omega) c5) (by decide) a1, a2, .percent a3, a4⟩
      · have hu : charToWord sc (s.mem (fmt + (i + 1))) ∉ [100, 111, 99, 115, 37] := by
          simp only [List.mem_cons, List.not_mem_nil, or_false, not_or]; exact ⟨c1, c2, c3, c4, c5⟩
        obtain ⟨ws, e1, e2, e3⟩ := printfConv_unknown (sc := sc) (fuel := fuel) (junk := junk) (args := args) (i := i + 2) (k := k) (s := s) hu
        rw [M.bind_ok e1] at h
        have e21 : i + 2 - 1 = i + 1 := by
          rw [show (2 : W) = 1 + 1 from rfl, ← BitVec.add_assoc, BitVec.add_sub_cancel]
        rw [e21] at h
        obtain ⟨f, as, out, a1, a2, a3, a4⟩ := ih _ _ _ _ h
        refine ⟨37#8 :: f, as, _, strAt_cons h37 (by decide) (by rw [BitVec.add_assoc]; exact a1), a2, .unknown ?_ a3, Wrote.trans ⟨ws, rfl, e2, e3⟩ a4⟩
        intro c hc'
        rw [strAt_head a1 c hc']
        intro hmem
        apply hu
        simp only [List.mem_cons, List.not_mem_nil, or_false] at hmem ⊢
        have hcast : ∀ k, k < 128 → s.mem (fmt + (i + 1)) = BitVec.ofNat 8 k → charToWord sc (s.mem (fmt + (i + 1))) = BitVec.ofNat 64 k := by
          intro k hk e; rw [e]; exact charToWord_eq hk
        rcases hmem with e | e | e | e | e
        · exact .inl (hcast 100 (by omega) e)
        · exact .inr (.inl (hcast 111 (by omega) e))
        · exact .inr (.inr (.inl (hcast 99 (by omega) e)))
        · exact .inr (.inr (.inr (.inl (hcast 115 (by omega) e))))
        · exact .inr (.inr (.inr (.inr (hcast 37 (by omega) e))))
    · rw [if_pos hc] at h
      by_cases h0 : charToWord sc (s.mem (fmt + i)) = 0
      · rw [if_pos h0] at h
        simp at h
        subst h
        exact ⟨[], [], [], strAt_nil (charToWord_zero h0), fun j hj => absurd hj (by simp), .done, wrote_refl _⟩
      · rw [if_neg h0] at h
        obtain ⟨f, as, out, a1, a2, a3, a4⟩ := ih _ _ _ _ h
        refine ⟨s.mem (fmt + i) :: f, as, _, strAt_cons rfl ?_ (by rw [BitVec.add_assoc]; exact a1), a2, .plain ?_ a3,
          Wrote.trans (s1 := { s with trace := s.trace ++ [(s.fout + 1, writeLoop 8 (charToWord sc (s.mem (fmt + i))) [])] })
          ⟨_, rfl, by simp, by simp [write_char]⟩ a4⟩
        · intro e; rw [e] at h0; revert h0; cases sc <;> decide
        · intro e; rw [e] at hc; revert hc; cases sc <;> decide

theorem delivers_read {s s' : RTState} {fd : W} {n : Nat} {v : W} {bs : List Byte} (h : sysRead fd n s = .ok (v, bs) s') :
    (∃ e, v = e ∧ bs = [] ∧ Delivers s fd n s' (.error e)) ∨ (v = BitVec.ofNat 64 bs.length ∧ Delivers s fd n s' (.ok bs)) := by
  cases hr : s.os.read s.reads with
  | error e =>
    rw [Props.sysRead_error hr] at h
    simp at h
    obtain ⟨⟨rfl, rfl⟩, rfl⟩ := h
    exact .inl ⟨_, rfl, rfl, hr, rfl⟩
  | ok k =>
    rw [Props.sysRead_ok hr] at h
    injection h with h1 h2
    injection h1 with h3 h4
    subst h4 h2 h3
    exact .inr ⟨rfl, k, _, hr, (List.take_append_drop (min n k) _).symm, by simp, rfl⟩

theorem delivers_length {s s' : RTState} {fd : W} {n : Nat} {bs : List Byte} (h : Delivers s fd n s' (.ok bs)) : bs.length ≤ n := by
  obtain ⟨lim, rest, _, _, h, _⟩ := h
  omega

/-- every function of the library does what is documented -/
theorem library_documented {L : Library} {f : LibFn} {args : List Word} {s s' : RTState} {v : Word} (h : L.Runs f args s v s') :
    Documented L.signedChar f args s v s' := by
  cases h with
  | char h =>
    rw [rtChar_apply] at h
    cases h
    have : charToWord L.signedChar = charNumber L.signedChar := by
      funext b
      unfold charToWord charNumber
      split
      · rfl
      · apply BitVec.eq_of_toNat_eq; simp
    rw [this]; exact .char
  | lchar h =>
    cases h
    refine .lchar ?_ ?_ rfl
    · simp
    · intro b hb; simp [hb]
  | @read args s v s' h =>
    unfold rtRead at h
    cases hr : sysRead 0 1 s with
    | err e => rw [M.bind_apply, hr] at h; cases h
    | ok r s1 =>
      rw [M.bind_ok hr] at h
      obtain ⟨v1, bs⟩ := r
      rcases delivers_read hr with ⟨e, rfl, rfl, hd⟩ | ⟨rfl, hd⟩
      · have : (if v1 = 1 then (0 : W) else 4) = v ∧ s1 = s' := by
          by_cases hv : v1 = 1
          · subst hv
            have h0 : (pure (if (0 : W).slt (charToWord L.signedChar 0) ∧ (charToWord L.signedChar 0).sle 127 then charToWord L.signedChar 0 else 0) : RT W) s1 = .ok v s' := h
            rw [Props.rtRead_value] at h0
            cases h0
            exact ⟨rfl, rfl⟩
          · simp only [hv, if_false] at h ⊢
            cases h; exact ⟨rfl, rfl⟩
        obtain ⟨rfl, rfl⟩ := this
        exact .readError hd
      · have hl := delivers_length hd
        match bs, hl, hd with
        | [], _, hd => cases h; exact .readEnd hd
        | [b], _, hd =>
          have h0 : (pure (if (0 : W).slt (charToWord L.signedChar b) ∧ (charToWord L.signedChar b).sle 127 then charToWord L.signedChar b else 0) : RT W) s1 = .ok v s' := h
          rw [Props.rtRead_value] at h0
          cases h0
          exact .read hd
        | _ :: _ :: _, hl, _ => simp at hl
  | @nread f b n more s v s' h =>
    unfold rtNread at h
    cases hr : sysRead f n.toNat s with
    | err e => rw [M.bind_apply, hr] at h; cases h
    | ok r s1 =>
      rw [M.bind_ok hr] at h
      obtain ⟨v1, bs⟩ := r
      cases h
      rcases delivers_read hr with ⟨e, rfl, rfl, hd⟩ | ⟨rfl, hd⟩
      · exact .nreadError (by simpa using hd)
      · have hl := delivers_length hd
        have hm : s1.mem = s.mem := by
          obtain ⟨_, _, _, _, _, rfl⟩ := hd; rfl
        have hn := n.isLt
        refine .nread hd ?_ ?_ rfl
        · intro i hi
          have : (b + BitVec.ofNat 64 i - b).toNat = i := by
            rw [BitVec.add_comm, BitVec.add_sub_cancel, BitVec.toNat_ofNat, Nat.mod_eq_of_lt (by omega)]
          simp [this, hi]
        · intro a ha
          dsimp only
          rw [List.getElem?_eq_none]
          · simp [hm]
          · apply Nat.le_of_not_lt
            intro hlt
            refine ha _ hlt ?_
            rw [BitVec.ofNat_toNat, BitVec.setWidth_eq, BitVec.add_comm, BitVec.sub_add_cancel]
  | writeb h =>
    refine .writeb (wrote_of_emits (Props.C68_writeb _ _) h).2
  | write h => exact .write (write_packed _) (wrote_of_emits (emits_write _ _) h).2
  | @nwrite f b n more s v s' h =>
    obtain ⟨bs, h1, h2, h3⟩ := Props.C68_nwrite f b n s
    rw [h] at h3; cases h3
    exact .nwrite h1 (fun i hi => (h2 i hi).symm) rfl
  | printd h =>
    obtain ⟨k, h⟩ := h
    obtain ⟨ds, h1, h2⟩ := printd_emits _ _ _ (max k 26) (Nat.le_max_right _ _)
    exact .printd h1 (wrote_of_emits h2 (h _ (Nat.le_max_left _ _))).2
  | printo h =>
    obtain ⟨k, h⟩ := h
    obtain ⟨ds, h1, h2⟩ := printo_emits _ _ _ (max k 22) (Nat.le_max_right _ _)
    exact .printo h1 (wrote_of_emits h2 (h _ (Nat.le_max_left _ _))).2
  | @printf fmt args s s' h =>
    obtain ⟨k, h⟩ := h
    obtain ⟨f, as, out, a1, a2, a3, a4⟩ := printf_run (Nat.le_max_right k 26) _ _ _ _ _ (h (max k 26) (Nat.le_max_left _ _))
    have a1 : StrAt s.mem fmt f := by simpa using a1
    have : ∃ more, as ++ (args.drop as.length) = args ++ more := by
      refine ⟨as.drop args.length, ?_⟩
      apply List.ext_getElem?
      intro i
      by_cases h1 : i < as.length
      · rw [List.getElem?_append_left h1]
        by_cases h2 : i < args.length
        · rw [List.getElem?_append_left h2, List.getElem?_eq_getElem h1, List.getElem?_eq_getElem h2, ← a2 i h1]
          simp [Library.stream, h2]
        · rw [List.getElem?_append_right (by omega), List.getElem?_drop]
          congr 1; omega
      · rw [List.getElem?_append_right (by omega), List.getElem?_drop]
        by_cases h2 : i < args.length
        · rw [List.getElem?_append_left h2]
          congr 1; omega
        · rw [List.getElem?_append_right (by omega), List.getElem?_drop, List.getElem?_eq_none (by omega), List.getElem?_eq_none (by omega)]
    obtain ⟨more, hm⟩ := this
    exact .printf a1 (hm ▸ a3.more _) a4
  | flush h => cases h; exact .flush

/-- one outcome -/
theorem library_functional {L : Library} {f : LibFn} {args : List Word} {s s1 s2 : RTState} {v1 v2 : Word} (h1 : L.Runs f args s v1 s1)
    (h2 : L.Runs f args s v2 s2) : v1 = v2 ∧ s1 = s2 := by
  have det : ∀ {α : Type} {r : R RTState α} {a b : α} {s1 s2 : RTState}, r = .ok a s1 → r = .ok b s2 → a = b ∧ s1 = s2 := by
    rintro α r a b s1 s2 rfl h; cases h; exact ⟨rfl, rfl⟩
  have lim : ∀ {m : Nat → R RTState Unit} {s1 s2 : RTState}, (∃ k, ∀ fuel, k ≤ fuel → m fuel = .ok () s1) →
      (∃ k, ∀ fuel, k ≤ fuel → m fuel = .ok () s2) → s1 = s2 := by
    rintro m s1 s2 ⟨k1, h1⟩ ⟨k2, h2⟩
    exact (det (h1 (max k1 k2) (Nat.le_max_left _ _)) (h2 _ (Nat.le_max_right _ _))).2
  cases h1 with
  | char h1 => cases h2 with | char h2 => exact det h1 h2
  | read h1 => cases h2 with | read h2 => exact det h1 h2
  | nread h1 => cases h2 with | nread h2 => exact det h1 h2
  | nwrite h1 => cases h2 with | nwrite h2 => exact det h1 h2
  | lchar h1 => cases h2 with | lchar h2 => have := (det h1 h2).2; subst this; exact ⟨rfl, rfl⟩
  | writeb h1 => cases h2 with | writeb h2 => have := (det h1 h2).2; subst this; exact ⟨rfl, rfl⟩
  | write h1 => cases h2 with | write h2 => have := (det h1 h2).2; subst this; exact ⟨rfl, rfl⟩
  | flush h1 => cases h2 with | flush h2 => have := (det h1 h2).2; subst this; exact ⟨rfl, rfl⟩
  | printd h1 => cases h2 with | printd h2 => have := lim h1 h2; subst this; exact ⟨rfl, rfl⟩
  | printo h1 => cases h2 with | printo h2 => have := lim h1 h2; subst this; exact ⟨rfl, rfl⟩
  | printf h1 => cases h2 with | printf h2 => have := lim h1 h2; subst this; exact ⟨rfl, rfl⟩

/-- strings are shorter than large enough fuel -/
theorem printed_fuel {sc : Bool} {mem : W → Byte} {f : List Byte} {as : List W} {o : List Byte} (h : Printed sc (StrAt mem) f as o) :
    ∃ k, ∀ fuel, k ≤ fuel → Printed sc (StrArg mem fuel) f as o := by
  induction h with
  | done => exact ⟨0, fun _ _ => .done⟩
  | plain h1 _ ih => obtain ⟨k, ih⟩ := ih; exact ⟨k, fun n hn => .plain h1 (ih n hn)⟩
  | decimal h1 h2 _ ih => obtain ⟨k, ih⟩ := ih; exact ⟨k, fun n hn => .decimal h1 h2 (ih n hn)⟩
  | smallest _ ih => obtain ⟨k, ih⟩ := ih; exact ⟨k, fun n hn => .smallest (ih n hn)⟩
  | octal h1 _ ih => obtain ⟨k, ih⟩ := ih; exact ⟨k, fun n hn => .octal h1 (ih n hn)⟩
  | char h1 _ ih => obtain ⟨k, ih⟩ := ih; exact ⟨k, fun n hn => .char h1 (ih n hn)⟩
  | @string x bs f as o h1 _ ih =>
    obtain ⟨k, ih⟩ := ih
    exact ⟨max k (bs.length + 1), fun n hn => .string ⟨h1, by omega⟩ (ih n (by omega))⟩
  | percent _ ih => obtain ⟨k, ih⟩ := ih; exact ⟨k, fun n hn => .percent (ih n hn)⟩
  | unknown h1 _ ih => obtain ⟨k, ih⟩ := ih; exact ⟨k, fun n hn => .unknown h1 (ih n hn)⟩

theorem printd_ref (junk : Nat → Byte) (n : W) {k m : Nat} (h : k ≤ m) : Ref (rtPrintd k junk n) (rtPrintd m junk n) :=
  Ref.bind (Ref.loop (fun _ => Ref.refl _) h _) fun _ => Ref.refl _

theorem printo_ref (junk : Nat → Byte) (n : W) {k m : Nat} (h : k ≤ m) : Ref (rtPrinto k junk n) (rtPrinto m junk n) :=
  Ref.bind (Ref.loop (fun _ => Ref.refl _) h _) fun _ => Ref.refl _

theorem printf_ref (sc : Bool) (junk : Nat → Byte) (fmt : W) (args : Nat → W) {k m : Nat} (h : k ≤ m) :
    Ref (rtPrintf sc k junk fmt args) (rtPrintf sc m junk fmt args) := by
  refine Ref.loop (fun st => ?_) h _
  unfold printfBody
  refine Ref.bind (Ref.refl _) fun c => Ref.ite (Ref.refl _) (Ref.bind (Ref.refl _) fun c => Ref.bind ?_ fun _ => Ref.refl _)
  unfold printfConv
  refine Ref.ite (Ref.bind (Ref.refl _) fun _ => Ref.bind (printd_ref _ _ h) fun _ => Ref.refl _) (Ref.ite
    (Ref.bind (Ref.refl _) fun _ => Ref.bind (printo_ref _ _ h) fun _ => Ref.refl _) (Ref.ite (Ref.refl _) (Ref.ite
    (Ref.bind (Ref.loop (fun _ => Ref.refl _) h _) fun _ => Ref.refl _) (Ref.refl _))))

/-- what ends with some fuel ends in the same way with more -/
theorem ref_limit {m : Nat → RT Unit} {s : RTState} {k : Nat} {o : List Byte} (hr : ∀ {a b}, a ≤ b → Ref (m a) (m b)) (h : Emits (m k) s () o) :
    ∃ s', ∃ k, ∀ fuel, k ≤ fuel → m fuel s = .ok () s' := by
  obtain ⟨ws, e, _⟩ := h
  exact ⟨_, k, fun fuel hf => (hr hf s (by rw [e]; simp)).trans e⟩

/-- The library functions return: all but `printf` always (given enough arguments), `printf` if the format and the strings to be printed end
and there are enough arguments. -/
theorem library_returns (L : Library) (f : LibFn) (args : List Word) (s : RTState) (hn : f.arity ≤ args.length)
    (hp : f = .printf → ∃ fmt as g out, args = fmt :: as ∧ StrAt s.mem fmt g ∧ Printed L.signedChar (StrAt s.mem) g as out) :
    ∃ v s', L.Runs f args s v s' := by
  have sys : ∀ fd n, ∃ r s', sysRead fd n s = .ok r s' := by
    intro fd n
    cases hr : s.os.read s.reads with
    | error e => exact ⟨_, _, Props.sysRead_error hr⟩
    | ok k => exact ⟨_, _, Props.sysRead_ok hr⟩
  cases f with
  | char =>
    match args, hn with
    | a :: i :: more, _ => exact ⟨_, _, .char (rtChar_apply _ _ _ _)⟩
  | lchar =>
    match args, hn with
    | a :: i :: c :: more, _ => exact ⟨_, _, .lchar rfl⟩
  | read =>
    obtain ⟨r, s', h⟩ := sys 0 1
    by_cases h1 : r.1 = 1
    · exact ⟨_, s', .read (by unfold rtRead; rw [M.bind_ok h, if_pos h1]; rfl)⟩
    · exact ⟨_, s', .read (by unfold rtRead; rw [M.bind_ok h, if_neg h1]; rfl)⟩
  | nread =>
    match args, hn with
    | f :: b :: n :: more, _ =>
      obtain ⟨r, s', h⟩ := sys f n.toNat
      exact ⟨_, _, .nread (by unfold rtNread; rw [M.bind_ok h]; rfl)⟩
  | writeb =>
    match args, hn with
    | c :: more, _ => exact ⟨_, _, .writeb rfl⟩
  | write =>
    match args, hn with
    | c :: more, _ => exact ⟨_, _, .write rfl⟩
  | nwrite =>
    match args, hn with
    | f :: b :: n :: more, _ => exact ⟨_, _, .nwrite rfl⟩
  | printd =>
    match args, hn with
    | n :: more, _ =>
      obtain ⟨ds, _, h⟩ := printd_emits (L.junk s) n s 26 (by omega)
      obtain ⟨s', h⟩ := ref_limit (m := fun k => rtPrintd k (L.junk s) n) (fun h => printd_ref _ _ h) h
      exact ⟨_, s', .printd h⟩
  | printo =>
    match args, hn with
    | n :: more, _ =>
      obtain ⟨ds, _, h⟩ := printo_emits (L.junk s) n s 22 (by omega)
      obtain ⟨s', h⟩ := ref_limit (m := fun k => rtPrinto k (L.junk s) n) (fun h => printo_ref _ _ h) h
      exact ⟨_, s', .printo h⟩
  | printf =>
    obtain ⟨fmt, as, g, out, rfl, h1, h2⟩ := hp rfl
    obtain ⟨k, h2⟩ := printed_fuel h2
    have := Props.C49_printed (sc := L.signedChar) (junk := L.junk s) (args := L.stream s as) (fuel := max k (max 26 (g.length + 1))) h1
      (fun i h => by simp [Library.stream, h]) (h2 _ (Nat.le_max_left _ _)) (by omega) (by omega)
    obtain ⟨s', h⟩ := ref_limit (m := fun n => rtPrintf L.signedChar n (L.junk s) fmt (L.stream s as)) (fun h => printf_ref _ _ _ _ h) this
    exact ⟨_, s', .printf h⟩
  | flush => exact ⟨_, _, .flush rfl⟩

end Blang
