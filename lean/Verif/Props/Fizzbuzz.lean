import Verif.Props.Fibonacci
/-
C74: `examples/fizzbuzz.b`, from its text to what the process writes.
-/
namespace Blang.Props
open Blang Blang.Spec

/-- examples/fizzbuzz.b -/
def fizzText : List Char := "/* The following program will print each number from 1 to 100.
   If a number is divisible by 3 or 5, it will print `Fizz` or
   `Buzz` instead. If a number is divisible by both 3 and 5,
   `FizzBuzz` gets printed.
*/

n 100;

main() {
    extrn n;
    auto i;

    while (i++ < n) {
        if (0 == i % 15) {
            write('Fizz');
            write('Buzz');
        } else if (0 == i % 3)
            write('Fizz');
        else if (0 == i % 5)
            write('Buzz');
        else
            printf(\"%d\", i);
        write('*n');
    }
}
".toList

def fizzLit : List Nat := "%d".toList.map Char.toNat

def fizzCond : Ex := .bin .lt (.post .inc (.var "i".toList)) (.var "n".toList)

def wr (s : List Char) : St := .expr (.callName "write".toList [.num (packed s)])

def divides (k : Word) : Ex := .bin .eq (.num 0) (.bin .mod (.var "i".toList) (.num k))

def fizzPrint : St := .expr (.callName "printf".toList [.str fizzLit, .var "i".toList])

def fizzIf : St := .ifElse (divides 15) (.seq (wr "Fizz".toList) (.seq (wr "Buzz".toList) .skip))
  (.ifElse (divides 3) (wr "Fizz".toList) (.ifElse (divides 5) (wr "Buzz".toList) fizzPrint))

def fizzLoop : St := .seq fizzIf (.seq (wr ['\n']) .skip)

def fizzMain : St := .seq (.extrn ["n".toList]) (.seq (.auto [("i".toList, none)]) (.seq (.while fizzCond fizzLoop) .skip))

def fizzProg : Program := [.global "n".toList [.int 100], .func "main".toList [] fizzMain]

set_option maxRecDepth 20000 in
theorem fizz_checks : Program.isSame fizzProg (refParse prec fizzText) = true ∧ fizzProg.Tame ∧ fizzProg.Clear ∧
    (Program.Scoped Env.empty fizzProg ∧ ∀ d ∈ fizzProg, d.CasesOk) := by
  decide_text fizzText

set_option maxRecDepth 20000 in
theorem fizz_globals : hasGlobal fizzText (strSym 0) 3 = true ∧ hasGlobal fizzText (symbolOf "n".toList) 8 = true := by decide_text fizzText

attribute [irreducible] fizzText

theorem fizz_module : ∃ m, compileText fizzText .eof = .ok m ∧ TreeOf fizzText fizzProg m :=
  careful_module (refParse_sound (Program.eq_of_same fizz_checks.1)) fizz_checks.2.2.1 fizz_checks.2.2.2

section
variable {C : Computer} {L : Library} {P P0 : Place} {body : St} {k : Cont} {ρ : Frame}

/-- `write(...)` of a constant -/
theorem wr_step (σ : Store C.machine.World) (s : List Char) (hs : PackedChars (packed s) (codes s)) (h1 : "write".toList ∉ P.env.locals)
    (h2 : "write".toList ∉ P.env.exts) :
    ∃ σ', BStep C.machine.toB (C.calls L.Runs) P0 body (.run P (wr s) k ρ σ) (.run P .skip k ρ σ') ∧ Out C σ (codes s) σ' := by
  obtain ⟨v, σ', hc, ho⟩ := call_write (L := L) σ hs
  exact ⟨σ', write_step h1 h2 hc, ho⟩

theorem mod_zero {j m : Nat} (hj : j < 2 ^ 63) (hm : 0 < m) (hm' : m < 2 ^ 63) : Bop.sem (BitVec.ofNat 64 j) (BitVec.ofNat 64 m) .mod = some (BitVec.ofNat 64 (j % m)) := by
  have e : ((j : Int).tmod m) = ((j % m : Nat) : Int) := by rw [Int.tmod_eq_emod_of_nonneg (by omega)]; rfl
  simp only [Bop.sem]
  rw [toInt_small hj, toInt_small hm', if_neg (by omega), e, BitVec.ofInt_natCast]

/-- the conditions: `i` is divisible by `m` -/
theorem divides_value {pi : Word} (hi : "i".toList ∈ P.env.locals) (hρ : ρ "i".toList = some pi) {σ : Store C.machine.World} {j m : Nat}
    (hj : j < 2 ^ 63) (hm : 0 < m) (hm' : m < 2 ^ 63) (hv : loadW σ.mem pi = BitVec.ofNat 64 j) :
    (divides (BitVec.ofNat 64 m)).Value C.machine.toB (C.calls L.Runs) P ρ σ (truth (j % m = 0)) σ := by
  refine ⟨_, ⟨.val 0, σ, .val (BitVec.ofNat 64 (j % m)), _, ⟨rfl, rfl⟩, ⟨.cell pi, σ, .val (BitVec.ofNat 64 m), _, eval_local hi hρ _ _, ⟨rfl, rfl⟩, ?_, rfl⟩, ?_, rfl⟩, rfl⟩
  · show Bop.sem (loadW σ.mem pi) _ .mod = _
    rw [hv]; exact mod_zero hj hm hm'
  · show some (truth ((0 : Word) = BitVec.ofNat 64 (j % m))) = _
    have hlt := Nat.mod_lt j hm
    congr 1
    unfold truth
    by_cases h : j % m = 0
    · rw [if_pos h, if_pos (by rw [h]; rfl)]
    · rw [if_neg h, if_neg]
      intro e
      have := congrArg BitVec.toNat e
      simp at this
      omega

/-- what is known inside the loop -/
structure FizzVars (P : Place) (ρ : Frame) (pi : Word) : Prop where
  loc : "i".toList ∈ P.env.locals
  i : ρ "i".toList = some pi
  w1 : "write".toList ∉ P.env.locals
  w2 : "write".toList ∉ P.env.exts
  p1 : "printf".toList ∉ P.env.locals
  p2 : "printf".toList ∉ P.env.exts

theorem fizz_if {pi : Word} (V : FizzVars P ρ pi) {σ : Store C.machine.World} {j : Nat} (h0 : 0 < j) (hj : j < 2 ^ 63)
    (hv : loadW σ.mem pi = BitVec.ofNat 64 j) (hlit : StrAt σ.mem (C.machine.toB.literal P.lits) (codes "%d".toList)) :
    ∃ line Q σ', FizzBuzz j line ∧ BSteps C.machine.toB (C.calls L.Runs) P0 body (.run P fizzIf k ρ σ) (.run Q .skip k ρ σ') ∧
      Out C σ (codes line) σ' := by
  have v15 := divides_value (L := L) V.loc V.i hj (m := 15) (by omega) (by omega) hv
  by_cases c15 : j % 15 = 0
  · rw [truth, if_pos c15] at v15
    obtain ⟨σ1, s1, o1⟩ := wr_step (L := L) (P0 := P0) (body := body) (P := P.afterEx (divides 15)) (ρ := ρ)
      (k := .seq ((P.afterEx (divides 15)).after (wr "Fizz".toList)) (.seq (wr "Buzz".toList) .skip) k) σ "Fizz".toList (by decide +kernel) V.w1 V.w2
    obtain ⟨σ2, s2, o2⟩ := wr_step (L := L) (P0 := P0) (body := body) (P := (P.afterEx (divides 15)).after (wr "Fizz".toList)) (ρ := ρ)
      (k := .seq (((P.afterEx (divides 15)).after (wr "Fizz".toList)).after (wr "Buzz".toList)) .skip k) σ1 "Buzz".toList (by decide +kernel) V.w1 V.w2
    refine ⟨"FizzBuzz".toList, _, σ2, by rw [FizzBuzz, if_pos c15], .head (.elseTrue v15 (by decide)) (.head .seq (.head s1 (.head .endSeq (.head .seq
      (.head s2 (.head .endSeq .refl)))))), ?_⟩
    exact o1.trans o2
  rw [truth, if_neg c15] at v15
  have v3 := divides_value (L := L) (P := (P.afterEx (divides 15)).after (.seq (wr "Fizz".toList) (.seq (wr "Buzz".toList) .skip))) V.loc V.i hj
    (m := 3) (by omega) (by omega) hv
  by_cases c3 : j % 3 = 0
  · rw [truth, if_pos c3] at v3
    obtain ⟨σ1, s1, o1⟩ := wr_step (L := L) (P0 := P0) (body := body) (k := k) (ρ := ρ)
      (P := ((P.afterEx (divides 15)).after (.seq (wr "Fizz".toList) (.seq (wr "Buzz".toList) .skip))).afterEx (divides 3)) σ "Fizz".toList (by decide +kernel) V.w1 V.w2
    exact ⟨"Fizz".toList, _, σ1, by rw [FizzBuzz, if_neg c15, if_pos c3], .head (.elseFalse v15 rfl) (.head (.elseTrue v3 (by decide)) (.head s1 .refl)), o1⟩
  rw [truth, if_neg c3] at v3
  have v5 := divides_value (L := L) (P := (((P.afterEx (divides 15)).after (.seq (wr "Fizz".toList) (.seq (wr "Buzz".toList) .skip))).afterEx (divides 3)).after
    (wr "Fizz".toList)) V.loc V.i hj (m := 5) (by omega) (by omega) hv
  by_cases c5 : j % 5 = 0
  · rw [truth, if_pos c5] at v5
    obtain ⟨σ1, s1, o1⟩ := wr_step (L := L) (P0 := P0) (body := body) (k := k) (ρ := ρ)
      (P := ((((P.afterEx (divides 15)).after (.seq (wr "Fizz".toList) (.seq (wr "Buzz".toList) .skip))).afterEx (divides 3)).after
        (wr "Fizz".toList)).afterEx (divides 5)) σ "Buzz".toList (by decide +kernel) V.w1 V.w2
    exact ⟨"Buzz".toList, _, σ1, by rw [FizzBuzz, if_neg c15, if_neg c3, if_pos c5], .head (.elseFalse v15 rfl) (.head (.elseFalse v3 rfl)
      (.head (.elseTrue v5 (by decide)) (.head s1 .refl))), o1⟩
  rw [truth, if_neg c5] at v5
  obtain ⟨ds, hds, _⟩ := C46_printd (fun _ => 0) (BitVec.ofNat 64 j) ⟨fun _ => 0, fun _ => [], [], 0, none, 0, .willing⟩
  have hne : BitVec.ofNat 64 j ≠ BitVec.intMin 64 := by
    intro e
    have := congrArg BitVec.toInt e
    rw [toInt_small hj] at this
    revert this
    have : (BitVec.intMin 64).toInt = -2 ^ 63 := by decide
    rw [this]; omega
  have hnum : Numeral 10 j ds := by
    rw [toInt_small hj] at hds
    obtain ⟨m, h1, e⟩ := hds
    rw [if_neg (by omega)] at e
    rw [e]
    simpa using h1
  obtain ⟨v2, σ2, c2, o2⟩ := call_printf (L := L) σ (as := [BitVec.ofNat 64 j]) hlit (printed_decimal (f := []) (by simp) hne hds [])
    (fun _ _ h => printed_decimal_only (by simp) hne hds h)
  rw [List.append_nil] at o2
  refine ⟨ds, _, σ2, by rw [FizzBuzz, if_neg c15, if_neg c3, if_neg c5]; exact hnum, .head (.elseFalse v15 rfl) (.head (.elseFalse v3 rfl)
    (.head (.elseFalse v5 rfl) (.head (call_step ?_ ?_ (vs := [C.machine.toB.literal P.lits, BitVec.ofNat 64 j]) (σ1 := σ) ?_ c2) .refl))), o2⟩
  · exact V.p1
  · exact V.p2
  · refine ⟨.val _, σ, [BitVec.ofNat 64 j], ⟨rfl, rfl⟩, ⟨.cell pi, σ, [], ⟨?_, rfl⟩, ⟨rfl, rfl⟩, ?_⟩, rfl⟩
    · exact (if_pos V.loc).trans (by rw [V.i]; rfl)
    · rw [← hv]; rfl

theorem fizz_loop {pi : Word} (V : FizzVars P ρ pi) (hn1 : "n".toList ∉ P.env.locals) (hn2 : "n".toList ∈ P.env.exts) {used : Word → Prop}
    (ui : ∀ b, InWord pi b → ¬ used b) (hun : ∀ b, InWord (C.machine.toB.global "n".toList) b → used b)
    (hul : ∀ i, i ≤ 2 → used (C.machine.toB.literal P.lits + BitVec.ofNat 64 i)) {N : Nat} (hN : N < 2 ^ 63) : ∀ d j : Nat, N = j + d →
    ∀ σ : Store C.machine.World, loadW σ.mem (C.machine.toB.global "n".toList) = BitVec.ofNat 64 N → loadW σ.mem pi = BitVec.ofNat 64 j →
    StrAt σ.mem (C.machine.toB.literal P.lits) (codes "%d".toList) →
    ∃ (lines : Nat → List Char) (σ' : Store C.machine.World), (∀ i, i < d → FizzBuzz (j + i + 1) (lines i)) ∧
      BSteps C.machine.toB (C.calls L.Runs) P0 body (.run P (.while fizzCond fizzLoop) k ρ σ) (.run P .skip k ρ σ') ∧
      Wrote (C.see { σ with mem := σ'.mem }) (codes ((List.range d).flatMap fun i => lines i ++ ['\n'])) (C.see σ') := by
  have hap : Apart pi (C.machine.toB.global "n".toList) := apart_of fun x h1 h2 => ui x h2 (hun x h1)
  intro d
  induction d with
  | zero =>
    intro j hj σ hn hi hlit
    let σ1 : Store C.machine.World := σ.store pi (Dir.sem (loadW σ.mem pi) .inc)
    have hv : fizzCond.Value C.machine.toB (C.calls L.Runs) P ρ σ (truth ((BitVec.ofNat 64 j).toInt < (BitVec.ofNat 64 N).toInt)) σ1 := by
      refine ⟨_, ⟨_, σ1, .cell (C.machine.toB.global "n".toList), _, ⟨pi, σ, eval_local V.loc V.i _ _, rfl, rfl⟩, ⟨?_, rfl⟩, ?_, rfl⟩, rfl⟩
      · rw [nameRes, if_neg hn1, if_pos hn2]
      · show Bop.sem (loadW σ.mem pi) (loadW (storeW _ _ _) _) .lt = _
        rw [loadW_other hap, hi, hn]; rfl
    refine ⟨fun _ => [], σ1, by simp, .head (.whileFalse hv ?_) .refl, wrote_nil _⟩
    rw [toInt_small (by omega), toInt_small hN, truth, if_neg (by omega)]
  | succ d ih =>
    intro j hj σ hn hi hlit
    let σ1 : Store C.machine.World := σ.store pi (Dir.sem (loadW σ.mem pi) .inc)
    have hv : fizzCond.Value C.machine.toB (C.calls L.Runs) P ρ σ (truth ((BitVec.ofNat 64 j).toInt < (BitVec.ofNat 64 N).toInt)) σ1 := by
      refine ⟨_, ⟨_, σ1, .cell (C.machine.toB.global "n".toList), _, ⟨pi, σ, eval_local V.loc V.i _ _, rfl, rfl⟩, ⟨?_, rfl⟩, ?_, rfl⟩, rfl⟩
      · rw [nameRes, if_neg hn1, if_pos hn2]
      · show Bop.sem (loadW σ.mem pi) (loadW (storeW _ _ _) _) .lt = _
        rw [loadW_other hap, hi, hn]; rfl
    have hi1 : loadW σ1.mem pi = BitVec.ofNat 64 (j + 1) := by
      show loadW (storeW _ _ _) _ = _
      rw [loadW_storeW, hi, inc_sem, BitVec.ofNat_add]; rfl
    have hlit1 : StrAt σ1.mem (C.machine.toB.literal P.lits) (codes "%d".toList) := StrAt.same (Kept.store ui _ _) hlit hul
    obtain ⟨line, Q, σ2, hl, s2, o2⟩ := fizz_if (C := C) (L := L) (P0 := P0) (body := body) (P := P.afterEx fizzCond)
      (k := .seq ((P.afterEx fizzCond).after fizzIf) (.seq (wr ['\n']) .skip) (.loop P fizzCond fizzLoop k))
      (ρ := ρ) (σ := σ1) (pi := pi) ⟨V.loc, V.i, V.w1, V.w2, V.p1, V.p2⟩ (j := j + 1) (by omega) (by omega) hi1 hlit1
    obtain ⟨σ3, s3, o3⟩ := wr_step (L := L) (P0 := P0) (body := body) (P := (P.afterEx fizzCond).after fizzIf)
      (k := .seq (((P.afterEx fizzCond).after fizzIf).after (wr ['\n'])) .skip (.loop P fizzCond fizzLoop k)) (ρ := ρ) σ2 ['\n'] (by decide +kernel) V.w1 V.w2
    have o23 := o2.trans o3
    have em : σ3.mem = σ1.mem := o23.mem
    obtain ⟨lines, σ', hls, hs, hw⟩ := ih (j + 1) (by omega) σ3 (by rw [em]; exact (loadW_other hap).trans hn) (by rw [em]; exact hi1)
      (by rw [em]; exact hlit1)
    refine ⟨fun i => match i with | 0 => line | i + 1 => lines i, σ', ?_, ?_, ?_⟩
    · intro i hi
      cases i with
      | zero => exact hl
      | succ i =>
        have := hls i (by omega)
        rw [show j + (i + 1) + 1 = j + 1 + i + 1 by omega]; exact this
    · refine .head (.whileTrue hv ?_) (.head .seq (bsteps_app s2 (.head .endSeq (.head .seq (.head s3 (.head .endSeq (.head .endLoop hs)))))))
      rw [toInt_small (by omega), toInt_small hN, truth, if_pos (by omega)]; decide
    · rw [List.range_succ_eq_map, List.flatMap_cons, List.flatMap_map]
      have e : codes (line ++ ['\n'] ++ (List.range d).flatMap fun i => lines i ++ ['\n']) =
        (codes line ++ codes ['\n']) ++ codes ((List.range d).flatMap fun i => lines i ++ ['\n']) := by simp [codes]
      show Wrote _ (codes (line ++ ['\n'] ++ (List.range d).flatMap fun i => lines i ++ ['\n'])) _
      rw [e]
      refine wrote_trans (t := C.see { σ3 with mem := σ'.mem }) ?_ hw
      obtain ⟨⟨ws, e1, h1, h2⟩, _⟩ := o23
      refine ⟨ws, ?_, h1, h2⟩
      have := congrArg (fun s : RTState => { s with mem := σ'.mem }) e1
      exact this
end

/-- C74. `examples/fizzbuzz.b` is accepted, and on every machine with room for the variable the process, its data loaded, writes for each
number from 1 to 100 in order the line prescribed, and ends with status 0. -/
theorem C74_fizzbuzz : ∃ m, compileText fizzText .eof = .ok m ∧ ∀ (C : Computer) (L : Library), Module.Links m C.addr →
    ∀ σ : Store C.machine.World, (C.see σ).fout = 0 → Module.DataIn m C.addr σ.mem → C.Room 1 σ.world.1 (Module.Occupies m C.addr) →
    ∃ lines : Nat → List Char, (∀ i, i < 100 → FizzBuzz (i + 1) (lines i)) ∧
      Module.Outputs m C (C.calls L.Runs) σ (codes ((List.range 100).flatMap fun i => lines i ++ ['\n'])) := by
  obtain ⟨m, hm, ht⟩ := fizz_module
  refine ⟨m, hm, fun C L hk σ hf hd hroom => ?_⟩
  have hI := initial_of_tree ht (M := C.machine) hd
  have hn : loadW σ.mem (C.machine.toB.global "n".toList) = 100 := by
    have := (hI.scalar [] "n".toList [.int 100] _ rfl (by decide)).1 0 (by decide)
    simpa [Ival.Holds] using this
  have hlit : StrAt σ.mem (C.machine.toB.literal 0) (codes "%d".toList) := by
    have := strAt_of (hI.literal 0 fizzLit rfl) (by decide)
    have e : fizzLit.map (BitVec.ofNat 8) = codes "%d".toList := by decide
    rwa [e] at this
  let P : Place := ⟨(Program.place [.global "n".toList [.int 100]]).env.enter "main".toList [], (Program.place [.global "n".toList [.int 100]]).lits⟩
  have hd : fizzProg.Defines "main".toList [] fizzMain P := ⟨[_], [], rfl, by simp, rfl⟩
  let σ0 : Store C.machine.World := ⟨storeArgs (C.machine.toB.params σ.world 0).1 [] σ.mem, (C.machine.toB.params σ.world 0).2⟩
  let ρ0 : Frame := bindParams [] (C.machine.toB.params σ.world 0).1 fun _ => none
  simp only [Computer.Room, and_true] at hroom
  let pi := (C.alloc σ.world.1 8).1
  have hun : ∀ b, InWord (C.machine.toB.global "n".toList) b → Module.Occupies m C.addr b :=
    fun b hb => by
      obtain ⟨g, hg, e1, e2⟩ := hasGlobal_sound hm fizz_globals.2
      exact ⟨g, hg, by rw [e1, e2]; exact hb⟩
  have hul : ∀ i, i ≤ 2 → Module.Occupies m C.addr (C.machine.toB.literal 0 + BitVec.ofNat 64 i) :=
    fun i hi => by
      obtain ⟨g, hg, e1, e2⟩ := hasGlobal_sound hm fizz_globals.1
      exact ⟨g, hg, by rw [e1, e2]; exact Nat.lt_succ_of_le (sub_small _ hi)⟩
  let σ1 : Store C.machine.World := (declare C.machine.toB [("i".toList, none)] ρ0 σ0).2
  have e1 : σ1.mem = storeW σ.mem pi 0 := rfl
  let P2 : Place := (P.after (.extrn ["n".toList])).after (.auto [("i".toList, none)])
  have hap : Apart pi (C.machine.toB.global "n".toList) := apart_of fun x h1 h2 => hroom x h2 (hun x h1)
  obtain ⟨lines, σ2, hls, hs, hw⟩ := fizz_loop (C := C) (L := L) (P0 := P) (body := fizzMain) (P := P2)
    (k := .seq (P2.after (.while fizzCond fizzLoop)) .skip .stop) (ρ := (declare C.machine.toB [("i".toList, none)] ρ0 σ0).1) (pi := pi)
    ⟨by decide, rfl, by decide, by decide, by decide, by decide⟩ (by decide) (by decide) (used := Module.Occupies m C.addr)
    hroom hun hul (N := 100) (by decide) 100 0 rfl σ1 ((loadW_other hap).trans hn) (loadW_storeW _ _ _)
    (StrAt.same (Kept.store hroom _ _) hlit hul)
  refine ⟨lines, fun i hi => by have := hls i hi; rwa [Nat.zero_add] at this, ?_⟩
  refine outputs_of ht fizz_checks.2.1 L hk (ps := []) (body := fizzMain) (by simp [fizzProg])
    (σ' := ⟨σ2.mem, C.machine.toB.leave σ.world σ2.world⟩) (σ'' := σ2) (σ0 := { σ1 with mem := σ2.mem })
    ⟨1, .inr ⟨_, _, _, P, hd, rfl, Nat.le_refl _, σ2, ?_, rfl⟩⟩ rfl rfl hw hf
  exact .head .seq (.head .extrn (.head .endSeq (.head .seq (.head .auto (.head .endSeq (.head .seq (bsteps_app hs (.head .endSeq (.head .endFun .refl)))))))))

end Blang.Props
