import Verif.Props.Process
import Verif.Props.SamplesEndless
import Verif.Props.Runtime
import Verif.Spec.Linked
/-
C72: a program that copies its input to its output, from its text to the bytes the process writes; and so concrete processes that meet
the hypotheses of C71.
-/
namespace Blang.Props
open Blang Blang.Spec

def copyText : List Char := "main() { auto c; while ((c = read()) != 4) write(c); }\n".toList

def copyCond : Ex := .bin .ne (.paren (.assign none (.var "c".toList) (.callName "read".toList []))) (.num 4)

def copyBody : St := .seq (.auto [("c".toList, none)])
  (.seq (.while copyCond (.expr (.callName "write".toList [.var "c".toList]))) .skip)

def copyProg : Program := [.func "main".toList [] copyBody]

set_option maxRecDepth 20000 in
theorem copy_checks : Program.isSame copyProg (refParse prec copyText) = true ∧ copyProg.Tame ∧ copyProg.Clear ∧
    (Program.Scoped Env.empty copyProg ∧ ∀ d ∈ copyProg, d.CasesOk) := by
  decide +kernel

attribute [irreducible] copyText

theorem copy_careful : Careful prec copyText copyProg := refParse_sound (Program.eq_of_same copy_checks.1)

theorem copy_module : ∃ m, compileText copyText .eof = .ok m ∧ TreeOf copyText copyProg m :=
  careful_module copy_careful copy_checks.2.2.1 copy_checks.2.2.2

/-- one character in a word -/
theorem packed_one {b : BitVec 8} {bs : List (BitVec 8)} (h : PackedChars (BitVec.ofNat 64 b.toNat) bs) : bs = [b] := by
  refine C48_unique h ⟨?_, by simp, ?_⟩
  · have := b.isLt
    simp [beValue]; omega
  · intro h; simp at h ⊢; exact h

theorem writtenTo_append (fd : Word) (t u : List (Word × List (BitVec 8))) : writtenTo fd (t ++ u) = writtenTo fd t ++ writtenTo fd u := by
  simp [writtenTo]

/-- what `write` of one character does to the files -/
theorem wrote_files {s s' : RTState} {bs : List (BitVec 8)} (h : Wrote s bs s') (fd : Word) :
    writtenTo fd s'.trace = writtenTo fd s.trace ++ if fd = s.fout + 1 then bs else [] := by
  obtain ⟨ws, rfl, h1, h2⟩ := h
  show writtenTo fd (s.trace ++ ws) = _
  rw [writtenTo_append]
  congr 1
  unfold writtenTo
  by_cases hf : fd = s.fout + 1
  · rw [if_pos hf, List.filter_eq_self.2 (fun w hw => by simp [h1 w hw, hf]), h2]
  · rw [if_neg hf, List.filter_eq_nil_iff.2 (fun w hw => by simp [h1 w hw]; exact fun e => hf e.symm)]
    rfl

section
variable {C : Computer} {L : Library} {P0 : Place} {body : St}

/-- the condition of the loop -/
theorem copy_cond {P : Place} {ρ : Frame} {a : Word} (hc : "c".toList ∈ P.env.locals) (h1 : "read".toList ∉ P.env.locals)
    (h2 : "read".toList ∉ P.env.exts) (hρ : ρ "c".toList = some a) {σ : Store C.machine.World} {v : Word} {s' : RTState}
    (hr : L.Runs .read [] (C.see σ) v s') :
    copyCond.Value C.machine.toB (C.calls L.Runs) P ρ σ (truth (v ≠ 4)) ((C.put σ s').store a v) := by
  refine ⟨.val (truth (v ≠ 4)), ⟨.val v, (C.put σ s').store a v, .val 4, truth (v ≠ 4), ⟨.val v, ⟨a, σ, .val v, C.put σ s', ⟨?_, rfl⟩,
    ⟨.val (C.machine.toB.global "read".toList), [], σ, v, ?_, ⟨rfl, rfl⟩, ⟨.read, rfl, s', hr, rfl⟩, rfl⟩, rfl, rfl⟩, rfl⟩, ⟨rfl, rfl⟩, rfl, rfl⟩, rfl⟩
  · simp only [nameRes, if_pos hc, hρ, Option.map_some]
  · simp only [nameRes, if_neg h1, if_neg h2]

/-- the body of the loop -/
theorem copy_write {P : Place} {ρ : Frame} {a : Word} (hc : "c".toList ∈ P.env.locals) (h1 : "write".toList ∉ P.env.locals)
    (h2 : "write".toList ∉ P.env.exts) (hρ : ρ "c".toList = some a) {σ : Store C.machine.World} {v : Word} {s' : RTState}
    (hr : L.Runs .write [loadW σ.mem a] (C.see σ) v s') :
    (Ex.callName "write".toList [.var "c".toList]).Value C.machine.toB (C.calls L.Runs) P ρ σ v (C.put σ s') := by
  refine ⟨.val v, ⟨.val (C.machine.toB.global "write".toList), [loadW σ.mem a], σ, v, ?_, ⟨.cell a, σ, [], ⟨?_, rfl⟩, ⟨rfl, rfl⟩, rfl⟩,
    ⟨.write, rfl, s', hr, rfl⟩, rfl⟩, rfl⟩
  · simp only [nameRes, if_neg h1, if_neg h2]
  · simp only [nameRes, if_pos hc, hρ, Option.map_some]

theorem copy_loop {P : Place} {ρ : Frame} {a : Word} {k : Cont} (hl : P.env.locals = ["c".toList]) (he : P.env.exts = [])
    (hρ : ρ "c".toList = some a) (inp : List (BitVec 8)) : ∀ σ : Store C.machine.World, (C.see σ).input 0 = inp → (C.see σ).os.Reads →
    (C.see σ).fout = 0 → (∀ b ∈ inp, b.toNat < 128 ∧ b ≠ 4#8) →
    ∃ σ' : Store C.machine.World, BSteps C.machine.toB (C.calls L.Runs) P0 body
        (.run P (.while copyCond (.expr (.callName "write".toList [.var "c".toList]))) k ρ σ) (.run P .skip k ρ σ') ∧
      (C.see σ').input 0 = [] ∧
      ∀ fd, writtenTo fd (C.see σ').trace = writtenTo fd (C.see σ).trace ++ if fd = 1 then inp else [] := by
  have hc : "c".toList ∈ P.env.locals := by rw [hl]; simp
  have r1 : "read".toList ∉ P.env.locals := by rw [hl]; decide
  have r2 : "read".toList ∉ P.env.exts := by rw [he]; simp
  have w1 : "write".toList ∉ P.env.locals := by rw [hl]; decide
  have w2 : "write".toList ∉ P.env.exts := by rw [he]; simp
  induction inp with
  | nil =>
    intro σ hi ho hf _
    obtain ⟨v, s', hr⟩ := library_returns L .read [] (C.see σ) (by simp [LibFn.arity]) (fun h => by cases h)
    have hd := library_documented hr
    have hv : v = 4 ∧ s'.input 0 = [] ∧ s'.trace = (C.see σ).trace := by
      cases hd with
      | read h =>
        obtain ⟨lim, rest, _, h2, _⟩ := h
        rw [hi] at h2; simp at h2
      | readEnd h =>
        obtain ⟨lim, rest, _, h2, _, rfl⟩ := h
        rw [hi] at h2
        refine ⟨rfl, ?_, rfl⟩
        simp at h2; simpa using h2
      | readError h =>
        obtain ⟨lim, hk, _⟩ := ho (C.see σ).reads
        rw [h.1] at hk; cases hk
    obtain ⟨rfl, hi', ht⟩ := hv
    refine ⟨_, .head (.whileFalse (copy_cond hc r1 r2 hρ hr) (by simp [truth])) .refl, hi', fun fd => ?_⟩
    show writtenTo fd s'.trace = _
    rw [ht]; simp
  | cons b inp ih =>
    intro σ hi ho hf hb
    obtain ⟨v, s', hr⟩ := library_returns L .read [] (C.see σ) (by simp [LibFn.arity]) (fun h => by cases h)
    have hd := library_documented hr
    have hv : v = BitVec.ofNat 64 b.toNat ∧ s'.input 0 = inp ∧ s'.trace = (C.see σ).trace ∧ s'.os = (C.see σ).os ∧ s'.fout = 0 := by
      cases hd with
      | read h =>
        obtain ⟨lim, rest, _, h2, _, rfl⟩ := h
        rw [hi] at h2
        simp only [List.cons_append, List.nil_append, List.cons.injEq] at h2
        obtain ⟨rfl, rfl⟩ := h2
        rw [if_pos (hb _ List.mem_cons_self).1]
        exact ⟨rfl, by simp, rfl, rfl, hf⟩
      | readEnd h =>
        obtain ⟨lim, rest, h1, h2, h3, rfl⟩ := h
        obtain ⟨k, hk, hk1⟩ := ho (C.see σ).reads
        rw [h1] at hk; cases hk
        rw [hi] at h3
        simp only [List.length_nil, List.length_cons] at h3
        omega
      | readError h =>
        obtain ⟨lim, hk, _⟩ := ho (C.see σ).reads
        rw [h.1] at hk; cases hk
    obtain ⟨rfl, hi', ht, hos, hfo⟩ := hv
    have hne : BitVec.ofNat 64 b.toNat ≠ 4 := by
      intro e
      have e2 := congrArg BitVec.toNat e
      have := b.isLt
      simp only [BitVec.toNat_ofNat] at e2
      refine (hb b List.mem_cons_self).2 (BitVec.eq_of_toNat_eq ?_)
      rw [Nat.mod_eq_of_lt (by omega)] at e2
      exact e2
    let σ1 : Store C.machine.World := (C.put σ s').store a (BitVec.ofNat 64 b.toNat)
    have hl1 : loadW σ1.mem a = BitVec.ofNat 64 b.toNat := loadW_storeW _ _ _
    obtain ⟨v2, s2, hr2⟩ := library_returns L .write [loadW σ1.mem a] (C.see σ1) (by simp [LibFn.arity]) (fun h => by cases h)
    have hd2 := library_documented hr2
    have hw : Wrote (C.see σ1) [b] s2 := by
      generalize hg : [loadW σ1.mem a] = args at hd2
      cases hd2 with
      | write h1 h2 =>
        cases hg
        rw [hl1] at h1
        rw [packed_one h1] at h2
        exact h2
    have hfs := wrote_files hw
    obtain ⟨ws, e2, _, _⟩ := id hw
    obtain ⟨σ', hs, hin, hfd⟩ := ih (C.put σ1 s2) (by rw [show (C.see (C.put σ1 s2)).input = s2.input from rfl, e2]; exact hi')
      (by rw [show (C.see (C.put σ1 s2)).os = s2.os from rfl, e2]; show s'.os.Reads; rw [hos]; exact ho)
      (by rw [show (C.see (C.put σ1 s2)).fout = s2.fout from rfl, e2]; exact hfo) (fun x hx => hb x (List.mem_cons_of_mem _ hx))
    refine ⟨σ', .head (.whileTrue (copy_cond hc r1 r2 hρ hr) (by rw [truth, if_pos hne]; decide)) (.head (.expr (copy_write ?_ ?_ ?_ hρ hr2))
      (.head .endLoop hs)), hin, fun fd => ?_⟩
    · exact hc
    · exact w1
    · exact w2
    · rw [hfd fd, show (C.see (C.put σ1 s2)).trace = s2.trace from rfl, hfs fd]
      have e1 : (C.see σ1).fout + 1 = 1 := by
        show s'.fout + 1 = 1
        rw [hfo]; rfl
      rw [e1, show (C.see σ1).trace = s'.trace from rfl, ht]
      by_cases h1 : fd = 1
      · rw [if_pos h1, if_pos h1, if_pos h1, List.append_assoc]; rfl
      · rw [if_neg h1, if_neg h1, if_neg h1, List.append_nil, List.append_nil]
end

/-- what the program prescribes -/
theorem copy_prescribed {C : Computer} (L : Library) (σ : Store C.machine.World) (ho : (C.see σ).os.Reads) (hf : (C.see σ).fout = 0)
    (hb : ∀ b ∈ (C.see σ).input 0, b.toNat < 128 ∧ b ≠ 4#8) :
    ∃ σ' : Store C.machine.World, copyProg.Returns C.machine.toB (C.calls L.Runs) (C.machine.toB.global "main".toList) [] σ 0 σ' ∧
      (C.see σ').input 0 = [] ∧
      ∀ fd, writtenTo fd (C.see σ').trace = writtenTo fd (C.see σ).trace ++ if fd = 1 then (C.see σ).input 0 else [] := by
  let P : Place := ⟨(Program.place []).env.enter "main".toList [], (Program.place []).lits⟩
  have hd : copyProg.Defines "main".toList [] copyBody P := ⟨[], [], rfl, by simp, rfl⟩
  let ρ0 : Frame := bindParams [] (C.machine.toB.params σ.world 0).1 fun _ => none
  let σ0 : Store C.machine.World := ⟨storeArgs (C.machine.toB.params σ.world 0).1 [] σ.mem, (C.machine.toB.params σ.world 0).2⟩
  have e0 : C.see σ0 = C.see σ := rfl
  let σ1 : Store C.machine.World := (declare C.machine.toB [("c".toList, none)] ρ0 σ0).2
  have e1 : (C.see σ1).input = (C.see σ).input ∧ (C.see σ1).os = (C.see σ).os ∧ (C.see σ1).fout = (C.see σ).fout ∧
    (C.see σ1).trace = (C.see σ).trace := ⟨rfl, rfl, rfl, rfl⟩
  obtain ⟨σ', hs, hin, hfd⟩ := copy_loop (C := C) (L := L) (P0 := P) (body := copyBody) (P := P.after (.auto [("c".toList, none)]))
    (ρ := (declare C.machine.toB [("c".toList, none)] ρ0 σ0).1) (a := (C.machine.toB.cell σ0.world).1)
    (k := .seq ((P.after (.auto [("c".toList, none)])).after (.while copyCond (.expr (.callName "write".toList [.var "c".toList])))) .skip .stop)
    rfl rfl (by simp [declare, Frame.bind]) _ σ1 rfl ho hf hb
  refine ⟨⟨σ'.mem, C.machine.toB.leave σ.world σ'.world⟩, ⟨1, .inr ⟨_, _, _, P, hd, rfl, Nat.le_refl _, σ', ?_, rfl⟩⟩, hin, hfd⟩
  have app : ∀ {x y z}, BSteps C.machine.toB (C.calls L.Runs) P copyBody x y → BSteps C.machine.toB (C.calls L.Runs) P copyBody y z →
      BSteps C.machine.toB (C.calls L.Runs) P copyBody x z := by
    intro x y z h1 h2
    induction h1 with
    | refl => exact h2
    | head h _ ih => exact .head h (ih h2)
  exact .head .seq (.head .auto (.head .endSeq (.head .seq (app hs (.head .endSeq (.head .endFun .refl))))))

/-- C72. The text is accepted; the process that runs what the compiler produces, linked with the library, on whatever machine, copies its standard
input to its standard output and ends with status 0, and does nothing else, provided the input consists of ASCII characters other than 4 (which is
what `read` reports at the end of the input) and the system delivers it. -/
theorem C72_copy : ∃ m, compileText copyText .eof = .ok m ∧ ∀ (C : Computer) (L : Library), Module.Links m C.addr →
    ∀ σ : Store C.machine.World, (C.see σ).os.Reads → (C.see σ).fout = 0 → (∀ b ∈ (C.see σ).input 0, b.toNat < 128 ∧ b ≠ 4#8) →
    ∃ σ' : Store C.machine.World, (∀ status σ1, Module.Ends m C.machine (C.calls L.Runs) σ status σ1 ↔ status = 0 ∧ σ1 = σ') ∧
      (C.see σ').input 0 = [] ∧
      writtenTo 1 (C.see σ').trace = writtenTo 1 (C.see σ).trace ++ (C.see σ).input 0 ∧
      ∀ fd, fd ≠ 1 → writtenTo fd (C.see σ').trace = writtenTo fd (C.see σ).trace := by
  obtain ⟨m, hm, ht⟩ := copy_module
  refine ⟨m, hm, fun C L hk σ ho hf hb => ?_⟩
  obtain ⟨σ', hr, hin, hfd⟩ := copy_prescribed L σ ho hf hb
  refine ⟨σ', C71_prescribed ht copy_checks.2.1 L hk (ps := []) (body := copyBody) (by simp [copyProg]) (.inl hr),
    hin, ?_, fun fd hne => ?_⟩
  · rw [hfd 1, if_pos rfl]
  · rw [hfd fd, if_neg hne, List.append_nil]

/-! ### A program that calls `exit` -/

def stopText : List Char := "main() { stop(); write('b'); }\nstop() { write('a'); exit(); }\n".toList

def stopMain : St := .seq (.expr (.callName "stop".toList [])) (.seq (.expr (.callName "write".toList [.num 98])) .skip)
def stopBody : St := .seq (.expr (.callName "write".toList [.num 97])) (.seq (.expr (.callName "exit".toList [])) .skip)

def stopProg : Program := [.func "main".toList [] stopMain, .func "stop".toList [] stopBody]

set_option maxRecDepth 20000 in
theorem stop_checks : Program.isSame stopProg (refParse prec stopText) = true ∧ stopProg.Tame ∧ stopProg.Clear ∧
    (Program.Scoped Env.empty stopProg ∧ ∀ d ∈ stopProg, d.CasesOk) := by
  decide +kernel

attribute [irreducible] stopText

theorem stop_module : ∃ m, compileText stopText .eof = .ok m ∧ TreeOf stopText stopProg m :=
  careful_module (refParse_sound (Program.eq_of_same stop_checks.1)) stop_checks.2.2.1 stop_checks.2.2.2

/-- C72. A program that calls `exit` in a function called by `main`: what comes before is done, what follows is not, and the status is 0. -/
theorem C72_exit : ∃ m, compileText stopText .eof = .ok m ∧ ∀ (C : Computer) (L : Library), Module.Links m C.addr →
    ∀ σ : Store C.machine.World, (C.see σ).fout = 0 →
    ∃ σ' : Store C.machine.World, (∀ status σ1, Module.Ends m C.machine (C.calls L.Runs) σ status σ1 ↔ status = 0 ∧ σ1 = σ') ∧
      writtenTo 1 (C.see σ').trace = writtenTo 1 (C.see σ).trace ++ [97#8] ∧
      ∀ fd, fd ≠ 1 → writtenTo fd (C.see σ').trace = writtenTo fd (C.see σ).trace := by
  obtain ⟨m, hm, ht⟩ := stop_module
  refine ⟨m, hm, fun C L hk σ hf => ?_⟩
  obtain ⟨v, s', hr⟩ := library_returns L .write [97] (C.see σ) (by simp [LibFn.arity]) (fun h => by cases h)
  have hw : Wrote (C.see σ) [97#8] s' := by
    generalize hg : [(97 : Word)] = args at hr
    cases library_documented hr with
    | write h1 h2 =>
      cases hg
      rw [packed_one (b := 97#8) h1] at h2
      exact h2
  have d1 : stopProg.Defines "main".toList [] stopMain ⟨(Program.place []).env.enter "main".toList [], (Program.place []).lits⟩ :=
    ⟨[], [.func "stop".toList [] stopBody], rfl, by intro qs b h; simp at h, rfl⟩
  have d2 : stopProg.Defines "stop".toList [] stopBody ⟨(Program.place [.func "main".toList [] stopMain]).env.enter "stop".toList [],
      (Program.place [.func "main".toList [] stopMain]).lits⟩ := ⟨[.func "main".toList [] stopMain], [], rfl, by simp, rfl⟩
  have m1 : stopProg.Makes C.machine.toB (C.calls L.Runs) "main".toList [] σ (C.machine.toB.global "stop".toList) [] σ :=
    .own ⟨_, _, _, d1, Nat.le_refl _, .head .seq .refl⟩
      ⟨_, _, _, _, _, _, rfl, rfl, .val (C.machine.toB.global "stop".toList), by simp [nameRes, Program.place, Env.empty, Env.enter], .inr ⟨rfl, rfl, rfl⟩⟩
  have m2 : stopProg.Makes C.machine.toB (C.calls L.Runs) "stop".toList [] σ (C.machine.toB.global "exit".toList) [] (C.put σ s') := by
    refine .own ⟨_, _, _, d2, Nat.le_refl _, .head .seq (.head (.expr (v := v) (σ' := C.put σ s') ⟨.val v, ⟨.val (C.machine.toB.global "write".toList),
      [97], σ, v, ?_, ⟨.val 97, _, [], ⟨rfl, rfl⟩, ⟨rfl, rfl⟩, rfl⟩, ⟨0, .write, rfl, s', hr, rfl⟩, rfl⟩, rfl⟩) (.head .endSeq (.head .seq .refl)))⟩
      ⟨_, _, _, _, _, _, rfl, rfl, .val (C.machine.toB.global "exit".toList), ?_, .inr ⟨rfl, rfl, rfl⟩⟩
    · rw [nameRes, if_neg (by decide), if_neg (by decide)]
    · rw [nameRes, if_neg (by decide), if_neg (by decide)]
  refine ⟨C.put σ s', C71_prescribed ht stop_checks.2.1 L hk (ps := []) (body := stopMain) (by simp [stopProg]) (.inr ⟨rfl, [], .inner m1 m2⟩), ?_,
    fun fd hne => ?_⟩
  · show writtenTo 1 s'.trace = _
    rw [wrote_files hw, hf, if_pos (by decide)]
  · show writtenTo fd s'.trace = _
    rw [wrote_files hw, hf, if_neg (by simpa using hne), List.append_nil]

/-! ### A machine on which this happens -/

def allFns : List LibFn := [.char, .lchar, .read, .nread, .writeb, .write, .nwrite, .printd, .printo, .printf, .flush]

/-- addresses computed from the names -/
def bootAddr (x : List Char) : Word := 4096 * BitVec.ofNat 64 (x.foldl (fun n c => n * 257 + c.toNat) 1)

/-- storage taken from a stack that grows upwards -/
def boot : Computer where
  Stack := Word
  alloc w n := (w, w + BitVec.ofNat 64 n)
  leave w _ := w
  addr := bootAddr

def linksCheck (m : Module) : Bool :=
  let fs := m.funcs.filter fun f => !f.blocks.isEmpty
  let ex := bootAddr (symbolOf "exit".toList)
  fs.all (fun f => bootAddr f.sym != ex && (fs.all fun g => bootAddr f.sym != bootAddr g.sym || f.sym == g.sym) &&
    allFns.all fun g => bootAddr f.sym != bootAddr (symbolOf g.name)) &&
  allFns.all fun f => ex != bootAddr (symbolOf f.name) && allFns.all fun g => bootAddr (symbolOf f.name) != bootAddr (symbolOf g.name) || f == g

theorem linksCheck_sound {m : Module} (h : linksCheck m = true) : Module.Links m boot.addr := by
  have all : ∀ f : LibFn, f ∈ allFns := by intro f; cases f <;> decide
  simp only [linksCheck, Bool.and_eq_true, List.all_eq_true, Bool.or_eq_true, bne_iff_ne, beq_iff_eq, List.mem_filter, Bool.not_eq_true',
    List.isEmpty_eq_false_iff, and_imp] at h
  obtain ⟨h1, h2⟩ := h
  exact ⟨fun f hf g hg hb hb' e => ((h1 f hf hb).1.2 g hg hb').resolve_left (fun k => k e), fun f hf hb g => (h1 f hf hb).2 g (all g),
    fun f g e => ((h2 f (all f)).2 g (all g)).resolve_left (fun k => k e), fun f hf hb => (h1 f hf hb).1.1, fun g => (h2 g (all g)).1⟩

set_option maxRecDepth 20000 in
unseal copyText in
theorem copy_links : (match compileText copyText .eof with | .ok m => linksCheck m | .error _ => false) = true := by decide +kernel

set_option maxRecDepth 20000 in
unseal stopText in
theorem stop_links : (match compileText stopText .eof with | .ok m => linksCheck m | .error _ => false) = true := by decide +kernel

/-- a process about to start, with that input -/
def bootStore (inp : List (BitVec 8)) : Store boot.machine.World :=
  ⟨fun _ => 0, ((0x100000000 : Word), ⟨fun fd => if fd = 0 then inp else [], [], 0, none, 0, OS.willing⟩)⟩

/-- C71, C72: on this machine the program, given the input `hi`, writes `hi` and ends with status 0. -/
example (L : Library) : ∃ m, compileText copyText .eof = .ok m ∧ ∃ σ',
    Module.Ends m boot.machine (boot.calls L.Runs) (bootStore (codes "hi".toList)) 0 σ' ∧
    writtenTo 1 (boot.see σ').trace = codes "hi".toList := by
  obtain ⟨m, hm, h⟩ := C72_copy
  have hl := copy_links
  rw [hm] at hl
  obtain ⟨σ', he, _, hw, _⟩ := h boot L (linksCheck_sound hl) (bootStore (codes "hi".toList)) (fun _ => ⟨2 ^ 64, rfl, by decide⟩) rfl
    (by intro b hb; revert b; show ∀ b ∈ codes "hi".toList, _; simp only [codes]; decide)
  exact ⟨m, hm, σ', (he 0 σ').2 ⟨rfl, rfl⟩, hw⟩

end Blang.Props
