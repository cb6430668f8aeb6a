import Verif.Props.Fizzbuzz
/-
A machine on which the hypotheses of C74 hold: the example programs run there.
-/
namespace Blang.Props
open Blang Blang.Spec

theorem dataIn_of {m : Module} {addr : List Char → Word} {mem : Mem}
    (key : ∀ g ∈ m.globals, BytesAt mem (addr g.sym) (image addr g.init)) : Module.DataIn m addr mem := by
  intro g hg
  refine ⟨fun bs hb => ?_, fun ks hk => ?_⟩
  · have := key g hg
    rw [hb] at this
    exact this
  · have := key g hg
    refine wordsAt_bytes ?_
    have e : image addr g.init = (ks.map (Const.value addr)).flatMap wordBytes := by
      rw [List.flatMap_map]
      cases hi : g.init with
      | bytes bs => rw [hi] at hk; cases hk
      | _ => rw [← hi]; unfold image; rw [hi] at hk ⊢; simp only [words, hk, Option.getD_some]
    rw [← e]
    exact this

/-- the memory with the data of the module -/
def bootMem (m : Module) : Mem := fun b => (m.globals.findSome? fun g => (image bootAddr g.init)[(b - bootAddr g.sym).toNat]?).getD 0

def dataCheck (m : Module) : Bool := m.globals.all fun g => (List.range (image bootAddr g.init).length).all fun i =>
  (image bootAddr g.init)[i]? == some (bootMem m (bootAddr g.sym + BitVec.ofNat 64 i))

theorem dataCheck_sound {m : Module} (h : dataCheck m = true) : Module.DataIn m boot.addr (bootMem m) := by
  refine dataIn_of fun g hg i hi => ?_
  simp only [dataCheck, List.all_eq_true, List.mem_range, beq_iff_eq] at h
  have := h g hg i hi
  have e : (image bootAddr g.init)[i]? = some ((image boot.addr g.init)[i]) := List.getElem?_eq_getElem hi
  rw [e] at this
  exact (Option.some.inj this).symm

/-- a process about to start -/
def loaded (m : Module) : Store boot.machine.World :=
  ⟨bootMem m, ((0x100000000 : Word), ⟨fun _ => [], [], 0, none, 0, OS.willing⟩)⟩

/-- the data of the module are not where the stack is -/
def lowCheck (m : Module) : Bool := m.globals.all fun g => decide (globalSize g.init < 2 ^ 20 ∧
  ((bootAddr g.sym).toNat < 2 ^ 31 ∨ 2 ^ 34 ≤ (bootAddr g.sym).toNat ∧ (bootAddr g.sym).toNat < 2 ^ 63))

theorem low_of {m : Module} (h : lowCheck m = true) {b : Word} (hb : Module.Occupies m boot.addr b) : b.toNat < 2 ^ 32 ∨ 2 ^ 34 ≤ b.toNat := by
  simp only [lowCheck, List.all_eq_true, decide_eq_true_eq] at h
  obtain ⟨g, hg, h1⟩ := hb
  have := h g hg
  rw [show boot.addr = bootAddr from rfl] at h1
  generalize bootAddr g.sym = a at *
  generalize globalSize g.init = k at *
  bv_omega

def readyCheck (text : List Char) : Bool := match compileText text .eof with
  | .ok m => linksCheck m && dataCheck m && lowCheck m
  | .error _ => false

theorem readyCheck_sound {text : List Char} {m : Module} (hm : compileText text .eof = .ok m) (h : readyCheck text = true) :
    Module.Links m boot.addr ∧ Module.DataIn m boot.addr (loaded m).mem ∧ lowCheck m = true := by
  rw [readyCheck, hm, Bool.and_eq_true, Bool.and_eq_true] at h
  exact ⟨linksCheck_sound h.1.1, dataCheck_sound h.1.2, h.2⟩

set_option maxRecDepth 20000 in
unseal helloBText helloWText in
theorem hello_ready : readyCheck helloBText = true ∧ readyCheck helloWText = true := ⟨by decide_text helloBText, by decide_text helloWText⟩

set_option maxRecDepth 20000 in
unseal fibText fizzText in
theorem fib_ready : readyCheck fibText = true ∧ readyCheck fizzText = true := ⟨by decide_text fibText, by decide_text fizzText⟩

theorem boot_room {used : Word → Prop} (hu : ∀ b, used b → b.toNat < 2 ^ 32 ∨ 2 ^ 34 ≤ b.toNat) :
    boot.Room 5 (0x100000000 : Word) used := by
  simp only [Computer.Room, boot, InWord, and_true]
  refine ⟨?_, ?_, ?_, ?_, ?_⟩ <;> intro b hb hx
  · have := hu b hx; bv_omega
  · rcases hx with hx | hx
    · have := hu b hx; bv_omega
    · bv_omega
  · rcases hx with (hx | hx) | hx
    · have := hu b hx; bv_omega
    all_goals bv_omega
  · rcases hx with ((hx | hx) | hx) | hx
    · have := hu b hx; bv_omega
    all_goals bv_omega
  · rcases hx with (((hx | hx) | hx) | hx) | hx
    · have := hu b hx; bv_omega
    all_goals bv_omega

/-- C74: on this machine the programs run. -/
example (L : Library) : ∃ m, compileText helloBText .eof = .ok m ∧
    Module.Outputs m boot (boot.calls L.Runs) (loaded m) (codes "Hello, World!\n".toList) := by
  obtain ⟨m, hm, h⟩ := C74_hello
  exact ⟨m, hm, h boot L (readyCheck_sound hm hello_ready.1).1 (loaded m) rfl⟩

example (L : Library) : ∃ m, compileText helloWText .eof = .ok m ∧
    Module.Outputs m boot (boot.calls L.Runs) (loaded m) (codes "Hello, World!\n".toList) := by
  obtain ⟨m, hm, h⟩ := C74_helloworld
  have hc := readyCheck_sound hm hello_ready.2
  exact ⟨m, hm, h boot L hc.1 (loaded m) rfl hc.2.1⟩

example (L : Library) : ∃ m, compileText fibText .eof = .ok m ∧
    Module.Outputs m boot (boot.calls L.Runs) (loaded m) (codes "55\n".toList) := by
  obtain ⟨m, hm, h⟩ := C74_fibonacci
  have hc := readyCheck_sound hm fib_ready.1
  exact ⟨m, hm, h boot L hc.1 (loaded m) rfl hc.2.1 (boot_room fun b => low_of hc.2.2)⟩

/-- ... and `fib(90)` is 2880067194370816120 -/
example (L : Library) : ∃ m σ', compileText fibText .eof = .ok m ∧
    Module.Returns m boot.machine (boot.calls L.Runs) (boot.addr (symbolOf "fib".toList)) [90] (loaded m) 2880067194370816120 σ' := by
  obtain ⟨m, hm, h⟩ := C74_fib
  have hc := readyCheck_sound hm fib_ready.1
  obtain ⟨σ', h1, _⟩ := h boot L hc.1 (loaded m) _ (boot_room fun b => low_of hc.2.2) 90
  refine ⟨m, σ', hm, (h1 _ _).2 ⟨?_, rfl⟩⟩
  have e : (90 : Word).toInt.toNat = 90 := by decide
  have pair : ∀ n, ((List.range n).foldl (fun p _ => (p.2, p.1 + p.2)) (0, 1)) = (fibo n, fibo (n + 1)) := by
    intro n
    induction n with
    | zero => rfl
    | succ n ih => rw [List.range_succ, List.foldl_append, ih]; rfl
  rw [e, show fibo 90 = ((List.range 90).foldl (fun p _ => (p.2, p.1 + p.2)) (0, 1)).1 by rw [pair]]
  decide +kernel

example (L : Library) : ∃ (m : Module) (lines : Nat → List Char), compileText fizzText .eof = .ok m ∧ lines 0 = "1".toList ∧ lines 14 = "FizzBuzz".toList ∧
    Module.Outputs m boot (boot.calls L.Runs) (loaded m) (codes ((List.range 100).flatMap fun i => lines i ++ ['\n'])) := by
  obtain ⟨m, hm, h⟩ := C74_fizzbuzz
  have hc := readyCheck_sound hm fib_ready.2
  have hr := boot_room (used := Module.Occupies m boot.addr) fun b => low_of hc.2.2
  obtain ⟨lines, h1, h2⟩ := h boot L hc.1 (loaded m) rfl hc.2.1 ⟨hr.1, trivial⟩
  refine ⟨m, lines, hm, ?_, h1 14 (by decide), h2⟩
  have := h1 0 (by decide)
  simp only [FizzBuzz] at this
  exact numeral_unique (by omega) this (by decide)

end Blang.Props
