import Verif.Props.EulerDigits
/-
A machine on which the hypotheses of C75 hold.
-/
namespace Blang.Props
open Blang Blang.Spec

def eulerLinks : Bool := match genProg eulerProg newCompiler with
  | .ok _ c => linksCheck ⟨c.globals, c.funcs⟩ && lowCheck ⟨c.globals, c.funcs⟩
  | _ => false

set_option maxRecDepth 20000 in
theorem euler_links : eulerLinks = true := by decide +kernel

theorem euler_ready {m : Module} (ht : TreeOf eulerText eulerProg m) : Module.Links m boot.addr ∧ lowCheck m = true := by
  obtain ⟨_, c, hc, rfl⟩ := ht
  have := euler_links
  rw [eulerLinks, hc, Bool.and_eq_true] at this
  exact ⟨linksCheck_sound this.1, this.2⟩

def aData : Word := bootAddr dataSym
def aV : Word := bootAddr (symbolOf "v".toList)
def aN : Word := bootAddr (symbolOf "n".toList)

/-- the memory with the data -/
def eulerMem : Mem := storeW (storeW (fun _ => 0) aV aData) aN 2000

/-- a process about to start -/
def eulerStart : Store boot.machine.World := ⟨eulerMem, ((0x100000000 : Word), ⟨fun _ => [], [], 0, none, 0, OS.willing⟩)⟩

theorem addrs : aData = 0x1def1001e34cf000#64 ∧ aV = 0x000000165f607000#64 ∧ aN = 0x000000165f5ff000#64 := by decide +kernel

theorem euler_three {m : Module} (hg : m.globals.map (fun g => (g.sym, g.init)) = eulerGlobals) {g : GlobalDef} (h : g ∈ m.globals) :
    (g.sym = dataSym ∧ g.init = .zero 2000) ∨ (g.sym = symbolOf "v".toList ∧ g.init = .arr 1 [.addr dataSym (.arr 2000) 0]) ∨
    (g.sym = symbolOf "n".toList ∧ g.init = .word (.int 2000)) := by
  have : (g.sym, g.init) ∈ eulerGlobals := by rw [← hg]; exact List.mem_map.2 ⟨g, h, rfl⟩
  simp only [eulerGlobals, List.mem_cons, Prod.mk.injEq, List.not_mem_nil, or_false] at this
  exact this

theorem wordsAt_one {mem : Mem} {a v : Word} (h : loadW mem a = v) : WordsAt mem a [v] := by
  intro i hi
  obtain rfl : i = 0 := by simpa using hi
  simpa using h

theorem loadW_zero (a : Word) : loadW (fun _ => 0) a = 0 := by simp [loadW]

theorem euler_data {m : Module} (hg : m.globals.map (fun g => (g.sym, g.init)) = eulerGlobals) : Module.DataIn m boot.addr eulerStart.mem := by
  obtain ⟨k1, k2, k3⟩ := addrs
  intro g hm
  rcases euler_three hg hm with ⟨e1, e2⟩ | ⟨e1, e2⟩ | ⟨e1, e2⟩
  · refine ⟨fun bs hb => (by rw [e2] at hb; cases hb), fun ks hk => ?_⟩
    rw [e2, wordsOf] at hk
    cases hk
    rw [e1]
    intro i hi
    have hi2 : i < 2000 := by simpa only [List.length_map, List.length_replicate] using hi
    rw [List.getElem_map, List.getElem_replicate]
    show loadW eulerMem (aData + 8 * BitVec.ofNat 64 i) = 0
    unfold eulerMem
    rw [k1, k2, k3, loadW_other (by unfold Apart; constructor <;> bv_omega), loadW_other (by unfold Apart; constructor <;> bv_omega)]
    exact loadW_zero _
  · refine ⟨fun bs hb => (by rw [e2] at hb; cases hb), fun ks hk => ?_⟩
    rw [e2] at hk
    cases (show some [Const.addr dataSym (.arr 2000) 0] = some ks from hk)
    rw [e1]
    refine wordsAt_one ?_
    show loadW eulerMem aV = aData + BitVec.ofNat 64 (elemSize (.arr 2000) * 0)
    unfold eulerMem
    rw [loadW_other (by rw [k2, k3]; unfold Apart; constructor <;> bv_omega), loadW_storeW, Nat.mul_zero]
    exact (BitVec.add_zero _).symm
  · refine ⟨fun bs hb => (by rw [e2] at hb; cases hb), fun ks hk => ?_⟩
    rw [e2, wordsOf] at hk
    cases hk
    rw [e1]
    exact wordsAt_one (loadW_storeW _ _ _)

theorem euler_scattered {m : Module} (hg : m.globals.map (fun g => (g.sym, g.init)) = eulerGlobals) : Module.Scattered m boot.addr := by
  obtain ⟨k1, k2, k3⟩ := addrs
  have z : globalSize (.zero 2000) = 16000 := size_zero 2000
  have z2 : globalSize (.arr 1 [.addr dataSym (.arr 2000) 0]) = 8 := rfl
  have z3 : globalSize (.word (.int 2000)) = 8 := rfl
  have a1 : boot.addr dataSym = 0x1def1001e34cf000#64 := k1
  have a2 : boot.addr (symbolOf "v".toList) = 0x000000165f607000#64 := k2
  have a3 : boot.addr (symbolOf "n".toList) = 0x000000165f5ff000#64 := k3
  intro g hm h hm' hne b hb hb'
  rcases euler_three hg hm with ⟨e1, e2⟩ | ⟨e1, e2⟩ | ⟨e1, e2⟩ <;> rcases euler_three hg hm' with ⟨e3, e4⟩ | ⟨e3, e4⟩ | ⟨e3, e4⟩ <;>
    first
    | exact absurd (e1.trans e3.symm) hne
    | (simp only [e1, e2, e3, e4, z, z2, z3, a1, a2, a3] at hb hb'; bv_omega)

/-- C75: on this machine the program runs. -/
example (L : Library) : ∃ m, compileText eulerText .eof = .ok m ∧
    Module.Outputs m boot (boot.calls L.Runs) eulerStart (codes (decimalLines (Real.exp 1 - 2) 4000)) := by
  obtain ⟨m, hm, h⟩ := C75_euler
  obtain ⟨m', hm', ht⟩ := euler_module
  obtain rfl : m = m' := by rw [hm] at hm'; exact (Except.ok.inj hm')
  have hg := globalsAre_sound ht euler_globals
  have hr := euler_ready ht
  have hroom := boot_room (used := Module.Occupies m boot.addr) fun b => low_of hr.2
  exact ⟨m, hm, h boot L hr.1 eulerStart rfl (euler_data hg) (euler_scattered hg) ⟨hroom.1, hroom.2.1, hroom.2.2.1, hroom.2.2.2.1, trivial⟩⟩

/-- the first decimals -/
example : (List.range 5).map (decimal (Real.exp 1 - 2)) = [7, 1, 8, 2, 8] := by
  have e : enough 5 (pairs 10 10) = true := by decide +kernel
  have : ∀ j ∈ List.range 5, decimal (Real.exp 1 - 2) j = Spigot.carry 10 (Spigot.digits 10 j) 10 :=
    fun j hj => (digit_exp e (List.mem_range.1 hj)).symm
  rw [List.map_congr_left this]
  decide +kernel

end Blang.Props
