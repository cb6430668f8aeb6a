import Verif.Props.EulerMain
/-
C75: the whole run of `examples/e-2.b`.
-/
namespace Blang.Props
open Blang Blang.Spec

def dataSym : List Char := "b.v.data".toList

/-- the globals of the module -/
def eulerGlobals : List (List Char × GInit) := [(dataSym, .zero 2000), (symbolOf "v".toList, .arr 1 [.addr dataSym (.arr 2000) 0]),
  (symbolOf "n".toList, .word (.int 2000))]

/-- the globals of the module generated for the program -/
def globalsAre (p : Program) (gs : List (List Char × GInit)) : Bool := match genProg p newCompiler with
  | .ok _ c => c.globals.map (fun g => (g.sym, g.init)) == gs
  | _ => false
theorem globalsAre_sound {text : List Char} {p : Program} {gs : List (List Char × GInit)} {m : Module} (ht : TreeOf text p m)
    (h : globalsAre p gs = true) : m.globals.map (fun g => (g.sym, g.init)) = gs := by
  obtain ⟨_, c, hc, rfl⟩ := ht
  rw [globalsAre, hc] at h
  simpa using h

set_option maxRecDepth 20000 in
theorem euler_globals : globalsAre eulerProg eulerGlobals = true := by decide +kernel

theorem global_in {m : Module} {gs : List (List Char × GInit)} (h : m.globals.map (fun g => (g.sym, g.init)) = gs) {s : List Char} {i : GInit}
    (hs : (s, i) ∈ gs) : ∃ g ∈ m.globals, g.sym = s ∧ g.init = i := by
  rw [← h] at hs
  obtain ⟨g, hg, e⟩ := List.mem_map.1 hs
  exact ⟨g, hg, congrArg Prod.fst e, congrArg Prod.snd e⟩

theorem elem_in {base b : Word} {k : Nat} (hk : k < 2000) (h : InWord (base + 8 * BitVec.ofNat 64 k) b) : (b - base).toNat < 16000 := by
  unfold InWord at h
  bv_omega

theorem elems_apart {base : Word} {k l : Nat} (hk : k < 2000) (hl : l < 2000) (h : k ≠ l) :
    Apart (base + 8 * BitVec.ofNat 64 k) (base + 8 * BitVec.ofNat 64 l) := by
  unfold Apart
  constructor <;> bv_omega

theorem size_zero (n : Nat) : globalSize (.zero n) = 8 * n := by simp [globalSize, wordsOf]

theorem zero_words {m : Module} {addr : List Char → Word} {mem : Mem} (h : Module.DataIn m addr mem) {g : GlobalDef} (hg : g ∈ m.globals) {n : Nat}
    (hi : g.init = .zero n) {k : Nat} (hk : k < n) : loadW mem (addr g.sym + 8 * BitVec.ofNat 64 k) = 0 := by
  have := (h g hg).2 (List.replicate n (.int 0)) (by rw [hi]; rfl) k (by simpa using hk)
  simpa [Const.value] using this

/-- C75. `examples/e-2.b` is accepted, and on every machine with room for the variables the process, its data loaded without overlap,
writes the 4000 digits of the program's arithmetic, and ends with status 0. -/
theorem euler_run : ∃ m, compileText eulerText .eof = .ok m ∧ ∀ (C : Computer) (L : Library), Module.Links m C.addr →
    ∀ σ : Store C.machine.World, (C.see σ).fout = 0 → Module.DataIn m C.addr σ.mem → Module.Scattered m C.addr →
    C.Room 4 σ.world.1 (Module.Occupies m C.addr) →
    Module.Outputs m C (C.calls L.Runs) σ ((List.range' 0 4000).flatMap group ++ codes "\n\n".toList) := by
  obtain ⟨m, hm, ht⟩ := euler_module
  refine ⟨m, hm, fun C L hk σ hf hdata hscat hroom => ?_⟩
  have hg := globalsAre_sound ht euler_globals
  obtain ⟨g1, m1, e1, i1⟩ := global_in hg (s := dataSym) (i := .zero 2000) (by simp [eulerGlobals])
  obtain ⟨g2, m2, e2, i2⟩ := global_in hg (s := symbolOf "v".toList) (i := .arr 1 [.addr dataSym (.arr 2000) 0]) (by simp [eulerGlobals])
  obtain ⟨g3, m3, e3, i3⟩ := global_in hg (s := symbolOf "n".toList) (i := .word (.int 2000)) (by simp [eulerGlobals])
  have z1 : globalSize g1.init = 16000 := by rw [i1, size_zero]
  have z2 : globalSize g2.init = 8 := by rw [i2]; rfl
  have z3 : globalSize g3.init = 8 := by rw [i3]; rfl
  have n12 : dataSym ≠ symbolOf "v".toList := by decide
  have n13 : dataSym ≠ symbolOf "n".toList := by decide
  have n23 : symbolOf "v".toList ≠ symbolOf "n".toList := by decide
  let base := C.addr dataSym
  have dn : loadW σ.mem (C.addr (symbolOf "n".toList)) = 2000 := by
    have := (hdata g3 m3).2 [.int 2000] (by rw [i3]; rfl) 0 (by simp)
    rw [e3] at this
    simpa [Const.value] using this
  have dv : loadW σ.mem (C.addr (symbolOf "v".toList)) = base := by
    have := (hdata g2 m2).2 [.addr dataSym (.arr 2000) 0] (by rw [i2]; rfl) 0 (by simp)
    rw [e2] at this
    simpa [Const.value] using this
  have dw : ∀ k, k < 2000 → loadW σ.mem (base + 8 * BitVec.ofNat 64 k) = 0 := by
    intro k hk
    have := zero_words hdata m1 i1 hk
    rwa [e1] at this
  -- where everything is
  simp only [Computer.Room, and_true] at hroom
  obtain ⟨u0, u1, u2, u3⟩ := hroom
  let w0 := σ.world.1
  let pi := (C.alloc w0 8).1
  let w1 := (C.alloc w0 8).2
  let pc := (C.alloc w1 8).1
  let w2 := (C.alloc w1 8).2
  let pcol := (C.alloc w2 8).1
  let w3 := (C.alloc w2 8).2
  let pa := (C.alloc w3 8).1
  let w4 := (C.alloc w3 8).2
  have ic : Apart pi pc := apart_of fun y h1 h2 => u1 y h1 (.inr h2)
  have icol : Apart pi pcol := apart_of fun y h1 h2 => u2 y h1 (.inl (.inr h2))
  have ia : Apart pi pa := apart_of fun y h1 h2 => u3 y h1 (.inl (.inl (.inr h2)))
  have ccol : Apart pc pcol := apart_of fun y h1 h2 => u2 y h1 (.inr h2)
  have ca : Apart pc pa := apart_of fun y h1 h2 => u3 y h1 (.inl (.inr h2))
  have cola : Apart pcol pa := apart_of fun y h1 h2 => u3 y h1 (.inr h2)
  let occ := Module.Occupies m C.addr
  have ui : ∀ q, (∀ b, InWord q b → occ b) → Apart pi q := fun q hq => apart_of fun y h1 h2 => u0 y h2 (hq y h1)
  have uc : ∀ q, (∀ b, InWord q b → occ b) → Apart pc q := fun q hq => apart_of fun y h1 h2 => u1 y h2 (.inl (hq y h1))
  have ucol : ∀ q, (∀ b, InWord q b → occ b) → Apart pcol q := fun q hq => apart_of fun y h1 h2 => u2 y h2 (.inl (.inl (hq y h1)))
  have ua : ∀ q, (∀ b, InWord q b → occ b) → Apart pa q := fun q hq => apart_of fun y h1 h2 => u3 y h2 (.inl (.inl (.inl (hq y h1))))
  let pn := C.addr (symbolOf "n".toList)
  let pv := C.addr (symbolOf "v".toList)
  let pw := fun k : Nat => base + 8 * BitVec.ofNat 64 k
  have on : ∀ b, InWord pn b → occ b := fun b hb => ⟨g3, m3, by rw [e3, z3]; exact hb⟩
  have ov : ∀ b, InWord pv b → occ b := fun b hb => ⟨g2, m2, by rw [e2, z2]; exact hb⟩
  have ow : ∀ k, k < 2000 → ∀ b, InWord (pw k) b → occ b := fun k hk b hb => ⟨g1, m1, by rw [e1, z1]; exact elem_in hk hb⟩
  have nv : Apart pn pv := apart_of fun y h1 h2 => hscat g2 m2 g3 m3 (by rw [e2, e3]; exact n23) y (by rw [e2, z2]; exact h1) (by rw [e3, z3]; exact h2)
  have nw : ∀ k, k < 2000 → Apart pn (pw k) := fun k hk => apart_of fun y h1 h2 =>
    hscat g1 m1 g3 m3 (by rw [e1, e3]; exact n13) y (by rw [e1, z1]; exact elem_in hk h1) (by rw [e3, z3]; exact h2)
  have vw : ∀ k, k < 2000 → Apart pv (pw k) := fun k hk => apart_of fun y h1 h2 =>
    hscat g1 m1 g2 m2 (by rw [e1, e2]; exact n12) y (by rw [e1, z1]; exact elem_in hk h1) (by rw [e2, z2]; exact h2)
  let at_ : Slot → Word := fun s => match s with
    | .i => pi | .c => pc | .col => pcol | .a => pa | .n => pn | .v => pv | .w k => pw k
  have S : Slots base at_ := by
    refine ⟨?_, fun k _ => rfl⟩
    intro s t hs ht hne
    cases s with
    | i => cases t with
      | i => exact absurd rfl hne
      | c => exact ic
      | col => exact icol
      | a => exact ia
      | n => exact ui _ on
      | v => exact ui _ ov
      | w k => exact ui _ (ow k ht)
    | c => cases t with
      | i => exact ic.symm
      | c => exact absurd rfl hne
      | col => exact ccol
      | a => exact ca
      | n => exact uc _ on
      | v => exact uc _ ov
      | w k => exact uc _ (ow k ht)
    | col => cases t with
      | i => exact icol.symm
      | c => exact ccol.symm
      | col => exact absurd rfl hne
      | a => exact cola
      | n => exact ucol _ on
      | v => exact ucol _ ov
      | w k => exact ucol _ (ow k ht)
    | a => cases t with
      | i => exact ia.symm
      | c => exact ca.symm
      | col => exact cola.symm
      | a => exact absurd rfl hne
      | n => exact ua _ on
      | v => exact ua _ ov
      | w k => exact ua _ (ow k ht)
    | n => cases t with
      | i => exact (ui _ on).symm
      | c => exact (uc _ on).symm
      | col => exact (ucol _ on).symm
      | a => exact (ua _ on).symm
      | n => exact absurd rfl hne
      | v => exact nv
      | w k => exact nw k ht
    | v => cases t with
      | i => exact (ui _ ov).symm
      | c => exact (uc _ ov).symm
      | col => exact (ucol _ ov).symm
      | a => exact (ua _ ov).symm
      | n => exact nv.symm
      | v => exact absurd rfl hne
      | w k => exact vw k ht
    | w k => cases t with
      | i => exact (ui _ (ow k hs)).symm
      | c => exact (uc _ (ow k hs)).symm
      | col => exact (ucol _ (ow k hs)).symm
      | a => exact (ua _ (ow k hs)).symm
      | n => exact (nw k hs).symm
      | v => exact (vw k hs).symm
      | w l => exact elems_apart hs ht fun e => hne (by rw [e])
  -- the beginning of the function
  let P : Place := ⟨(Program.place []).env.enter "main".toList [], (Program.place []).lits⟩
  have hd : eulerProg.Defines "main".toList [] eulerMain P := ⟨[], [_, _], rfl, by simp, rfl⟩
  let σ0 : Store C.machine.World := ⟨storeArgs (C.machine.toB.params σ.world 0).1 [] σ.mem, (C.machine.toB.params σ.world 0).2⟩
  let ρ0 : Frame := bindParams [] (C.machine.toB.params σ.world 0).1 fun _ => none
  let σ1 : Store C.machine.World := (declare C.machine.toB eulerVars ρ0 σ0).2
  let ρ1 : Frame := (declare C.machine.toB eulerVars ρ0 σ0).1
  have em : σ1.mem = storeW (storeW (storeW (storeW σ.mem pi 0) pc 0) pcol 0) pa 0 := rfl
  have A1 : At base at_ σ1.mem ⟨0, 0, 0, 0, fun _ => 0⟩ := by
    intro s hs
    rw [em]
    have other : ∀ q, (∀ b, InWord q b → occ b) → loadW (storeW (storeW (storeW (storeW σ.mem pi 0) pc 0) pcol 0) pa 0) q = loadW σ.mem q :=
      fun q hq => by rw [loadW_other (ua q hq), loadW_other (ucol q hq), loadW_other (uc q hq), loadW_other (ui q hq)]
    cases s with
    | i => exact (loadW_other ia.symm).trans ((loadW_other icol.symm).trans ((loadW_other ic.symm).trans (loadW_storeW _ _ _)))
    | c => exact (loadW_other ca.symm).trans ((loadW_other ccol.symm).trans (loadW_storeW _ _ _))
    | col => exact (loadW_other cola.symm).trans (loadW_storeW _ _ _)
    | a => exact loadW_storeW _ _ _
    | n => exact (other _ on).trans dn
    | v => exact (other _ ov).trans dv
    | w k => exact (other _ (ow k hs)).trans (dw k hs)
  let P2 : Place := (P.after (.extrn ["n".toList, "v".toList])).after (.auto eulerVars)
  have V : EC at_ C.addr P2.env.locals P2.env.exts ρ1 :=
    ⟨by decide, by decide, by decide, by decide, by decide, by decide, by decide, by decide, by decide, by decide, rfl, rfl, rfl, rfl, rfl, rfl⟩
  obtain ⟨σ2, s2, a2, q2⟩ := do_start (C := C) (R := C.calls L.Runs) (P0 := P) (body := eulerMain) S V A1
  obtain ⟨σ3, s3, a3, q3⟩ := fill_loop (C := C) (L := L) (P0 := P) (body := eulerMain) S V 2000 0 rfl _ σ2 a2 rfl (by omega)
  obtain ⟨σ4, s4, o4⟩ := digit_loop (C := C) (L := L) (P0 := P) (body := eulerMain) S V 4000 0 rfl _ σ3 a3 rfl (fun k _ => rfl)
  obtain ⟨v5, σ5, c5, o5⟩ := call_write (L := L) σ4 (w := packed "\n\n".toList) (bs := codes "\n\n".toList) (by decide +kernel)
  have hw : Wr C σ1 ((List.range' 0 4000).flatMap group ++ codes "\n\n".toList) σ5 := by
    have h1 := (Wr.quiet (q3.trans q2)).trans o4
    rw [List.nil_append] at h1
    exact h1.trans o5.wr
  refine outputs_of ht euler_checks.2.1 L hk (ps := []) (body := eulerMain) (by simp [eulerProg])
    (σ' := ⟨σ5.mem, C.machine.toB.leave σ.world σ5.world⟩) (σ'' := σ5) (σ0 := { σ1 with mem := σ5.mem })
    ⟨1, .inr ⟨_, _, _, P, hd, rfl, Nat.le_refl _, σ5, ?_, rfl⟩⟩ rfl rfl hw hf
  refine .head .seq (.head .extrn (.head .endSeq (.head .seq (.head .auto (.head .endSeq (.head .seq (.head (s2 _ _ rfl rfl) (.head .endSeq (.head .seq
    (bsteps_app (s3 _ _ rfl rfl) (.head .endSeq (.head .seq (bsteps_app (s4 _ _ rfl rfl) (.head .endSeq (.head .seq (.head (write_step ?_ ?_ c5) (.head .endSeq (.head .endFun .refl))))))))))))))))))
  · exact V.lw
  · exact V.ew

end Blang.Props
