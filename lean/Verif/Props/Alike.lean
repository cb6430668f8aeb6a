import Verif.Proofs.Alike
import Verif.Props.Process
import Verif.Props.SamplesEndless
/-
C73: the order of the definitions and the choice of names do not matter.
-/
namespace Blang.Props
open Blang Blang.Spec

/-- C73 (in the language). Programs that are alike prescribe the same results of calls, ... -/
theorem alike_returns {p q : Program} {M : IRMachine} {addr : List Char → Word}
    (ha : p.Alike q M.toB.global (M.placed addr).toB.global M.toB.literal (M.placed addr).toB.literal) (X : Calls M.World) (a : Word) (vs : List Word)
    (σ : Store M.World) (v : Word) (σ' : Store M.World) : p.Returns M.toB X a vs σ v σ' ↔ q.Returns (M.placed addr).toB X a vs σ v σ' :=
  ha.returns (B := M.toB) (g := (M.placed addr).toB.global) (l := (M.placed addr).toB.literal) (pm := (M.placed addr).toB.params)
    (fun w n => paramCells_placed M addr w n) X a vs σ v σ'

theorem alike_back {p q : Program} {M : IRMachine} {addr : List Char → Word}
    (ha : p.Alike q M.toB.global (M.placed addr).toB.global M.toB.literal (M.placed addr).toB.literal) :
    q.Alike p (M.placed addr).toB.global ((M.placed addr).placed M.addr).toB.global (M.placed addr).toB.literal
      ((M.placed addr).placed M.addr).toB.literal := alike_symm ha

/-- ... the same calls, ... -/
theorem alike_calls {p q : Program} {M : IRMachine} {addr : List Char → Word}
    (ha : p.Alike q M.toB.global (M.placed addr).toB.global M.toB.literal (M.placed addr).toB.literal) {X : Calls M.World}
    (hq : q.Placed (M.placed addr).toB X) {f f' : Ident} {qs : List Ident} {d : St} (hf' : Decl.func f' qs d ∈ q)
    (he : addr (symbolOf f') = M.addr (symbolOf f)) {args : List Word} {σ : Store M.World} {a : Word} {vs : List Word} {σ' : Store M.World}
    (h : p.Makes M.toB X f args σ a vs σ') : q.Makes (M.placed addr).toB X f' args σ a vs σ' := by
  obtain ⟨f1, e1, ⟨qs1, d1, hm⟩, h1⟩ := alike_makes (B := M.toB) (g := (M.placed addr).toB.global) (l := (M.placed addr).toB.literal)
    (pm := (M.placed addr).toB.params) (fun w n => paramCells_placed M addr w n) ha h
  have : f' = f1 := hq.apart f' qs d f1 qs1 d1 hf' hm (by
    show addr (symbolOf f') = _
    rw [he]
    exact e1.symm)
  rw [this]
  exact h1

/-- ... and go wrong in the same cases. -/
theorem alike_goes_wrong {p q : Program} {M : IRMachine} {addr : List Char → Word}
    (ha : p.Alike q M.toB.global (M.placed addr).toB.global M.toB.literal (M.placed addr).toB.literal) {X : Calls M.World}
    (hq : q.Placed (M.placed addr).toB X) {f f' : Ident} {qs : List Ident} {d : St} (hf' : Decl.func f' qs d ∈ q)
    (he : addr (symbolOf f') = M.addr (symbolOf f)) {args : List Word} {σ : Store M.World}
    (h : p.Wrong M.toB X f args σ) : q.Wrong (M.placed addr).toB X f' args σ := by
  obtain ⟨f1, e1, ⟨qs1, d1, hm⟩, h1⟩ := alike_wrong (B := M.toB) (g := (M.placed addr).toB.global) (l := (M.placed addr).toB.literal)
    (pm := (M.placed addr).toB.params) (fun w n => paramCells_placed M addr w n) ha h
  have : f' = f1 := hq.apart f' qs d f1 qs1 d1 hf' hm (by
    show addr (symbolOf f') = _
    rw [he]
    exact e1.symm)
  rw [this]
  exact h1

/-- C73. Two programs that are alike (see `Spec/Alike`: every function of each has its counterpart in the other, perhaps elsewhere in the text and
with other names; counterparts are at the same addresses): corresponding functions of their modules, called with the same arguments in the same
store, return the same and make the same calls, if the function does not go wrong; and if one goes wrong so does the other. -/
theorem C73_alike {text text' : List Char} {p q : Program} {m m' : Module} (h : TreeOf text p m) (h' : TreeOf text' q m') (ht : p.Tame)
    (ht' : q.Tame) {M : IRMachine} {addr : List Char → Word} {X : Calls M.World} (hl : Loaded m M X) (hl' : Loaded m' (M.placed addr) X)
    (ha : p.Alike q M.toB.global (M.placed addr).toB.global M.toB.literal (M.placed addr).toB.literal)
    {f f' : Ident} {ps qs : List Ident} {b d : St} (hf : Decl.func f ps b ∈ p) (hf' : Decl.func f' qs d ∈ q)
    (he : addr (symbolOf f') = M.addr (symbolOf f)) (args : List Word) (σ : Store M.World) :
    (p.Wrong M.toB X f args σ ↔ q.Wrong (M.placed addr).toB X f' args σ) ∧ (¬ p.Wrong M.toB X f args σ →
      (∀ v σ', Module.Returns m' (M.placed addr) X (addr (symbolOf f')) args σ v σ' ↔ Module.Returns m M X (M.addr (symbolOf f)) args σ v σ') ∧
      ∀ a vs σ', Module.Makes m' (M.placed addr) X (addr (symbolOf f')) args σ a vs σ' ↔
        Module.Makes m M X (M.addr (symbolOf f)) args σ a vs σ') := by
  have hp := placed_of_loaded h ht hl
  have hq := placed_of_loaded h' ht' hl'
  have hw : p.Wrong M.toB X f args σ ↔ q.Wrong (M.placed addr).toB X f' args σ :=
    ⟨alike_goes_wrong ha hq hf' he, alike_goes_wrong (alike_back ha) (X := X) hp hf he.symm⟩
  refine ⟨hw, fun hn => ⟨fun v σ' => ?_, fun a vs σ' => ?_⟩⟩
  · rw [C65_exact_results h' ht' hl' hf' (fun k => hn (hw.2 k)), C65_exact_results h ht hl hf hn]
    show q.Returns (M.placed addr).toB X (addr (symbolOf f')) _ _ _ _ ↔ p.Returns M.toB X (M.addr (symbolOf f)) _ _ _ _
    rw [he]
    exact (alike_returns ha X _ _ _ _ _).symm
  · rw [C66_exact_calls h' ht' hl' hf' (fun k => hn (hw.2 k)), C66_exact_calls h ht hl hf hn]
    exact ⟨alike_calls (alike_back ha) (X := X) hp hf he.symm, alike_calls ha hq hf' he⟩

/-- the functions of a module are those of the program -/
theorem module_code {text : List Char} {p : Program} {m : Module} (h : TreeOf text p m) :
    (∀ f ps b, Decl.func f ps b ∈ p → ∃ F ∈ m.funcs, F.sym = symbolOf f ∧ F.blocks ≠ []) ∧
    ∀ F ∈ m.funcs, F.blocks ≠ [] → ∃ f ps b, Decl.func f ps b ∈ p ∧ F.sym = symbolOf f := by
  have hn := reads_names h.1
  obtain ⟨c, hb, rfl⟩ := tree_between h
  constructor
  · intro f ps b hf
    obtain ⟨ps', b', P, hd⟩ := defines_exists p ⟨ps, b, hf⟩
    obtain ⟨E, c1, ss, F, hK, hI, ⟨r⟩, hF, hs, rfl, hT, hnf⟩ := hb.defines hn hd
    refine ⟨F, hF, hs, ?_⟩
    have hok := (hn _ (defines_mem hd)).2
    exact r.ne hok.1 hok.2
  · intro F hF hB
    obtain ⟨g, ps, b, P, e, pre, post, rfl, _⟩ := code_origin hb hn hF hB
    exact ⟨g, ps, b, by simp, e⟩

/-- what a program's functions need to be loaded properly depends on their addresses only -/
theorem loaded_other {text text' : List Char} {p q : Program} {m m' : Module} (h : TreeOf text p m) (h' : TreeOf text' q m') {M : IRMachine}
    {addr : List Char → Word} {X : Calls M.World} (hl : Loaded m M X)
    (hs : ∀ f qs d, Decl.func f qs d ∈ q → ∃ ps b, Decl.func f ps b ∈ p) (ha : ∀ x, addr (symbolOf x) = M.addr (symbolOf x)) :
    Loaded m' (M.placed addr) X := by
  have back : ∀ F ∈ m'.funcs, F.blocks ≠ [] → ∃ G ∈ m.funcs, G.sym = F.sym ∧ G.blocks ≠ [] ∧ addr F.sym = M.addr G.sym := by
    intro F hF hB
    obtain ⟨f, qs, d, hm, e⟩ := (module_code h').2 F hF hB
    obtain ⟨ps, b, hm'⟩ := hs f qs d hm
    obtain ⟨G, h1, h2, h3⟩ := (module_code h).1 f ps b hm'
    exact ⟨G, h1, by rw [h2, e], h3, by rw [e, h2, ha]⟩
  refine ⟨hl.functional, fun F hF hB args σ v σ' hx => ?_, fun F hF G hG hB1 hB2 e => ?_⟩
  · obtain ⟨G, h1, _, h3, h4⟩ := back F hF hB
    refine hl.external G h1 h3 args σ v σ' ?_
    rw [← h4]; exact hx
  · obtain ⟨F1, h1, h2, h3, h4⟩ := back F hF hB1
    obtain ⟨G1, k1, k2, k3, k4⟩ := back G hG hB2
    rw [← h2, ← k2]
    refine hl.apart F1 h1 G1 k1 h3 k3 ?_
    rw [← h4, ← k4]; exact e

/-- C73, order. Two texts with the same declarations in another order, where no function and no variable is declared twice.  The string literals come
in another order, too: the `n`-th of the second is the `φ n`-th of the first.  When everything is placed where it is placed for the first,
the functions of the second module return the same and make the same calls as those of the first, and memory that is initially as the first
program says is as the second says. -/
theorem C73_order {text text' : List Char} {p q : Program} {m m' : Module} (h : TreeOf text p m) (h' : TreeOf text' q m') (ht : p.Tame)
    (ht' : q.Tame) (hp : p.Perm q) (hn : p.defined.Nodup) (hv : (p.filterMap Decl.var?).Nodup) :
    ∃ φ : Nat → Nat, p.Renumbered q φ ∧ ∀ (M : IRMachine) (addr : List Char → Word) (X : Calls M.World),
      (∀ x, addr (symbolOf x) = M.addr (symbolOf x)) → (∀ n, addr (strSym n) = M.addr (strSym (φ n))) → Loaded m M X →
      Loaded m' (M.placed addr) X ∧ (∀ mem, p.Initial M.toB mem → q.Initial (M.placed addr).toB mem) ∧
      ∀ f ps b, Decl.func f ps b ∈ p → ∀ args σ, ¬ p.Wrong M.toB X f args σ →
        ¬ q.Wrong (M.placed addr).toB X f args σ ∧
        (∀ v σ', Module.Returns m' (M.placed addr) X (M.addr (symbolOf f)) args σ v σ' ↔ Module.Returns m M X (M.addr (symbolOf f)) args σ v σ') ∧
        ∀ a vs σ', Module.Makes m' (M.placed addr) X (M.addr (symbolOf f)) args σ a vs σ' ↔ Module.Makes m M X (M.addr (symbolOf f)) args σ a vs σ' := by
  obtain ⟨φ, hφ⟩ := renumbered hp
  refine ⟨φ, hφ, fun M addr X hg hs hl => ?_⟩
  have hl' : Loaded m' (M.placed addr) X := loaded_other h h' hl (fun f qs d hm => ⟨qs, d, hp.mem_iff.2 hm⟩) hg
  refine ⟨hl', fun mem hi => perm_initial hp hv hφ hg hs hi, fun f ps b hf args σ hw => ?_⟩
  have ha : p.Alike q M.toB.global (M.placed addr).toB.global M.toB.literal (M.placed addr).toB.literal := by
    have := perm_alike hp hn hφ M.toB.global (l := M.toB.literal) (l' := (M.placed addr).toB.literal) hs
    rw [show (M.placed addr).toB.global = M.toB.global from funext hg]
    exact this
  obtain ⟨k1, k2⟩ := C73_alike h h' ht ht' hl hl' ha hf (hp.mem_iff.1 hf) (hg f) args σ
  obtain ⟨k3, k4⟩ := k2 hw
  rw [hg f] at k3 k4
  exact ⟨fun k => hw (k1.2 k), k3, k4⟩

/-- C73, names. Two texts that differ in names only: `Program.Renamed` says that each function has its own renaming of variables and
functions and of labels, and that what is global is at the same address.  Corresponding functions of the modules return the same and make the same calls. -/
theorem C73_names {text text' : List Char} {p q : Program} {m m' : Module} (h : TreeOf text p m) (h' : TreeOf text' q m') (ht : p.Tame)
    (ht' : q.Tame) {M : IRMachine} {addr : List Char → Word} {X : Calls M.World} (hl : Loaded m M X) (hl' : Loaded m' (M.placed addr) X)
    (hr : Program.Renamed (fun x => M.addr (symbolOf x)) (fun x => addr (symbolOf x)) p q)
    (hs : ∀ n < p.literals, addr (strSym n) = M.addr (strSym n))
    {f f' : Ident} {ps qs : List Ident} {b d : St} (hf : Decl.func f ps b ∈ p) (hf' : Decl.func f' qs d ∈ q)
    (he : addr (symbolOf f') = M.addr (symbolOf f)) (args : List Word) (σ : Store M.World) (hw : ¬ p.Wrong M.toB X f args σ) :
    ¬ q.Wrong (M.placed addr).toB X f' args σ ∧
    (∀ v σ', Module.Returns m' (M.placed addr) X (addr (symbolOf f')) args σ v σ' ↔ Module.Returns m M X (M.addr (symbolOf f)) args σ v σ') ∧
    ∀ a vs σ', Module.Makes m' (M.placed addr) X (addr (symbolOf f')) args σ a vs σ' ↔ Module.Makes m M X (M.addr (symbolOf f)) args σ a vs σ' := by
  have mem : ∀ (p : Program) (f : Ident), f ∈ p.defined → ∃ ps b, Decl.func f ps b ∈ p := by
    intro p f hf
    simp only [Program.defined, List.mem_filterMap] at hf
    obtain ⟨d, hd, e⟩ := hf
    cases d with
    | func g ps b => cases e; exact ⟨ps, b, hd⟩
    | _ => cases e
  have ha := renamed_alike hr (l := M.toB.literal) (l' := (M.placed addr).toB.literal)
    (fun f hf f' hf' e => by
      obtain ⟨ps, b, k⟩ := mem p f hf
      obtain ⟨ps', b', k'⟩ := mem p f' hf'
      exact (placed_of_loaded h ht hl).apart _ _ _ _ _ _ k k' e)
    (fun f hf f' hf' e => by
      obtain ⟨ps, b, k⟩ := mem q f hf
      obtain ⟨ps', b', k'⟩ := mem q f' hf'
      exact (placed_of_loaded h' ht' hl').apart _ _ _ _ _ _ k k' e) hs
  obtain ⟨k1, k2⟩ := C73_alike h h' ht ht' hl hl' ha hf hf' he args σ
  exact ⟨fun k => hw (k1.2 k), k2 hw⟩

/-- C73, local names: a text in which the parameters, `auto` variables and labels of a function are called differently, everything else being the
same.  Nothing changes. -/
theorem C73_locals {text text' : List Char} {pre post : Program} {f : Ident} {ps : List Ident} {b : St} (r t : Renaming) {m m' : Module}
    (h : TreeOf text (pre ++ .func f ps b :: post) m) (h' : TreeOf text' (pre ++ .func f (ps.map r.to) (b.rename r.to t.to) :: post) m')
    (hr : ∀ x ∈ b.globals (Env.empty.enter f ps), r.to x = x)
    (ht : Program.Tame (pre ++ .func f ps b :: post)) (ht' : Program.Tame (pre ++ .func f (ps.map r.to) (b.rename r.to t.to) :: post))
    {M : IRMachine} {X : Calls M.World} (hl : Loaded m M X) {g : Ident} {qs : List Ident} {d : St}
    (hg : Decl.func g qs d ∈ pre ++ .func f ps b :: post) (args : List Word) (σ : Store M.World)
    (hw : ¬ Program.Wrong (pre ++ .func f ps b :: post) M.toB X g args σ) :
    (∀ v σ', Module.Returns m' M X (M.addr (symbolOf g)) args σ v σ' ↔ Module.Returns m M X (M.addr (symbolOf g)) args σ v σ') ∧
    ∀ a vs σ', Module.Makes m' M X (M.addr (symbolOf g)) args σ a vs σ' ↔ Module.Makes m M X (M.addr (symbolOf g)) args σ a vs σ' := by
  have same : ∀ (G : Ident → Word) (p : Program), Program.Renamed G G p p := by
    intro G p
    induction p with
    | nil => exact .nil
    | cons d p ih =>
      cases d with
      | global x vals => exact .global rfl ih
      | vector x n vals => exact .vector rfl ih
      | func f ps b =>
        have := Program.Renamed.func (g := G) (g' := G) (f := f) (f' := f) (ps := ps) (b := b) .none .none rfl (fun _ _ => rfl) ih
        rw [show Renaming.none.to = id from rfl, List.map_id, renameSt_id] at this
        exact this
  have hR : ∀ (G : Ident → Word) (pre : Program), Program.Renamed G G (pre ++ .func f ps b :: post)
      (pre ++ .func f (ps.map r.to) (b.rename r.to t.to) :: post) := by
    intro G pre
    induction pre with
    | nil => exact .func r t rfl (fun x hx => by rw [hr x hx]) (same G post)
    | cons d p ih =>
      cases d with
      | global x vals => exact .global rfl ih
      | vector x n vals => exact .vector rfl ih
      | func f ps b =>
        have := Program.Renamed.func (g := G) (g' := G) (f := f) (f' := f) (ps := ps) (b := b) .none .none rfl (fun _ _ => rfl) ih
        rw [show Renaming.none.to = id from rfl, List.map_id, renameSt_id] at this
        exact this
  have hdef : ∀ k qs d, Decl.func k qs d ∈ pre ++ .func f ps b :: post →
      ∃ qs d, Decl.func k qs d ∈ pre ++ .func f (ps.map r.to) (b.rename r.to t.to) :: post := by
    intro k qs d hm
    simp only [List.mem_append, List.mem_cons, Decl.func.injEq] at hm ⊢
    rcases hm with hm | ⟨rfl, _⟩ | hm
    · exact ⟨_, _, .inl hm⟩
    · exact ⟨_, _, .inr (.inl ⟨rfl, rfl, rfl⟩)⟩
    · exact ⟨_, _, .inr (.inr hm)⟩
  have hdef' : ∀ k qs d, Decl.func k qs d ∈ pre ++ .func f (ps.map r.to) (b.rename r.to t.to) :: post →
      ∃ qs d, Decl.func k qs d ∈ pre ++ .func f ps b :: post := by
    intro k qs d hm
    simp only [List.mem_append, List.mem_cons, Decl.func.injEq] at hm ⊢
    rcases hm with hm | ⟨rfl, _⟩ | hm
    · exact ⟨_, _, .inl hm⟩
    · exact ⟨_, _, .inr (.inl ⟨rfl, rfl, rfl⟩)⟩
    · exact ⟨_, _, .inr (.inr hm)⟩
  have hl' : Loaded m' (M.placed M.addr) X := loaded_other h h' hl hdef' (fun _ => rfl)
  obtain ⟨qs', d', hg'⟩ := hdef g qs d hg
  exact (C73_names h h' ht ht' hl hl' (hR _ pre) (fun _ _ => rfl) hg hg' rfl args σ hw).2

/-- the same computer with the symbols in other places -/
abbrev placedComputer (C : Computer) (addr : List Char → Word) : Computer := { C with addr := addr }

/-- C73, processes: the order of the declarations does not change what the process does, that is, what it writes, reads and stores, and how it ends. -/
theorem C73_process {text text' : List Char} {p q : Program} {m m' : Module} (h : TreeOf text p m) (h' : TreeOf text' q m') (ht : p.Tame)
    (ht' : q.Tame) (hp : p.Perm q) (hn : p.defined.Nodup) (hv : (p.filterMap Decl.var?).Nodup) (L : Library) :
    ∃ φ : Nat → Nat, p.Renumbered q φ ∧ ∀ (C : Computer) (addr : List Char → Word),
      (∀ x, addr (symbolOf x) = C.addr (symbolOf x)) → (∀ n, addr (strSym n) = C.addr (strSym (φ n))) → Module.Links m C.addr →
      ∀ ps b, Decl.func "main".toList ps b ∈ p → ∀ σ, ¬ p.Wrong C.machine.toB (C.calls L.Runs) "main".toList [] σ → ∀ status σ',
        Module.Ends m' (placedComputer C addr).machine ((placedComputer C addr).calls L.Runs) σ status σ' ↔
          Module.Ends m C.machine (C.calls L.Runs) σ status σ' := by
  obtain ⟨φ, hφ, key⟩ := C73_order h h' ht ht' hp hn hv
  refine ⟨φ, hφ, fun C addr hg hs hk ps b hf σ hw status σ' => ?_⟩
  obtain ⟨_, _, k⟩ := key C.machine addr (C.calls L.Runs) hg hs (loaded_of_links hk)
  obtain ⟨_, k1, k2⟩ := k _ ps b hf [] σ hw
  have e : (placedComputer C addr).calls L.Runs = C.calls L.Runs := by
    funext a vs s v s'
    simp only [Computer.calls, hg]
    rfl
  rw [e]
  have hm : (placedComputer C addr).machine.addr (symbolOf "main".toList) = C.machine.addr (symbolOf "main".toList) := hg _
  have hx : (placedComputer C addr).machine.addr (symbolOf "exit".toList) = C.machine.addr (symbolOf "exit".toList) := hg _
  unfold Module.Ends
  rw [hm, hx]
  exact or_congr (k1 status σ') (and_congr Iff.rfl (exists_congr fun vs => k2 _ vs σ'))

/-! ### samples -/

/-- symbols can be placed as the theorems require -/
theorem placement (addr0 : List Char → Word) (φ : Nat → Nat) :
    ∃ addr : List Char → Word, (∀ x, addr (symbolOf x) = addr0 (symbolOf x)) ∧ ∀ n, addr (strSym n) = addr0 (strSym (φ n)) := by
  classical
  refine ⟨fun s => if h : ∃ n, s = strSym n then addr0 (strSym (φ h.choose)) else addr0 s, fun x => ?_, fun n => ?_⟩
  · refine dif_neg ?_
    rintro ⟨n, e⟩
    refine symbolOf_head x ?_
    rw [e]; rfl
  · have h : ∃ i, strSym n = strSym i := ⟨n, rfl⟩
    show (if h : ∃ i, strSym n = strSym i then addr0 (strSym (φ h.choose)) else _) = _
    rw [dif_pos h, ← strSym_inj h.choose_spec]

def orderText1 : List Char := List.flatten [
  "n 2;\n".toList,
  "main() { extrn n; return (f(\"ab\", n)); }\n".toList,
  "f(s, k) { auto i; i = 0; top: if (i < k) { i++; goto top; } return (ext(i) + (s != \"cd\")); }\n".toList]
def orderText2 : List Char := List.flatten [
  "f(s, k) { auto i; i = 0; top: if (i < k) { i++; goto top; } return (ext(i) + (s != \"cd\")); }\n".toList,
  "main() { extrn n; return (f(\"ab\", n)); }\n".toList,
  "n 2;\n".toList]
/-- `s` is called `i` and `i` is called `s`, and the label `top` is called `i` -/
def orderText3 : List Char := List.flatten [
  "n 2;\n".toList,
  "main() { extrn n; return (f(\"ab\", n)); }\n".toList,
  "f(i, k) { auto s; s = 0; i: if (s < k) { s++; goto i; } return (ext(s) + (i != \"cd\")); }\n".toList]

def orderMain : Decl := .func ['m', 'a', 'i', 'n'] [] (.seq (.extrn [['n']]) (.seq (.ret (some (.callName ['f'] [.str [97, 98], .var ['n']]))) .skip))
def orderVar : Decl := .global ['n'] [.int 2]
def orderBody : St := .seq (.auto [(['i'], none)]) (.seq (.expr (.assign none (.var ['i']) (.num 0))) (.seq
  (.label ['t', 'o', 'p'] (.ifThen (.bin .lt (.var ['i']) (.var ['k'])) (.seq (.expr (.post .inc (.var ['i']))) (.seq (.goto ['t', 'o', 'p']) .skip))))
  (.seq (.ret (some (.bin .add (.callName ['e', 'x', 't'] [.var ['i']]) (.paren (.bin .ne (.var ['s']) (.str [99, 100])))))) .skip)))
def orderProg1 : Program := [orderVar, orderMain, .func ['f'] [['s'], ['k']] orderBody]
def orderProg2 : Program := [.func ['f'] [['s'], ['k']] orderBody, orderMain, orderVar]
def orderVars : Renaming := .swap ['s'] ['i']
def orderLabels : Renaming := .swap ['t', 'o', 'p'] ['i']
def orderProg3 : Program := [orderVar, orderMain, .func ['f'] ([['s'], ['k']].map orderVars.to) (orderBody.rename orderVars.to orderLabels.to)]

/-- what is required of a text and its program -/
def orderAccepts (text : List Char) (p : Program) : Bool :=
  Program.isSame p (refParse prec text) && decide p.Tame && decide p.Clear && decide (Program.Scoped Env.empty p ∧ ∀ d ∈ p, d.CasesOk)

set_option maxRecDepth 20000 in
theorem order_checks : orderAccepts orderText1 orderProg1 = true ∧ orderAccepts orderText2 orderProg2 = true ∧ orderAccepts orderText3 orderProg3 = true ∧
    (match compileText orderText1 .eof with | .ok m => loadedCheck m | .error _ => false) = true ∧
    (callI orderProg1 simM.toB simExt 40 3 (simM.toB.global "f".toList) [5, 3] simS).map (·.1) = some 4 := by
  decide +kernel

attribute [irreducible] orderText1 orderText2 orderText3

theorem orderAccepts_module {text : List Char} {p : Program} (h : orderAccepts text p = true) :
    (∃ m, compileText text .eof = .ok m ∧ TreeOf text p m) ∧ p.Tame := by
  simp only [orderAccepts, Bool.and_eq_true, decide_eq_true_eq] at h
  obtain ⟨⟨⟨h1, h2⟩, h3⟩, h4⟩ := h
  exact ⟨careful_module (refParse_sound (Program.eq_of_same h1)) h3 h4, h2⟩

/-- the first text: its module can be loaded, and `f(5, 3)` returns 4 -/
theorem order_first : ∃ m, compileText orderText1 .eof = .ok m ∧ TreeOf orderText1 orderProg1 m ∧ orderProg1.Tame ∧ Loaded m simM simX ∧
    (∃ σ', Module.Returns m simM simX (simM.addr (symbolOf "f".toList)) [5, 3] simS 4 σ') ∧
    ¬ orderProg1.Wrong simM.toB simX "f".toList [5, 3] simS := by
  obtain ⟨⟨m, h1, h2⟩, ht⟩ := orderAccepts_module order_checks.1
  have hl := order_checks.2.2.2.1
  rw [h1] at hl
  have hl := loadedCheck_sound hl
  have hc := order_checks.2.2.2.2
  simp only [Option.map_eq_some_iff, Prod.exists, exists_and_right, exists_eq_right] at hc
  obtain ⟨σ', hc⟩ := hc
  have hr : orderProg1.Returns simM.toB simX (simM.toB.global "f".toList) [5, 3] simS 4 σ' := ⟨3, callI_sound simExt_sound 3 _ _ _ _ _ hc⟩
  have hw := C65_returns_right (placed_of_loaded h2 ht hl) hr
  refine ⟨m, h1, h2, ht, hl, ⟨σ', ?_⟩, hw⟩
  exact (C65_exact_results h2 ht hl (ps := [['s'], ['k']]) (body := orderBody) (by simp [orderProg1]) hw 4 σ').2 hr

/-- C73: the declarations of the second text are those of the first in another order, and the two modules do the same. -/
example : ∃ m m', compileText orderText1 .eof = .ok m ∧ compileText orderText2 .eof = .ok m' ∧ ∃ addr : List Char → Word,
    (∀ x, addr (symbolOf x) = simM.addr (symbolOf x)) ∧
    (∀ v σ', Module.Returns m' (simM.placed addr) simX (simM.addr (symbolOf "f".toList)) [5, 3] simS v σ' ↔
      Module.Returns m simM simX (simM.addr (symbolOf "f".toList)) [5, 3] simS v σ') ∧
    ∃ σ', Module.Returns m' (simM.placed addr) simX (simM.addr (symbolOf "f".toList)) [5, 3] simS 4 σ' := by
  obtain ⟨m, h1, h2, ht, hl, ⟨σ', hr⟩, hw⟩ := order_first
  obtain ⟨⟨m', h1', h2'⟩, ht'⟩ := orderAccepts_module order_checks.2.1
  have hp : orderProg1.Perm orderProg2 := (List.Perm.swap _ _ _).trans ((List.Perm.cons _ (.swap _ _ _)).trans (.swap _ _ _))
  obtain ⟨φ, _, key⟩ := C73_order h2 h2' ht ht' hp (by decide) (by decide)
  obtain ⟨addr, ha, hs⟩ := placement simM.addr φ
  obtain ⟨_, _, k⟩ := key simM addr simX ha hs hl
  obtain ⟨_, k1, _⟩ := k ['f'] [['s'], ['k']] orderBody (by simp [orderProg1]) [5, 3] simS hw
  exact ⟨m, m', h1, h1', addr, ha, k1, σ', (k1 _ _).2 hr⟩

/-- C73: in the third text variables and a label are called differently, and the two modules do the same. -/
example : ∃ m m', compileText orderText1 .eof = .ok m ∧ compileText orderText3 .eof = .ok m' ∧
    (∀ v σ', Module.Returns m' simM simX (simM.addr (symbolOf "f".toList)) [5, 3] simS v σ' ↔
      Module.Returns m simM simX (simM.addr (symbolOf "f".toList)) [5, 3] simS v σ') ∧
    ∃ σ', Module.Returns m' simM simX (simM.addr (symbolOf "f".toList)) [5, 3] simS 4 σ' := by
  obtain ⟨m, h1, h2, ht, hl, ⟨σ', hr⟩, hw⟩ := order_first
  obtain ⟨⟨m', h1', h2'⟩, ht'⟩ := orderAccepts_module order_checks.2.2.1
  obtain ⟨k1, _⟩ := C73_locals (pre := [orderVar, orderMain]) (f := ['f']) (ps := [['s'], ['k']]) (b := orderBody) (post := []) orderVars orderLabels
    h2 h2' (by decide) ht ht' hl (g := ['f']) (qs := [['s'], ['k']]) (d := orderBody) (by simp) [5, 3] simS hw
  exact ⟨m, m', h1, h1', k1, σ', (k1 _ _).2 hr⟩

end Blang.Props
