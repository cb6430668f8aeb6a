import Verif.Proofs.Locals
import Verif.Proofs.Undefined
import Verif.Props.Semantics
/-
Properties C19, C20, C54: the blocks of the emitted functions.

Vocabulary: `Verif/Spec/Paths.lean` (paths through emitted code), `Verif/Spec/Names.lean` (labels and
gotos of a statement), `Verif/Spec/Module.lean` (symbols).
-/
namespace Blang.Props
open Blang Blang.Spec

/-- `F` is the code of the function `f(ps) b` of the program `p`. -/
def CodeOf (p : Program) (F : Func) (f : Ident) (ps : List Ident) (b : St) : Prop :=
  Decl.func f ps b ∈ p ∧ F.sym = symbolOf f ∧ F.params = ps.take 1

/-- The names of all blocks in the function are different and none is the name of a parameter. -/
def NamesApart (F : Func) : Prop := (F.blocks.map (·.name)).Nodup ∧ ∀ B ∈ F.blocks, B.name ∉ F.params

/-- **C19**, as far as it holds: in an accepted program the block names of a function are different
from each other and from the parameter, unless a label in it is called `entry` or like the first
parameter, or the first parameter is called `entry`.  (Parameters after the first are no parameters of
the emitted function.)  The three exceptions are real: see the counterexamples below. -/
theorem C19_block_names_partial {chars : List Char} {t : Tail} {m : Module} (h : compileText chars t = .ok m) :
    ∃ p, Reads true chars p ∧ ∀ F ∈ m.funcs, F.blocks ≠ [] → ∃ f ps b, CodeOf p F f ps b ∧
      ("entry".toList ∉ b.labels → "entry".toList ∉ b.gotos → ps.head? ≠ some "entry".toList →
       (∀ x, ps.head? = some x → x ∉ b.labels ∧ x ∉ b.gotos) → NamesApart F) := by
  obtain ⟨p, h1, hn, h2⟩ := compile_source h
  refine ⟨p, h1, fun F hF hB => ?_⟩
  obtain ⟨f, ps, b, hd, s⟩ := h2 F hF hB
  obtain ⟨c, ⟨r⟩, _⟩ := s.run
  refine ⟨f, ps, b, ⟨hd, s.sym, s.params⟩, ?_⟩
  intro e1 e2 e3 e4
  have hna := (hn _ hd).2.2
  have hps := (hn _ hd).2.1
  obtain ⟨new, k1, k2, k3, _⟩ := FuncRun.blockNames (P := fun l => NameOk l ∧ (l ∈ b.labels ∨ l ∈ b.gotos)) (fun n hn => nameOk_no_dot hn.1) r
    (fun l hl => ⟨gotos_all b hna l hl, .inr hl⟩) (fun l hl => ⟨labels_all b hna l hl, .inl hl⟩)
  refine ⟨?_, ?_⟩
  · rw [k1, List.nodup_cons]
    refine ⟨fun hm => ?_, k2⟩
    rcases k3 _ hm with hx | hx
    · exact hx.2.elim e1 e2
    · exact absurd hx (by decide)
  · intro B hB hx
    rw [s.params] at hx
    have hx' : ps.head? = some B.name := by
      cases ps with
      | nil => cases hx
      | cons q qs => simp at hx; simp [hx]
    have hm : B.name ∈ F.blocks.map (·.name) := List.mem_map_of_mem hB
    rw [k1] at hm
    rcases List.mem_cons.1 hm with hx2 | hx2
    · rw [hx2] at hx'; exact e3 hx'
    · rcases k3 _ hx2 with hx3 | hx3
      · have := e4 _ hx'; exact hx3.2.elim this.1 this.2
      · exact nameOk_no_dot (hps _ (List.mem_of_mem_head? hx')) hx3

/-- **C19**, the exact condition: in an accepted program the block names of a function are different
from each other and from the parameter if and only if no label that it defines or jumps to is called
`entry` or like the first parameter, and the first parameter is not called `entry`. -/
theorem C19_exact {chars : List Char} {t : Tail} {m : Module} (h : compileText chars t = .ok m) :
    ∃ p, Reads true chars p ∧ ∀ F ∈ m.funcs, F.blocks ≠ [] → ∃ f ps b, CodeOf p F f ps b ∧
      (NamesApart F ↔ (∀ l, l ∈ b.labels ∨ l ∈ b.gotos → l ≠ "entry".toList ∧ ps.head? ≠ some l) ∧ ps.head? ≠ some "entry".toList) := by
  obtain ⟨p, h1, hn, h2⟩ := compile_source h
  refine ⟨p, h1, fun F hF hB => ?_⟩
  obtain ⟨f, ps, b, hd, s⟩ := h2 F hF hB
  obtain ⟨c, ⟨r⟩, _⟩ := s.run
  refine ⟨f, ps, b, ⟨hd, s.sym, s.params⟩, ?_⟩
  have hna := (hn _ hd).2.2
  have hps := (hn _ hd).2.1
  have hpar : ∀ x, x ∈ F.params ↔ ps.head? = some x := by
    intro x
    rw [s.params]
    cases ps with
    | nil => simp
    | cons q qs => simp [eq_comm]
  obtain ⟨new, k1, k2, k3, k4⟩ := FuncRun.blockNames (P := fun l => NameOk l ∧ (l ∈ b.labels ∨ l ∈ b.gotos)) (fun n hn => nameOk_no_dot hn.1) r
    (fun l hl => ⟨gotos_all b hna l hl, .inr hl⟩) (fun l hl => ⟨labels_all b hna l hl, .inl hl⟩)
  have hname : ∀ n, n ∈ "entry".toList :: new → ∃ B ∈ F.blocks, B.name = n := by
    intro n hm
    rw [← k1, List.mem_map] at hm
    exact hm
  constructor
  · rintro ⟨a1, a2⟩
    rw [k1, List.nodup_cons] at a1
    refine ⟨fun l hl => ⟨?_, ?_⟩, ?_⟩
    · rintro rfl; exact a1.1 (k4 _ hl)
    · intro e
      obtain ⟨B, hB, hx⟩ := hname l (List.mem_cons_of_mem _ (k4 _ hl))
      exact a2 B hB (by rw [hx, hpar]; exact e)
    · intro e
      obtain ⟨B, hB, hx⟩ := hname _ List.mem_cons_self
      exact a2 B hB (by rw [hx, hpar]; exact e)
  · rintro ⟨e1, e2⟩
    refine ⟨?_, ?_⟩
    · rw [k1, List.nodup_cons]
      refine ⟨fun hm => ?_, k2⟩
      rcases k3 _ hm with hx | hx
      · exact (e1 _ hx.2).1 rfl
      · exact absurd hx (by decide)
    · intro B hB hx
      rw [hpar] at hx
      have hm : B.name ∈ F.blocks.map (·.name) := List.mem_map_of_mem hB
      rw [k1] at hm
      rcases List.mem_cons.1 hm with hx2 | hx2
      · rw [hx2] at hx; exact e2 hx
      · rcases k3 _ hx2 with hx3 | hx3
        · exact (e1 _ hx3.2).2 hx
        · exact nameOk_no_dot (hps _ (List.mem_of_mem_head? hx)) hx3

/-- **C20**, as far as it holds: in an accepted program every block of a function has its terminator,
provided that every label named in a `goto` of the function is defined in it.  (A block has at most one
terminator by the type of blocks.) -/
theorem C20_terminated_partial {chars : List Char} {t : Tail} {m : Module} (h : compileText chars t = .ok m) :
    ∃ p, Reads true chars p ∧ ∀ F ∈ m.funcs, F.blocks ≠ [] → ∃ f ps b, CodeOf p F f ps b ∧
      ((∀ l ∈ b.gotos, l ∈ b.labels) → ∀ B ∈ F.blocks, ∃ t, B.term = some t) := by
  obtain ⟨p, h1, hn, h2⟩ := compile_source h
  refine ⟨p, h1, fun F hF hB => ?_⟩
  obtain ⟨f, ps, b, hd, s⟩ := h2 F hF hB
  obtain ⟨c, ⟨r⟩, _⟩ := s.run
  refine ⟨f, ps, b, ⟨hd, s.sym, s.params⟩, fun hg B hB => ?_⟩
  exact Option.ne_none_iff_exists'.1 (r.terminated hg B hB)

/-- **C20**, the exact condition: in an accepted program all blocks of a function have their terminators
if and only if every label named in a `goto` of the function is defined in it. -/
theorem C20_exact {chars : List Char} {t : Tail} {m : Module} (h : compileText chars t = .ok m) :
    ∃ p, Reads true chars p ∧ ∀ F ∈ m.funcs, F.blocks ≠ [] → ∃ f ps b, CodeOf p F f ps b ∧
      ((∀ B ∈ F.blocks, ∃ t, B.term = some t) ↔ ∀ l ∈ b.gotos, l ∈ b.labels) := by
  obtain ⟨p, h1, hn, h2⟩ := compile_source h
  refine ⟨p, h1, fun F hF hB => ?_⟩
  obtain ⟨f, ps, b, hd, s⟩ := h2 F hF hB
  obtain ⟨c, ⟨r⟩, _⟩ := s.run
  refine ⟨f, ps, b, ⟨hd, s.sym, s.params⟩, ?_, fun hg B hB => Option.ne_none_iff_exists'.1 (r.terminated hg B hB)⟩
  intro ht l hl
  apply Classical.byContradiction
  intro hc
  obtain ⟨B, hB, hnone⟩ := r.hangs (nameOk_no_dot (gotos_all b (hn _ hd).2.2 l hl)) hl hc
  obtain ⟨t, e⟩ := ht B hB
  rw [hnone] at e; cases e

theorem source_locals {p : Program} {c0 : CState} {f : Ident} {ps : List Ident} {b : St} {F : Func} (s : Source p c0 f ps b F) (ha : b.AutosFirst) {a : Nat}
    (hl : LocalAddr F.blocks a) : ComputedBeforeUse F.blocks a := by
  obtain ⟨c, ⟨r⟩, x1, x2, _⟩ := s.run
  have hc1 := declareFunction_eq f ps c
  rw [r.decl] at hc1
  have e : r.c1 = _ := (R.ok.inj hc1).2
  refine (r.fit ha ?_ ?_).computed hl
  · intro x v hv; rw [e] at hv; simp [x1, lookup] at hv
  · intro x v hv
    rw [e] at hv
    rcases lookup_insert_or hv with rfl | hv
    · rfl
    · simp [x2, lookup] at hv

/-- **C54**, as far as it holds: if the `auto` statements of a function come before its other statements
(`extrn` apart), every path that reaches a use of the address of a local variable or parameter has
computed this address. -/
theorem C54_locals_partial {chars : List Char} {t : Tail} {m : Module} (h : compileText chars t = .ok m) :
    ∃ p, Reads true chars p ∧ ∀ F ∈ m.funcs, F.blocks ≠ [] → ∃ f ps b, CodeOf p F f ps b ∧
      (b.AutosFirst → ∀ a, LocalAddr F.blocks a → ComputedBeforeUse F.blocks a) := by
  obtain ⟨p, h1, hn, h2⟩ := compile_source h
  refine ⟨p, h1, fun F hF hB => ?_⟩
  obtain ⟨f, ps, b, hd, s⟩ := h2 F hF hB
  exact ⟨f, ps, b, ⟨hd, s.sym, s.params⟩, fun ha a hl => source_locals s ha hl⟩

/-! ### the exceptions are real -/

/-- A label called `entry` gives two blocks of the name `entry`. -/
theorem C19_entry_label_counterexample : ∃ m, compileText "f(){entry: g();}".toList .eof = .ok m ∧ ∃ F ∈ m.funcs, ¬ NamesApart F := by
  refine ⟨⟨[], [⟨"b.f".toList, [], false, [⟨"entry".toList, [], some (.br 1)⟩,
    ⟨"entry".toList, [(0, .call (.func "b.g".toList true 0) [])], some (.ret (.const 0))⟩]⟩, ⟨"b.g".toList, [], true, []⟩]⟩,
    compile_of_emitted (by decide +kernel), _, List.mem_cons_self, ?_⟩
  intro h; exact absurd h.1 (by decide)

/-- A label called like the first parameter gives a block of the name of the parameter. -/
theorem C19_parameter_label_counterexample : ∃ m, compileText "f(x){x: return;}".toList .eof = .ok m ∧ ∃ F ∈ m.funcs, ¬ NamesApart F := by
  refine ⟨⟨[], [⟨"b.f".toList, ["x".toList], true, [⟨"entry".toList, [(0, .alloca .i64), (1, .store .param (.reg 0))], some (.br 1)⟩,
    ⟨"x".toList, [], some (.ret (.const 0))⟩]⟩]⟩,
    compile_of_emitted (by decide +kernel), _, List.mem_cons_self, ?_⟩
  intro h; exact absurd (h.2 ⟨"x".toList, [], some (.ret (.const 0))⟩ (by simp)) (by decide)

/-- A first parameter called `entry` has the name of the first block. -/
theorem C19_entry_parameter_counterexample : ∃ m, compileText "f(entry){}".toList .eof = .ok m ∧ ∃ F ∈ m.funcs, ¬ NamesApart F := by
  refine ⟨⟨[], [⟨"b.f".toList, ["entry".toList], true, [⟨"entry".toList, [(0, .alloca .i64), (1, .store .param (.reg 0))], some (.ret (.const 0))⟩]⟩]⟩,
    compile_of_emitted (by decide +kernel), _, List.mem_cons_self, ?_⟩
  intro h; exact absurd (h.2 ⟨"entry".toList, [(0, .alloca .i64), (1, .store .param (.reg 0))], some (.ret (.const 0))⟩ (by simp)) (by decide)

/-- A `goto` to a label that is not defined leaves a block without terminator. -/
theorem C20_goto_counterexample : ∃ m, compileText "f(){goto x;}".toList .eof = .ok m ∧ ∃ F ∈ m.funcs, ∃ B ∈ F.blocks, B.term = none := by
  refine ⟨⟨[], [⟨"b.f".toList, [], false, [⟨"entry".toList, [], some (.br 1)⟩, ⟨"x".toList, [], none⟩,
    ⟨"unreachable.0".toList, [], some (.ret (.const 0))⟩]⟩]⟩,
    compile_of_emitted (by decide +kernel), _, List.mem_cons_self, ⟨"x".toList, [], none⟩, by simp, rfl⟩

/-- An `auto` inside a branch: the path around the branch reaches the use without the address. -/
theorem C54_branch_counterexample : ∃ m, compileText "f(x){if(x){auto y;} y=1;}".toList .eof = .ok m ∧
    ∃ F ∈ m.funcs, ∃ a, LocalAddr F.blocks a ∧ ¬ ComputedBeforeUse F.blocks a := by
  let bs : List Block := [
    ⟨"entry".toList, [(0, .alloca .i64), (1, .store .param (.reg 0)), (2, .load (.reg 0)), (3, .icmp .ne (.reg 2) (.const 0))],
      some (.condbr (.reg 3) 1 2)⟩,
    ⟨"if.0.then".toList, [(4, .alloca .i64), (5, .store (.const 0) (.reg 4))], some (.br 3)⟩,
    ⟨"if.0.else".toList, [], some (.br 3)⟩,
    ⟨"if.0.end".toList, [(6, .store (.const 1) (.reg 4))], some (.ret (.const 0))⟩]
  refine ⟨⟨[], [⟨"b.f".toList, ["x".toList], true, bs⟩]⟩, compile_of_emitted (by decide +kernel), _, List.mem_cons_self, 4, ?_, ?_⟩
  · exact ⟨bs[1], by simp [bs], .alloca .i64, by simp [bs], trivial⟩
  · intro h
    have p4 : Path bs [3, 2, 1, 0] 0 4 := .step (.step (.step (.step .start rfl rfl) rfl rfl) rfl rfl) rfl rfl
    have p5 : Path bs [3, 2, 1, 0] 2 0 := .jump (B := bs[0]) p4 rfl rfl (by simp [Term.targets])
    have p6 : Path bs [3, 2, 1, 0] 3 0 := .jump (B := bs[2]) p5 rfl rfl (by simp [Term.targets])
    have := (h _ _ _ bs[3] p6 rfl).1 6 _ rfl (by simp [Inst.operands])
    exact absurd this (by decide)

/-! ### the conditions are met by ordinary programs -/

/-- `f(n) { auto i; i = 0; again: if (i < n) { i = i + 1; goto again; } }` meets the conditions of C19,
C20 and C54. -/
example : let b : St := .seq (.auto [("i".toList, none)]) (.seq (.expr (.assign none (.var "i".toList) (.num 0)))
      (.label "again".toList (.ifThen (.bin .lt (.var "i".toList) (.var "n".toList))
        (.seq (.expr (.assign none (.var "i".toList) (.bin .add (.var "i".toList) (.num 1)))) (.goto "again".toList)))))
    (∀ l ∈ b.gotos, l ∈ b.labels) ∧ "entry".toList ∉ b.labels ∧ "n".toList ∉ b.labels ∧ b.AutosFirst := by
  refine ⟨by decide, by decide, by decide, .inl ⟨trivial, .inr ⟨.inr fun h => h, ?_⟩⟩⟩
  intro h
  simp [St.hasAuto] at h

/-- and its text is accepted -/
example : (emitted "f(n){auto i; i=0; again: if(i<n){i=i+1; goto again;}}").isSome = true := by decide +kernel

end Blang.Props
