import Verif.Proofs.Arity
import Verif.Proofs.Symbols
import Verif.Proofs.SsaUniq
import Verif.Props.Semantics
import Verif.Props.Blocks
/-
Properties C56–: the emitted code meets the demands of LLVM on code.

Vocabulary: `Verif/Spec/Typing.lean` (types of operands), `Verif/Spec/Symbols.lean` (references),
`Verif/Spec/Ssa.lean` (registers, branches, phi instructions).
-/
namespace Blang.Props
open Blang Blang.Spec

/-- **C56**: in every function of the module of an accepted program, every instruction and every
terminator has operands of the types it demands. -/
theorem C56_well_typed {chars : List Char} {t : Tail} {m : Module} (h : compileText chars t = .ok m) :
    ∀ F ∈ m.funcs, CodeTyped F.blocks := by
  obtain ⟨p, h1, hn, h2⟩ := compile_source h
  intro F hF
  by_cases hB : F.blocks = []
  · rw [hB]; intro B hB; cases hB
  · obtain ⟨f, ps, b, hd, s⟩ := h2 F hF hB
    exact s.typed hn

/-- the property is not trivial: code that loads from a number is not well typed -/
example : ¬ CodeTyped [⟨"entry".toList, [(0, .load (.const 0))], some (.ret (.reg 0))⟩] := by
  intro h
  obtain ⟨t, ht⟩ := (h _ (List.mem_singleton_self _)).1 (0, .load (.const 0)) (List.mem_singleton_self _)
  cases ht

/-- a branch on a word is not well typed -/
example : ¬ CodeTyped [⟨"entry".toList, [(0, .bin .add (.const 0) (.const 1))], some (.condbr (.reg 0) 0 0)⟩] := by
  intro h
  have := (h _ (List.mem_singleton_self _)).2 _ rfl
  obtain ⟨B, hB, i, hi, e⟩ := this
  simp at hB; subst hB
  simp at hi; subst hi
  cases e

/-- a program with all kinds of operands -/
example : (emitted "v[2] 1,'ab'; f(a,b){extrn v; auto x[3]; x[1]=v[0]?a:b; return(f(x,&a)+(*a==\"s\"));}").isSome = true := by decide +kernel

/-- what is known about the code of a function of the module -/
theorem source_core {p : Program} {f : Ident} {ps : List Ident} {b : St} {F : Func} (s : Source p newCompiler f ps b F) :
    ∃ G cur, Core G F.blocks cur := by
  obtain ⟨c, ⟨r⟩, x1, x2, _⟩ := s.run
  refine r.core ?_ ?_
  · rw [r.c1_eq]; intro x v hv; simp [x1, lookup] at hv
  · rw [r.c1_eq]; intro x v hv
    rcases lookup_insert_or hv with rfl | hv
    · nofun
    · simp [x2, lookup] at hv

theorem source_uniq {p : Program} {f : Ident} {ps : List Ident} {b : St} {F : Func} (s : Source p newCompiler f ps b F)
    (hn : ∀ d ∈ p, d.All NameOk) (hd : Decl.func f ps b ∈ p) : (assigned F.blocks).Nodup := by
  obtain ⟨c, ⟨r⟩, _⟩ := s.run
  obtain ⟨_, h1, h2⟩ := hn _ hd
  exact r.uniq h1 h2

/-- **C57**: in every function of the module of an accepted program, no register is assigned twice. -/
theorem C57_assigned_once {chars : List Char} {t : Tail} {m : Module} (h : compileText chars t = .ok m) :
    ∀ F ∈ m.funcs, (assigned F.blocks).Nodup := by
  obtain ⟨p, h1, hn, h2⟩ := compile_source h
  intro F hF
  by_cases hB : F.blocks = []
  · rw [hB]; exact List.nodup_nil
  · obtain ⟨f, ps, b, hd, s⟩ := h2 F hF hB
    exact source_uniq s hn hd

/-- **C57**: every path that reaches a use of a register (other than the address of a local variable) has
computed it; a phi instruction uses its operands at the ends of the blocks that it names. -/
theorem C57_computed_before_use {chars : List Char} {t : Tail} {m : Module} (h : compileText chars t = .ok m) :
    ∀ F ∈ m.funcs, ∀ a, ¬ LocalAddr F.blocks a → Dominated F.blocks a := by
  obtain ⟨p, h1, hn, h2⟩ := compile_source h
  intro F hF a ha
  by_cases hB : F.blocks = []
  · intro done i k B _ hi; rw [hB] at hi; simp at hi
  · obtain ⟨f, ps, b, hd, s⟩ := h2 F hF hB
    obtain ⟨G, cur, hc⟩ := source_core s
    exact hc.dominated ha

/-- **C54** and C57 together, as far as C54 holds: if the `auto` statements come first, every path that
reaches a use of any register has computed it. -/
theorem C54_dominated_partial {chars : List Char} {t : Tail} {m : Module} (h : compileText chars t = .ok m) :
    ∃ p, Reads true chars p ∧ ∀ F ∈ m.funcs, F.blocks ≠ [] → ∃ f ps b, CodeOf p F f ps b ∧
      (b.AutosFirst → ∀ a, Dominated F.blocks a) := by
  obtain ⟨p, h1, hn, h2⟩ := compile_source h
  refine ⟨p, h1, fun F hF hB => ?_⟩
  obtain ⟨f, ps, b, hd, s⟩ := h2 F hF hB
  refine ⟨f, ps, b, ⟨hd, s.sym, s.params⟩, fun ha a => ?_⟩
  obtain ⟨G, cur, hc⟩ := source_core s
  by_cases hl : LocalAddr F.blocks a
  · have cb := source_locals s ha hl
    have un := source_uniq s hn hd
    have ty := s.typed hn
    intro done i k B p hi
    obtain ⟨k1, k2⟩ := cb done i k B p hi
    exact ⟨fun r inst hk _ hm => k1 r inst hk hm, k2, fun B' hB' r inst hm _ hp => absurd hl (phi_not_local un ty hB' hm hp)⟩
  · exact hc.dominated hl

/-- **C58**: in every function of the module of an accepted program, branches lead to blocks of the function
other than the first, and every phi instruction is the first of its block and names the two blocks, and only
those, from which its block can be reached. -/
theorem C58_flow {chars : List Char} {t : Tail} {m : Module} (h : compileText chars t = .ok m) : ∀ F ∈ m.funcs, FlowOk F.blocks := by
  obtain ⟨p, h1, hn, h2⟩ := compile_source h
  intro F hF
  by_cases hB : F.blocks = []
  · rw [hB]
    refine ⟨?_, ?_⟩
    · rintro i j ⟨B, t, hi, _⟩; simp at hi
    · intro i B k r x b y b' hi; simp at hi
  · obtain ⟨f, ps, b, hd, s⟩ := h2 F hF hB
    obtain ⟨G, cur, hc⟩ := source_core s
    exact hc.flow

/-- a program with a nested `?:` in a `switch` in a loop with labels -/
example : (emitted "f(a){auto i; i=0; x: while(i<(a?(i?1:2):3)){switch(i?a:i){case 1: i=a?1:2; case 2: if(a?i:0) goto x; return(i?a:2);} i++;}}").isSome = true := by decide +kernel

/-- code that assigns a register twice is not single-assignment -/
example : ¬ (assigned [⟨"entry".toList, [(0, .alloca .i64), (0, .alloca .i64)], none⟩]).Nodup := by simp [assigned]

/-- code that uses a register before it is computed -/
example : ¬ Dominated [⟨"entry".toList, [(0, .zext (.reg 1)), (1, .icmp .ne (.const 0) (.const 1))], some (.ret (.reg 0))⟩] 1 := by
  intro h
  have := (h [] 0 0 _ .start rfl).1 0 (.zext (.reg 1)) rfl (fun h => h) List.mem_cons_self
  cases this

/-- a phi instruction that names a block from which its block cannot be reached -/
example : ¬ FlowOk [⟨"entry".toList, [], some (.br 1)⟩, ⟨"l".toList, [(0, .phi (.const 0) 0 (.const 1) 1)], some (.ret (.reg 0))⟩] := by
  intro h
  obtain ⟨_, _, e⟩ := h.phis 1 _ 0 0 _ _ _ _ rfl rfl
  obtain ⟨B, t, hB, ht, hj⟩ := (e 1).2 (.inr rfl)
  simp at hB; subst hB
  simp at ht; subst ht
  cases hj

/-- **C59**: every variable and every function that the code or an initial value in the module of an
accepted program refers to is in this module. -/
theorem C59_symbols_declared {chars : List Char} {t : Tail} {m : Module} (h : compileText chars t = .ok m) : Linked m := by
  obtain ⟨p, c, h1, hb, rfl, hn, _⟩ := compile_between h
  have := hb.lk hn ProgInv.init ⟨by simp [newCompiler], by simp [newCompiler]⟩
  exact ⟨fun F hF B hB => (this.code F hF B hB).1, fun F hF B hB => (this.code F hF B hB).2, this.inits⟩

/-- a program with references of all kinds: before and after the definition, to itself, to a string, to
something that is not defined at all -/
example : (emitted "f(){extrn v,w; v=w; g(v,\"s\"); return(h);} v[2] 1,\"ab\"; g(a,b){f(g);} w[9];").isSome = true := by decide +kernel

/-- the property is not trivial: code that refers to a variable that is not there -/
example : ¬ Linked ⟨[], [⟨"main".toList, [], false, [⟨"entry".toList, [(0, .load (.glob "b.x".toList .i64))], some (.ret (.reg 0))⟩]⟩]⟩ := by
  intro h
  obtain ⟨g, hg, _⟩ := h.insts _ (List.mem_singleton_self _) _ (List.mem_singleton_self _) _ (List.mem_singleton_self _) (.glob "b.x".toList .i64) (List.mem_singleton_self _)
  cases hg

/-! ### numbers of arguments -/

/-- **C60** (part): a call passes as many arguments as the type of the function demands, unless the program
calls by name a function that it defines without parameters, with arguments, or one that it defines with
parameters, without arguments. (In full the second alternative would be absent.) -/
theorem C60_arity_partial {chars : List Char} {t : Tail} {m : Module} (h : compileText chars t = .ok m) :
    ∃ p, Reads true chars p ∧ ∀ F ∈ m.funcs, ∀ B ∈ F.blocks, ∀ q ∈ B.insts, Inst.ArityOk (RegType F.blocks) q.2 ∨
      ∃ f ps b v n as, Decl.func f ps b ∈ p ∧ q.2 = .call (.func (symbolOf f) v n) as ∧ (f, as.length) ∈ p.calls ∧ ¬ (ps = [] ↔ as.length = 0) := by
  obtain ⟨p, h1, hn, h2⟩ := compile_source h
  refine ⟨p, h1, fun F hF B hB => ?_⟩
  by_cases hF0 : F.blocks = []
  · rw [hF0] at hB; cases hB
  · obtain ⟨f, ps, b, hd, s⟩ := h2 F hF hF0
    exact s.arity hd hn B hB

/-- the same for programs whose calls fit the definitions -/
theorem C60_fitting_calls_partial {chars : List Char} {t : Tail} {m : Module} (h : compileText chars t = .ok m) :
    ∃ p, Reads true chars p ∧ (p.CallsFit → ∀ F ∈ m.funcs, CodeArity F.blocks) := by
  obtain ⟨p, h1, h2⟩ := C60_arity_partial h
  refine ⟨p, h1, fun hp F hF B hB q hq => ?_⟩
  rcases h2 F hF B hB q hq with h | ⟨f, ps, b, v, n, as, hd, _, hc, hne⟩
  · exact h
  · exact absurd (hp f ps b hd _ hc) hne

/-- **C60**, exactly: every call instruction of the module passes the arguments that the type of the called function
demands if and only if the calls by name fit the definitions that precede them. A call of a function that is only defined
later, or not at all, or by address, always passes what is demanded. -/
theorem C60_exact {chars : List Char} {t : Tail} {m : Module} (h : compileText chars t = .ok m) :
    ∃ p, TreeOf chars p m ∧ ((∀ F ∈ m.funcs, CodeArity F.blocks) ↔ p.CallsFitBefore) := by
  obtain ⟨p, hT, _⟩ := accepted_tree h
  refine ⟨p, hT, ?_⟩
  obtain ⟨c, hb, rfl⟩ := tree_between hT
  have hn := reads_names hT.1
  constructor
  · rintro h pre f ps b post rfl hp g k hc qs hl
    obtain ⟨c1, F, h1, ⟨r⟩, h3, _⟩ := hb.last hn hp
    obtain ⟨B, hB, n, as, hm, rfl⟩ := r.called h1 (fun d hd => hn d (by
      rcases List.mem_append.1 hd with hd | hd
      · simp [hd]
      · simp at hd; simp [hd])) hc hl
    obtain ⟨k, v, h4, h5⟩ := h F h3 B hB _ hm
    cases h4
    exact takes_iff.1 h5
  · intro h F hF
    by_cases hF0 : F.blocks = []
    · intro B hB; rw [hF0] at hB; cases hB
    rcases hb.origin _ ProgInv.init hn hF hF0 with h' | ⟨f, ps, b, hd, s⟩
    · cases h'
    obtain ⟨pre, qs, b', post, rfl, hp⟩ := exists_latest hd
    obtain ⟨c1, F', h1, ⟨r⟩, h3, h4, _⟩ := hb.last hn hp
    have e : F = F' := nodup_map_inj (hb.mid hn).nodup hF h3 (s.sym.trans h4.symm)
    rw [e]
    exact r.arity h1 (fun d hd => hn d (by simp [hd])) fun g k hg rs hq => h pre f qs b' post rfl hp g k hg rs hq

/-- a call that comes before the definition fits, whatever the definition -/
example : Program.CallsFitBefore [.func "main".toList [] (.expr (.callName "f".toList [])), .func "f".toList ["a".toList] .skip] := by
  intro pre f ps b post e hp g k hk qs ⟨pre', b', post', e', _⟩
  rcases pre with _ | ⟨d, _ | ⟨d', _ | ⟨d'', pre⟩⟩⟩ <;> simp at e
  · obtain ⟨⟨rfl, rfl, rfl⟩, rfl⟩ := e
    simp [St.calls, Ex.calls, Ex.callsArgs] at hk
    obtain ⟨rfl, rfl⟩ := hk
    rcases pre' with _ | ⟨d, pre'⟩ <;> simp at e'
  · obtain ⟨rfl, ⟨rfl, rfl, rfl⟩, rfl⟩ := e
    simp [St.calls] at hk

/-- the same call after the definition does not -/
example : ¬ Program.CallsFitBefore [.func "f".toList ["a".toList] .skip, .func "main".toList [] (.expr (.callName "f".toList []))] := fun h => by
  have := h [.func "f".toList ["a".toList] .skip] "main".toList [] (.expr (.callName "f".toList [])) [] rfl (by simp) "f".toList 0
    (by simp [St.calls, Ex.calls, Ex.callsArgs]) ["a".toList] ⟨[], .skip, [.func "main".toList [] (.expr (.callName "f".toList []))], rfl, by simp⟩
  simp at this

/-- C60 is false in general: `f(a){} main(){f();}` calls `f` with too few arguments. -/
theorem C60_few_counterexample : ∃ m, compileText "f(a){} main(){f();}".toList .eof = .ok m ∧ ¬ ∀ F ∈ m.funcs, CodeArity F.blocks := by
  let G : Func := ⟨"main".toList, [], false, [⟨"entry".toList, [(2, .call (.func "b.f".toList true 1) [])], some (.ret (.const 0))⟩]⟩
  refine ⟨⟨[], [⟨"b.f".toList, ["a".toList], true, [⟨"entry".toList, [(0, .alloca .i64), (1, .store .param (.reg 0))], some (.ret (.const 0))⟩]⟩, G]⟩,
    compile_of_emitted (by decide +kernel), fun h => ?_⟩
  obtain ⟨k, b, h1, h2⟩ := h G (by simp) _ (List.mem_singleton_self _) _ (List.mem_singleton_self _)
  cases h1
  simp [Takes] at h2

/-- `f(){} main(){f(1);}` calls `f` with too many. -/
theorem C60_many_counterexample : ∃ m, compileText "f(){} main(){f(1);}".toList .eof = .ok m ∧ ¬ ∀ F ∈ m.funcs, CodeArity F.blocks := by
  let G : Func := ⟨"main".toList, [], false, [⟨"entry".toList, [(0, .call (.func "b.f".toList false 0) [.const 1])], some (.ret (.const 0))⟩]⟩
  refine ⟨⟨[], [⟨"b.f".toList, [], false, [⟨"entry".toList, [], some (.ret (.const 0))⟩]⟩, G]⟩,
    compile_of_emitted (by decide +kernel), fun h => ?_⟩
  obtain ⟨k, b, h1, h2⟩ := h G (by simp) _ (List.mem_singleton_self _) _ (List.mem_singleton_self _)
  cases h1
  simp [Takes] at h2

/-- a program with calls of all kinds: of functions defined before, later, nowhere and by address -/
example : (emitted "f(a,b){return(a(b));} g(){f(1); f(1,2,3); g(); h(); h(1,2); k(7);(f)(1); f[2](3,4);} k(){}").isSome = true := by decide +kernel

/-- programs can meet the condition on calls -/
example : Program.CallsFit [.func "f".toList ["a".toList] .skip, .func "main".toList [] (.expr (.callName "f".toList [.num 1, .num 2]))] := by
  intro f ps b hd k hk
  simp [Program.calls, St.calls, Ex.calls, Ex.callsArgs] at hk
  simp at hd
  rcases hd with ⟨rfl, rfl, rfl⟩ | ⟨rfl, rfl, rfl⟩ <;> simp_all

end Blang.Props
