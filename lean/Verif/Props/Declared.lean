import Verif.Proofs.DeclaredSt
import Verif.Proofs.NecessarySt
import Verif.Props.Valid
/-
Property C90: `auto` anywhere, as long as it comes first on every way through the text.

Vocabulary: `Verif/Spec/Declared.lean` (definite declaration), `Verif/Spec/Ssa.lean` and `Verif/Spec/Paths.lean` (paths through code).
-/
namespace Blang.Props
open Blang Blang.Spec

/-- a function whose variables are declared first computes the address of every variable before it uses it -/
theorem source_declared {p : Program} {f : Ident} {ps : List Ident} {b : St} {F : Func} (s : Source p newCompiler f ps b F)
    (hn : ∀ d ∈ p, d.All NameOk) (hd : Decl.func f ps b ∈ p) (hb : b.DeclaredFirst) {a : Nat} (ha : LocalAddr F.blocks a) :
    ComputedBeforeUse F.blocks a := by
  obtain ⟨c, ⟨r⟩, x1, x2, _⟩ := s.run
  obtain ⟨_, h1, h2⟩ := hn _ hd
  obtain ⟨g, c', hdi, e⟩ := r.declared h2 (by
      rw [r.c1_eq]; intro x v hv; simp [x1, lookup] at hv) (by
      rw [r.c1_eq]; intro x v hv
      rcases lookup_insert_or hv with rfl | hv
      · nofun
      · simp [x2, lookup] at hv) hb
  rw [← e] at ha ⊢
  exact hdi.computed ha

/-- ... and its definitions dominate its uses -/
theorem source_dominated {p : Program} {f : Ident} {ps : List Ident} {b : St} {F : Func} (s : Source p newCompiler f ps b F)
    (hn : ∀ d ∈ p, d.All NameOk) (hd : Decl.func f ps b ∈ p) (hb : b.DeclaredFirst) (a : Nat) : Dominated F.blocks a := by
  obtain ⟨G, cur, hc⟩ := source_core s
  by_cases hl : LocalAddr F.blocks a
  · have cb := source_declared s hn hd hb hl
    have un := source_uniq s hn hd
    have ty := s.typed hn
    intro done i k B p hi
    obtain ⟨k1, k2⟩ := cb done i k B p hi
    exact ⟨fun r inst hk _ hm => k1 r inst hk hm, k2, fun B' hB' r inst hm _ hp => absurd hl (phi_not_local un ty hB' hm hp)⟩
  · exact hc.dominated hl

/-- **C90**: wherever the `auto` statements of a function stand, if on every way through its text a variable is declared before it is
used, then every path through its code computes the address of a variable before it uses it, so that the module meets LLVM's demand
that definitions dominate uses. -/
theorem C90_declared_first {chars : List Char} {t : Tail} {m : Module} (h : compileText chars t = .ok m) :
    ∃ p, Reads true chars p ∧ ∀ F ∈ m.funcs, F.blocks ≠ [] → ∃ f ps b, CodeOf p F f ps b ∧
      (b.DeclaredFirst → (∀ a, LocalAddr F.blocks a → ComputedBeforeUse F.blocks a) ∧ ∀ a, Dominated F.blocks a) := by
  obtain ⟨p, h1, hn, h2⟩ := compile_source h
  refine ⟨p, h1, fun F hF hB => ?_⟩
  obtain ⟨f, ps, b, hd, s⟩ := h2 F hF hB
  exact ⟨f, ps, b, ⟨hd, s.sym, s.params⟩, fun hb => ⟨fun a ha => source_declared s hn hd hb ha, source_dominated s hn hd hb⟩⟩

/-- **C90**, exactly: where no statement follows a `return` in the same line of control, no label is defined twice and no `switch` has two
equal cases, the code of a function meets LLVM's demand that definitions dominate uses if and only if every variable is declared before it
is used on every way through the text. -/
theorem C90_exact {chars : List Char} {t : Tail} {m : Module} (h : compileText chars t = .ok m) :
    ∃ p, Reads true chars p ∧ ∀ F ∈ m.funcs, F.blocks ≠ [] → ∃ f ps b, CodeOf p F f ps b ∧
      ((b.exit true).isSome → b.labels.Nodup → b.Distinct → ((∀ a, Dominated F.blocks a) ↔ b.DeclaredFirst)) := by
  obtain ⟨p, h1, hn, h2⟩ := compile_source h
  refine ⟨p, h1, fun F hF hB => ?_⟩
  obtain ⟨f, ps, b, hd, s⟩ := h2 F hF hB
  refine ⟨f, ps, b, ⟨hd, s.sym, s.params⟩, fun x1 x2 x3 => ⟨fun ha => ?_, fun hb a => ?_⟩⟩
  · obtain ⟨c, ⟨r⟩, _⟩ := s.run
    obtain ⟨_, _, h2⟩ := hn _ hd
    exact r.necessary h2 x1 x2 x3 ha
  · exact source_dominated s hn hd hb a

/-- **C90** covers the programs of C54. -/
theorem C90_covers {b : St} (h : b.AutosFirst) : b.DeclaredFirst := autosFirst_declared h

/-! ### the condition is met by ordinary programs and not by the counterexample of C54 -/

/-- `f(x){if(x){auto y; y=1;}}` -/
def declBranch : St := .ifThen (.var "x".toList) (.seq (.auto [("y".toList, none)]) (.expr (.assign none (.var "y".toList) (.num 1))))

/-- its variable is declared first, though not at the beginning -/
theorem C90_branch : declBranch.DeclaredFirst ∧ ¬ declBranch.AutosFirst := by
  refine ⟨⟨fun _ _ => False, fun _ _ => False, fun _ => False, nofun, fun x => x = "y".toList, ⟨fun x => x = "y".toList, fun x hx => .inr (by simp [hx]),
      fun x hx _ => ?_, fun x hx => hx⟩, nofun, nofun⟩, ?_⟩
  · simpa [Ex.vars] using hx
  · simp [declBranch, St.AutosFirst, St.Declares, St.hasAuto]

example : (emitted "f(x){if(x){auto y; y=1;}}").isSome = true := by decide +kernel

/-- `f(n){again: while(n){auto y; y=n--; if(y) goto again;} return(n);}`: a variable of a loop that is left with `goto` -/
def declLoop : St := .seq (.label "again".toList (.while (.var "n".toList)
    (.seq (.auto [("y".toList, none)]) (.seq (.expr (.assign none (.var "y".toList) (.post .dec (.var "n".toList))))
      (.ifThen (.var "y".toList) (.goto "again".toList))))))
  (.ret (some (.var "n".toList)))

theorem C90_loop : declLoop.DeclaredFirst ∧ ¬ declLoop.AutosFirst := by
  refine ⟨⟨fun _ _ => False, fun _ _ => False, fun _ => False, fun _ => False, ⟨nofun, fun _ => False, fun _ => False, nofun, nofun, ?_, nofun, nofun⟩,
    ?_, nofun⟩, ?_⟩
  · refine ⟨fun x => x = "y".toList, fun x hx => .inr (by simp [hx]), fun x => x = "y".toList, ⟨fun x _ hx => by simpa [St.autos] using hx, fun x hx => hx⟩,
      fun x hx _ => by simpa [Ex.vars] using hx, fun _ => False, nofun, nofun, nofun⟩
  · intro x hx hv
    simp [Ex.vars] at hx
    subst hx
    simp [St.autos] at hv
  · simp [declLoop, St.AutosFirst, St.Declares, St.hasAuto]

example : (emitted "f(n){again: while(n){auto y; y=n--; if(y) goto again;} return(n);}").isSome = true := by decide +kernel

/-- the other conditions of `C90_exact` hold of it -/
example : (declLoop.exit true).isSome ∧ declLoop.labels.Nodup ∧ declLoop.Distinct := ⟨rfl, by simp [declLoop, St.labels], by simp [declLoop, St.Distinct]⟩

/-- `f(x){if(x){auto y;} y=1;}`, the counterexample of C54, does not meet the condition -/
theorem C90_not_met : ¬ St.DeclaredFirst (.seq (.ifThen (.var "x".toList) (.auto [("y".toList, none)]))
    (.expr (.assign none (.var "y".toList) (.num 1)))) := by
  rintro ⟨L, K, D', D1, ⟨_, D2, _, _, h⟩, h2, _⟩
  exact h _ (h2 "y".toList (by simp [Ex.vars]) (by simp [St.autos]))

end Blang.Props
