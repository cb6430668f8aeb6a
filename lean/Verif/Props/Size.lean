import Verif.Props.Parsing
import Verif.Proofs.SizeText
/-
C77: how large the emitted module is.
-/
namespace Blang.Props
open Blang Spec

/-- C77. The module of an accepted text has at most six units (functions, parameters, blocks, instructions, arguments,
cases, words and bytes of initial values ...) for each character of the text, and one for each word of the vectors that are declared
with initial values. -/
theorem C77_linear {chars : List Char} {t : Tail} {m : Module} (h : compileText chars t = .ok m) :
    ∃ p, TreeOf chars p m ∧ moduleUnits m ≤ 6 * chars.length + p.filled := by
  obtain ⟨p, ⟨h1, c, h2, rfl⟩, _⟩ := accepted_tree h
  exact ⟨p, ⟨h1, c, h2, rfl⟩, size_text h1 h2⟩

/-- C77. The same for a text laid out as the compiler tolerates, of which the tree is the only one. -/
theorem C77_careful {chars : List Char} {p : Program} (hp : Careful prec chars p) {m : Module} (h : compileText chars .eof = .ok m) :
    moduleUnits m ≤ 6 * chars.length + p.filled := by
  obtain ⟨⟨h1, c, h2, rfl⟩, _⟩ := (careful_iff hp m).1 h
  exact size_text h1 h2

/-- the text `v[ds]1;` -/
def vectorText (ds : List Char) : List Char := 'v' :: '[' :: (ds ++ [']', '1', ';'])

theorem vectorText_careful {ds : List Char} (h0 : ds ≠ []) (hd : ∀ c ∈ ds, Digit c) :
    Careful prec (vectorText ds) [.vector ['v'] (BitVec.ofNat 64 (literalValue ds)) [.int 1]] := by
  refine ⟨[.defn ['v'], .sym ['['], .num ds, .sym [']'], .num ['1'], .sym [';']], ⟨[], _, rfl, .nil, ?_⟩, ?_⟩
  · refine .cons (lay := []) (.defn (w := ['v']) (by simp) (by decide) (by show ¬ IdentChar '['; decide)) (by decide) .nil (fun _ _ _ _ => rfl) ?_
    refine .cons (lay := []) (.sym (s := ['[']) (by decide) ?_) trivial .nil (fun _ _ _ _ => rfl) ?_
    · intro x hx; rw [show extensions ['['] = [] by decide] at hx; cases hx
    refine .cons (lay := []) (.num h0 hd (by decide)) trivial .nil (fun _ _ _ _ => rfl) ?_
    refine .cons (lay := []) (.sym (s := [']']) (by decide) ?_) trivial .nil (fun _ _ _ _ => rfl) ?_
    · intro x hx; revert hx; revert x; decide
    refine .cons (lay := []) (.num (ds := ['1']) (by simp) (by decide) (by decide)) trivial .nil (fun _ _ _ _ => rfl) ?_
    refine .cons (lay := []) (.sym (s := [';']) (by decide) ?_) trivial .nil (fun _ _ _ _ => rfl) .nil
    · intro x hx; revert hx; revert x; decide
  · have hv : VGram [.num ds, .sym [']']] (BitVec.ofNat 64 (literalValue ds)) := .num
    have hi : OIsGram false ([.num ['1']] ++ [.sym [';']]) [.int 1] := .some (.last (.num (ds := ['1'])))
    have := DeclGram.vector (pr := prec) (quirks := false) (x := ['v']) hv hi
    simpa using ProgGram.cons this .nil

/-- C77. The words of a vector with initial values are all emitted: `v[n]1;` makes a module of n + 2 units, whatever n is. -/
theorem C77_vector {ds : List Char} (h0 : ds ≠ []) (hd : ∀ c ∈ ds, Digit c) (h1 : 1 ≤ literalValue ds)
    (h2 : literalValue ds < 2 ^ 63) :
    ∃ m, compileText (vectorText ds) .eof = .ok m ∧ moduleUnits m = literalValue ds + 2 := by
  have hn : (BitVec.ofNat 64 (literalValue ds)).toNat = literalValue ds := by
    rw [BitVec.toNat_ofNat]; omega
  have hz : BitVec.ofNat 64 (literalValue ds) ≠ 0 := by
    intro e; rw [e] at hn; simp at hn; omega
  have hi : (BitVec.ofNat 64 (literalValue ds)).toInt.toNat = literalValue ds := by
    rw [BitVec.toInt_eq_toNat_cond, hn, if_pos (by omega)]; simp
  obtain ⟨c, hc, hm⟩ : ∃ c, genProg [.vector ['v'] (BitVec.ofNat 64 (literalValue ds)) [.int 1]] newCompiler = .ok () c ∧
      moduleUnits ⟨c.globals, c.funcs⟩ = literalValue ds + 2 := by
    generalize BitVec.ofNat 64 (literalValue ds) = n at hz hi
    cases hg : genProg [.vector ['v'] n [.int 1]] newCompiler with
    | err e => simp [genProg, genDecl, genIvals, genIval, M.bind_apply, clearTopLevelContext, declareGlobalArray] at hg
    | ok u c =>
      refine ⟨c, rfl, ?_⟩
      simp [genProg, genDecl, genIvals, genIval, M.bind_apply, clearTopLevelContext, declareGlobalArray] at hg
      subst hg
      have hz' : ¬ n = 0#64 := hz
      simp [moduleUnits, globalUnits, initUnits, newGlobalDef, if_neg hz', removeGlobalByName, newCompiler]
      omega
  refine ⟨_, (careful_iff (vectorText_careful h0 hd) _).2 ⟨⟨careful_reads (vectorText_careful h0 hd), c, hc, rfl⟩, ?_⟩, hm⟩
  simp [Program.Clear, Program.ClearIn, Decl.Clear]

/-- C77. So there is no bound that is polynomial in the length of the text (as long as the number fits a word): a text of k + 6
characters makes a module of more than 10^k units. -/
theorem C77_exponential (k : Nat) (hk : k < 19) :
    ∃ chars m, chars.length = k + 6 ∧ compileText chars .eof = .ok m ∧ 10 ^ k < moduleUnits m := by
  have hz : ∀ k, digitsValue 10 (List.replicate k '0') = 0 := by
    intro k
    induction k with
    | zero => rfl
    | succ k ih => simp [List.replicate_succ, digitsValue, ih]
  have hv : literalValue ('1' :: List.replicate k '0') = 10 ^ k := by
    simp [literalValue, digitsValue, hz]
  have hlt : 10 ^ k < 2 ^ 63 := Nat.lt_of_le_of_lt (Nat.pow_le_pow_right (by omega) (by omega : k ≤ 18)) (by decide)
  obtain ⟨m, h1, h2⟩ := C77_vector (ds := '1' :: List.replicate k '0') (by simp)
    (by intro c hc; simp [List.mem_replicate] at hc; rcases hc with rfl | ⟨_, rfl⟩ <;> decide)
    (by rw [hv]; exact Nat.one_le_pow _ _ (by omega)) (by rw [hv]; exact hlt)
  exact ⟨_, m, by simp [vectorText], h1, by rw [h2, hv]; omega⟩

/-! ## the hypotheses are met -/

/-- a text with a function, a string, a call, a switch -/
def sizeText : List Char := "x 3; f(a, b) { extrn x; switch (a) { case 1: x = b; case 2: g(\"hi\", a ? b : x); } }".toList

/-- It is accepted; its module has 58 units. The bound is 6 · 83. -/
example : ∃ m, compileText sizeText .eof = .ok m ∧ moduleUnits m = 58 := by
  have h : (match compileText sizeText .eof with | .ok m => moduleUnits m | .error _ => 0) = 58 := by decide +kernel
  cases e : compileText sizeText .eof with
  | ok m => rw [e] at h; exact ⟨m, rfl, h⟩
  | error _ => rw [e] at h; cases h

end Blang.Props
