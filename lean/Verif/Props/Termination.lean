import Verif.Proofs.Fuel
/-
C08: the front end terminates on every input.

Every Go loop and every recursive call of the parser is bounded in the model by a number, the fuel;
the outcome `Err.fuel`, which does not exist in Go, means that a bound was reached.  The theorems say that
with a bound linear in the length of the source this never happens, and that a larger bound (so: no
bound, as in Go) gives the same outcome.
-/
namespace Blang.Props
open Blang

/-- For every text, however it ends, the front end finishes with a module or one of its own error
reports, never by exhausting the bound. -/
theorem C08_terminates (chars : List Char) (tail : Tail) :
    compileText chars tail ≠ .error .fuel := by
  have h := (parseDeclarations_fuel (n := fuelFor chars.length) (m := fuelFor chars.length)
    (s := ⟨⟨chars, tail⟩, newCompiler⟩) (by unfold plen fuelFor; simp only; omega) (Nat.le_refl _)).1
  unfold compileText
  generalize parseDeclarations _ _ = r at h
  cases r with
  | ok a s => intro e; cases e
  | err e => intro e2; cases e2; exact h rfl

/-- The same for files given as bytes. -/
theorem C08_terminates_bytes (bytes : List (BitVec 8)) (tail : Tail) :
    compileFile bytes tail ≠ .error .fuel := by
  have h := C08_terminates (bytes.map fun b => Char.ofNat b.toNat) tail
  simp only [compileText] at h
  simp only [compileFile]
  exact h

/-- The bound is no restriction: any bound above twice the length of the source allows the run to
finish, and all of them give the same outcome. So the number of iterations of each loop and the depth of the
recursion never exceed `2 * length + 1`. -/
theorem C08_bound_irrelevant (chars : List Char) (tail : Tail) (n : Nat) (hn : 2 * chars.length < n) :
    parseDeclarations n ⟨⟨chars, tail⟩, newCompiler⟩ ≠ .err .fuel ∧
    parseDeclarations n ⟨⟨chars, tail⟩, newCompiler⟩ =
      parseDeclarations (fuelFor chars.length) ⟨⟨chars, tail⟩, newCompiler⟩ := by
  have h := parseDeclarations_fuel (s := ⟨⟨chars, tail⟩, newCompiler⟩) hn (Nat.le_refl _)
  have hf := parseDeclarations_fuel (n := fuelFor chars.length) (m := fuelFor chars.length)
    (s := ⟨⟨chars, tail⟩, newCompiler⟩) (by unfold plen fuelFor; simp only; omega) (Nat.le_refl _)
  refine ⟨h.1, ?_⟩
  rcases Nat.le_total n (fuelFor chars.length) with hle | hle
  · exact (parseDeclarations_ref hle _ h.1).symm
  · exact parseDeclarations_ref hle _ hf.1

/-- a program for which a small bound is really exhausted, while the bound of the theorem suffices -/
example : (match parseDeclarations 4 ⟨⟨"main() { f(1, 2, 3, 4, 5, 6); }".toList, .eof⟩, newCompiler⟩ with
      | .err .fuel => true | _ => false) = true ∧
    (match compileText "main() { f(1, 2, 3, 4, 5, 6); }".toList .eof with
      | .ok _ => true | .error _ => false) = true := by decide +kernel

end Blang.Props
