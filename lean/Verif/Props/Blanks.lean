import Verif.Proofs.BlanksSt
import Verif.Proofs.Text
import Verif.Props.Termination
import Verif.Props.Semantics
/-
C94: the exact form of C31.  Where there is a blank already, the amount of layout does not matter.
C96: which blank it is does not matter either.

`Outside` (the place is not inside a comment or a literal) and `KeepsElse` are in Verif/Spec/Outside.lean.
-/
namespace Blang.Props
open Blang Blang.Spec

/-- the outcome of the compiler on two texts that the parser cannot tell apart -/
theorem compile_loose {x y : List Char} (t : Tail) (h : Blanks.Loose False KeepsElse x y) : compileText x t = compileText y t := by
  have hx := C08_terminates x t
  have hy := C08_terminates y t
  unfold compileText at *
  rcases Blanks.tw_parseDeclarations (fuelFor x.length) (fuelFor y.length) h (t, newCompiler) with h1 | h1 | ⟨er, er', h1, h2, hf | rfl⟩ | ⟨a, x', y', e', h1, h2, _⟩
  · simp only [h1] at hx; exact absurd rfl hx
  · simp only [h1] at hy; exact absurd rfl hy
  · exact hf.elim
  · simp only [h1, h2]
  · simp only [h1, h2]

/-- C94. Behind a blank that is outside comments and literals, layout can be put in or left out: the outcome, an emitted module or an error,
is the same. -/
theorem C94_blank {a b lay : List Char} {s : Char} (t : Tail) (hs : Blank s) (hl : Layout lay) (ho : Outside a) (hk : KeepsElse a) :
    compileText (a ++ s :: (lay ++ b)) t = compileText (a ++ s :: b) t :=
  (compile_loose t (.inl (.apart hs hs (.inr rfl) hl ho hk))).symm

/-- C94. Hence two layouts that both follow a blank are interchangeable. -/
theorem C94_layouts {a b lay lay' : List Char} {s : Char} (t : Tail) (hs : Blank s) (hl : Layout lay) (hl' : Layout lay') (ho : Outside a)
    (hk : KeepsElse a) : compileText (a ++ s :: (lay ++ b)) t = compileText (a ++ s :: (lay' ++ b)) t :=
  (C94_blank t hs hl ho hk).trans (C94_blank t hs hl' ho hk).symm

/-- C94. At the beginning of the text no blank is needed. -/
theorem C94_front {lay text : List Char} (t : Tail) (hl : Layout lay) : compileText (lay ++ text) t = compileText text t :=
  (compile_loose t (.inr ⟨lay, hl, rfl⟩)).symm

/-- the text before the blank in the examples: it has a string with blanks and a comment sign, a comment with a quote, an `else` and `=/` -/
def blankSample : List Char := "main(){auto x;if(x)f(\"a  /** b*\"\");else /* c \" */x=/2;x =".toList

/-- C94: the blank behind the sample meets the hypotheses, and the text is accepted -/
example : Blank '\n' ∧ Outside blankSample ∧ KeepsElse blankSample ∧ Layout "/* x */ \t".toList ∧
    (emitted "main(){auto x;if(x)f(\"a  /** b*\"\");else /* c \" */x=/2;x =\n/* x */ \tx;}").isSome = true := by
  refine ⟨by decide, ⟨['='], by decide +kernel⟩, by unfold KeepsElse; decide +kernel, ?_, by decide +kernel⟩
  exact .comment (body := " x ".toList) (s := " \t".toList) (by unfold NoClose; decide +kernel) (.blank (by decide) (.blank (by decide) .nil))

/-- `C94_blank` is false inside a literal. -/
theorem C94_inside_counterexample : ¬ Outside "main(){f('".toList ∧
    compileText "main(){f(' ');}".toList .eof ≠ compileText "main(){f('   ');}".toList .eof := by
  have h : emitted "main(){f(' ');}" ≠ emitted "main(){f('   ');}" := by decide +kernel
  refine ⟨?_, fun e => h (by rw [emitted, e, emitted])⟩
  rintro ⟨s, hs⟩
  have : Mode.run (.code []) "main(){f('".toList = .quoted '\'' false := by decide +kernel
  rw [this] at hs; cases hs

/-- `C94_blank` is false when an `else` that is directly followed by a quote precedes: the compiler overlooks this quote and takes the next one
for the beginning of a literal. -/
theorem C94_else_counterexample : Outside "main(){auto b;if(1)f();else'b;'a".toList ∧
    (∃ m, compileText "main(){auto b;if(1)f();else'b;'a ';/*'*/}".toList .eof = .ok m) ∧
    ∃ e, compileText "main(){auto b;if(1)f();else'b;'a         ';/*'*/}".toList .eof = .error e := by
  refine ⟨⟨[], by decide +kernel⟩, ?_, ?_⟩
  · have : (emitted "main(){auto b;if(1)f();else'b;'a ';/*'*/}").isSome = true := by decide +kernel
    obtain ⟨m, hm⟩ := Option.isSome_iff_exists.1 this
    exact ⟨m, compile_of_emitted hm⟩
  · have : emitted "main(){auto b;if(1)f();else'b;'a         ';/*'*/}" = none := by decide +kernel
    simp only [emitted] at this
    match h : compileText "main(){auto b;if(1)f();else'b;'a         ';/*'*/}".toList .eof with
    | .error e => exact ⟨e, rfl⟩
    | .ok m => rw [h] at this; cases this

/-! ### which blank -/

/-- the outcome of the compiler on two texts that the parser cannot tell apart except in messages -/
theorem compile_loose_ok {x y : List Char} (t : Tail) (h : Blanks.Loose True KeepsElse x y) (m : Module) :
    compileText x t = .ok m ↔ compileText y t = .ok m := by
  have hx := C08_terminates x t
  have hy := C08_terminates y t
  unfold compileText at *
  rcases Blanks.tw_parseDeclarations (fuelFor x.length) (fuelFor y.length) h (t, newCompiler) with h1 | h1 | ⟨er, er', h1, h2, _⟩ | ⟨a, x', y', e', h1, h2, _⟩
  · simp only [h1] at hx; exact absurd rfl hx
  · simp only [h1] at hy; exact absurd rfl hy
  · simp only [h1, h2]
    constructor <;> (intro h; cases h)
  · simp only [h1, h2]

/-- C96. A blank outside comments and literals can be replaced by another blank: the same module is emitted, or both texts are rejected. -/
theorem C96_blank {a b : List Char} {s s' : Char} (t : Tail) (hs : Blank s) (hs' : Blank s') (ho : Outside a) (hk : KeepsElse a) (m : Module) :
    compileText (a ++ s :: b) t = .ok m ↔ compileText (a ++ s' :: b) t = .ok m :=
  compile_loose_ok t (.inl (.apart (lay := []) hs hs' (.inl trivial) .nil ho hk)) m

/-- C96. Two layouts that both begin with a blank are interchangeable. -/
theorem C96_layouts {a b lay lay' : List Char} {s s' : Char} (t : Tail) (hs : Blank s) (hs' : Blank s') (hl : Layout lay) (hl' : Layout lay')
    (ho : Outside a) (hk : KeepsElse a) (m : Module) :
    compileText (a ++ s :: (lay ++ b)) t = .ok m ↔ compileText (a ++ s' :: (lay' ++ b)) t = .ok m := by
  rw [C94_blank t hs hl ho hk, C94_blank t hs' hl' ho hk]
  exact C96_blank t hs hs' ho hk m

/-- C96. Two layouts at the beginning of the text are interchangeable. -/
theorem C96_front {lay lay' text : List Char} (t : Tail) (hl : Layout lay) (hl' : Layout lay') : compileText (lay ++ text) t = compileText (lay' ++ text) t :=
  (C94_front t hl).trans (C94_front t hl').symm

/-- C96: a blank, a tabulator, a line end, a carriage return, a vertical tabulator and a form feed are blanks; the one behind the sample may be any of them. -/
example : (∀ c ∈ [' ', '\t', '\n', '\r', '\x0b', '\x0c'], Blank c) ∧ Outside blankSample ∧ KeepsElse blankSample ∧
    ∀ c ∈ [' ', '\t', '\n', '\r', '\x0b', '\x0c'], (emitted (String.ofList (blankSample ++ c :: "x;}".toList))).isSome = true := by
  refine ⟨by decide, ⟨['='], by decide +kernel⟩, by unfold KeepsElse; decide +kernel, by decide +kernel⟩

/-- the message of a rejected text -/
def messageOf (text : List Char) : Option String := match compileText text .eof with
  | .error (.msg m) => some m
  | _ => none

theorem of_messageOf {text : List Char} {m : String} (h : messageOf text = some m) : compileText text .eof = .error (.msg m) := by
  unfold messageOf at h
  split at h
  · next e => cases h; exact e
  · cases h

/-- The messages can differ: one of them quotes the blank. -/
theorem C96_message_counterexample : Outside "main(){1!".toList ∧ KeepsElse "main(){1!".toList ∧
    compileText "main(){1! 2;}".toList .eof = .error (.msg "unknown operator '! '") ∧
    compileText "main(){1!\n2;}".toList .eof = .error (.msg "unknown operator '!\n'") := by
  refine ⟨⟨['!'], by decide +kernel⟩, by unfold KeepsElse; decide +kernel, ?_, ?_⟩
  · exact of_messageOf (by decide +kernel)
  · exact of_messageOf (by decide +kernel)

end Blang.Props
