import Verif.Props.TestPrograms
/-
Property C100: test programs of the repository.
-/
namespace Blang.Props
open Blang Blang.Spec

/-- the test `assign_or` -/
def assignOrText : List Char := "main() { auto x; x = 12; x =| 10; printf(\"%d*n\", x); }".toList

/-- its syntax tree -/
def assignOrProg : Program :=
[.func ("main".toList) [] (.seq (.auto [(("x".toList), none)])
  (.seq (.expr (.assign none (.var ("x".toList)) (.num 12)))
  (.seq (.expr (.assign (some .bor) (.var ("x".toList)) (.num 10)))
  (.seq (.expr (.callName ("printf".toList) [(.str [37, 100, 10]), (.var ("x".toList))]))
  .skip))))]

set_option maxRecDepth 50000 in
theorem assignOr_checks : Program.isSame assignOrProg (refParse prec assignOrText) = true ∧ assignOrProg.Tame ∧ assignOrProg.Clear ∧
    (Program.Scoped Env.empty assignOrProg ∧ ∀ d ∈ assignOrProg, d.CasesOk) := by
  decide_text assignOrText

attribute [irreducible] assignOrText

/-- the globals of its module -/
def assignOrGlobals : List (List Char × GInit) :=
[((".str.0".toList), Blang.GInit.bytes [0x25#8, 0x64#8, 0x0a#8, 0x00#8])]

set_option maxRecDepth 20000 in
theorem assignOr_globals : globalsAre assignOrProg assignOrGlobals = true := by decide +kernel

/-- what the test expects -/
def assignOrOut : List Char := "14\n".toList

set_option maxRecDepth 20000 in
theorem assignOr_run : Interp.run assignOrProg assignOrGlobals 40 2000 40 6 = some (codes assignOrOut) := by decide +kernel

/-- The process of the test `assign_or` writes what the test expects. -/
theorem assignOr_writes : WritesOnAll assignOrText assignOrOut 40 40 :=
  writes_of_run assignOr_checks.1 assignOr_checks.2.1 assignOr_checks.2.2.1 assignOr_checks.2.2.2 assignOr_globals assignOr_run

/-- the test `assign_shift_left` -/
def assignShiftLeftText : List Char := "main() { auto x; x = 2; x =<< 2; printf(\"%d*n\", x); }".toList

/-- its syntax tree -/
def assignShiftLeftProg : Program :=
[.func ("main".toList) [] (.seq (.auto [(("x".toList), none)])
  (.seq (.expr (.assign none (.var ("x".toList)) (.num 2)))
  (.seq (.expr (.assign (some .shl) (.var ("x".toList)) (.num 2)))
  (.seq (.expr (.callName ("printf".toList) [(.str [37, 100, 10]), (.var ("x".toList))]))
  .skip))))]

set_option maxRecDepth 50000 in
theorem assignShiftLeft_checks : Program.isSame assignShiftLeftProg (refParse prec assignShiftLeftText) = true ∧ assignShiftLeftProg.Tame ∧ assignShiftLeftProg.Clear ∧
    (Program.Scoped Env.empty assignShiftLeftProg ∧ ∀ d ∈ assignShiftLeftProg, d.CasesOk) := by
  decide_text assignShiftLeftText

attribute [irreducible] assignShiftLeftText

/-- the globals of its module -/
def assignShiftLeftGlobals : List (List Char × GInit) :=
[((".str.0".toList), Blang.GInit.bytes [0x25#8, 0x64#8, 0x0a#8, 0x00#8])]

set_option maxRecDepth 20000 in
theorem assignShiftLeft_globals : globalsAre assignShiftLeftProg assignShiftLeftGlobals = true := by decide +kernel

/-- what the test expects -/
def assignShiftLeftOut : List Char := "8\n".toList

set_option maxRecDepth 20000 in
theorem assignShiftLeft_run : Interp.run assignShiftLeftProg assignShiftLeftGlobals 40 2000 40 6 = some (codes assignShiftLeftOut) := by decide +kernel

/-- The process of the test `assign_shift_left` writes what the test expects. -/
theorem assignShiftLeft_writes : WritesOnAll assignShiftLeftText assignShiftLeftOut 40 40 :=
  writes_of_run assignShiftLeft_checks.1 assignShiftLeft_checks.2.1 assignShiftLeft_checks.2.2.1 assignShiftLeft_checks.2.2.2 assignShiftLeft_globals assignShiftLeft_run

/-- the test `assign_shift_right` -/
def assignShiftRightText : List Char := "main() { auto x; x = 16; x =>> 2; printf(\"%d*n\", x); }".toList

/-- its syntax tree -/
def assignShiftRightProg : Program :=
[.func ("main".toList) [] (.seq (.auto [(("x".toList), none)])
  (.seq (.expr (.assign none (.var ("x".toList)) (.num 16)))
  (.seq (.expr (.assign (some .shr) (.var ("x".toList)) (.num 2)))
  (.seq (.expr (.callName ("printf".toList) [(.str [37, 100, 10]), (.var ("x".toList))]))
  .skip))))]

set_option maxRecDepth 50000 in
theorem assignShiftRight_checks : Program.isSame assignShiftRightProg (refParse prec assignShiftRightText) = true ∧ assignShiftRightProg.Tame ∧ assignShiftRightProg.Clear ∧
    (Program.Scoped Env.empty assignShiftRightProg ∧ ∀ d ∈ assignShiftRightProg, d.CasesOk) := by
  decide_text assignShiftRightText

attribute [irreducible] assignShiftRightText

/-- the globals of its module -/
def assignShiftRightGlobals : List (List Char × GInit) :=
[((".str.0".toList), Blang.GInit.bytes [0x25#8, 0x64#8, 0x0a#8, 0x00#8])]

set_option maxRecDepth 20000 in
theorem assignShiftRight_globals : globalsAre assignShiftRightProg assignShiftRightGlobals = true := by decide +kernel

/-- what the test expects -/
def assignShiftRightOut : List Char := "4\n".toList

set_option maxRecDepth 20000 in
theorem assignShiftRight_run : Interp.run assignShiftRightProg assignShiftRightGlobals 40 2000 40 6 = some (codes assignShiftRightOut) := by decide +kernel

/-- The process of the test `assign_shift_right` writes what the test expects. -/
theorem assignShiftRight_writes : WritesOnAll assignShiftRightText assignShiftRightOut 40 40 :=
  writes_of_run assignShiftRight_checks.1 assignShiftRight_checks.2.1 assignShiftRight_checks.2.2.1 assignShiftRight_checks.2.2.2 assignShiftRight_globals assignShiftRight_run

/-- the test `assign_subtract` -/
def assignSubtractText : List Char := "main() { auto x; x = 10; x =- 3; printf(\"%d*n\", x); }".toList

/-- its syntax tree -/
def assignSubtractProg : Program :=
[.func ("main".toList) [] (.seq (.auto [(("x".toList), none)])
  (.seq (.expr (.assign none (.var ("x".toList)) (.num 10)))
  (.seq (.expr (.assign (some .sub) (.var ("x".toList)) (.num 3)))
  (.seq (.expr (.callName ("printf".toList) [(.str [37, 100, 10]), (.var ("x".toList))]))
  .skip))))]

set_option maxRecDepth 50000 in
theorem assignSubtract_checks : Program.isSame assignSubtractProg (refParse prec assignSubtractText) = true ∧ assignSubtractProg.Tame ∧ assignSubtractProg.Clear ∧
    (Program.Scoped Env.empty assignSubtractProg ∧ ∀ d ∈ assignSubtractProg, d.CasesOk) := by
  decide_text assignSubtractText

attribute [irreducible] assignSubtractText

/-- the globals of its module -/
def assignSubtractGlobals : List (List Char × GInit) :=
[((".str.0".toList), Blang.GInit.bytes [0x25#8, 0x64#8, 0x0a#8, 0x00#8])]

set_option maxRecDepth 20000 in
theorem assignSubtract_globals : globalsAre assignSubtractProg assignSubtractGlobals = true := by decide +kernel

/-- what the test expects -/
def assignSubtractOut : List Char := "7\n".toList

set_option maxRecDepth 20000 in
theorem assignSubtract_run : Interp.run assignSubtractProg assignSubtractGlobals 40 2000 40 6 = some (codes assignSubtractOut) := by decide +kernel

/-- The process of the test `assign_subtract` writes what the test expects. -/
theorem assignSubtract_writes : WritesOnAll assignSubtractText assignSubtractOut 40 40 :=
  writes_of_run assignSubtract_checks.1 assignSubtract_checks.2.1 assignSubtract_checks.2.2.1 assignSubtract_checks.2.2.2 assignSubtract_globals assignSubtract_run

/-- the tests of this file: the text of a program and what the test expects it to write -/
def testProgramsC : List (List Char × List Char) :=
  [(assignOrText, assignOrOut), (assignShiftLeftText, assignShiftLeftOut), (assignShiftRightText, assignShiftRightOut), (assignSubtractText, assignSubtractOut)]

theorem testProgramsC_write : AllWrite testProgramsC :=
  .cons assignOr_writes (.cons assignShiftLeft_writes (.cons assignShiftRight_writes (.cons assignSubtract_writes (.nil))))

end Blang.Props
