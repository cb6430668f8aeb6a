import Verif.Props.TestPrograms
/-
Property C100: test programs of the repository.
-/
namespace Blang.Props
open Blang Blang.Spec

/-- the test `mul_and_add` -/
def mulAndAddText : List Char := "main() {
                printf(\"4 ** 2 & 3 + 1 -> %d*n\", 4 * 2 & 3 + 1);
            }".toList

/-- its syntax tree -/
def mulAndAddProg : Program :=
[.func ("main".toList) [] (.seq (.expr (.callName ("printf".toList) [(.str [52, 32, 42, 32, 50, 32, 38, 32, 51, 32, 43, 32, 49, 32, 45, 62, 32, 37, 100, 10]), (.bin .band (.bin .mul (.num 4) (.num 2)) (.bin .add (.num 3) (.num 1)))]))
  .skip)]

set_option maxRecDepth 50000 in
theorem mulAndAdd_checks : Program.isSame mulAndAddProg (refParse prec mulAndAddText) = true ∧ mulAndAddProg.Tame ∧ mulAndAddProg.Clear ∧
    (Program.Scoped Env.empty mulAndAddProg ∧ ∀ d ∈ mulAndAddProg, d.CasesOk) := by
  decide_text mulAndAddText

attribute [irreducible] mulAndAddText

/-- the globals of its module -/
def mulAndAddGlobals : List (List Char × GInit) :=
[((".str.0".toList), Blang.GInit.bytes [0x34#8, 0x20#8, 0x2a#8, 0x20#8, 0x32#8, 0x20#8, 0x26#8, 0x20#8, 0x33#8, 0x20#8, 0x2b#8, 0x20#8, 0x31#8, 0x20#8, 0x2d#8, 0x3e#8, 0x20#8, 0x25#8, 0x64#8, 0x0a#8, 0x00#8])]

set_option maxRecDepth 20000 in
theorem mulAndAdd_globals : globalsAre mulAndAddProg mulAndAddGlobals = true := by decide +kernel

/-- what the test expects -/
def mulAndAddOut : List Char := "4 * 2 & 3 + 1 -> 0\n".toList

set_option maxRecDepth 20000 in
theorem mulAndAdd_run : Interp.run mulAndAddProg mulAndAddGlobals 40 2000 40 6 = some (codes mulAndAddOut) := by decide +kernel

/-- The process of the test `mul_and_add` writes what the test expects. -/
theorem mulAndAdd_writes : WritesOnAll mulAndAddText mulAndAddOut 40 40 :=
  writes_of_run mulAndAdd_checks.1 mulAndAdd_checks.2.1 mulAndAdd_checks.2.2.1 mulAndAdd_checks.2.2.2 mulAndAdd_globals mulAndAdd_run

/-- the test `mul_ge_eq` -/
def mulGeEqText : List Char := "main() {
                printf(\"5 ** 2 >= 10 == 1 -> %d*n\", 5 * 2 >= 10 == 1);
            }".toList

/-- its syntax tree -/
def mulGeEqProg : Program :=
[.func ("main".toList) [] (.seq (.expr (.callName ("printf".toList) [(.str [53, 32, 42, 32, 50, 32, 62, 61, 32, 49, 48, 32, 61, 61, 32, 49, 32, 45, 62, 32, 37, 100, 10]), (.bin .eq (.bin .ge (.bin .mul (.num 5) (.num 2)) (.num 10)) (.num 1))]))
  .skip)]

set_option maxRecDepth 50000 in
theorem mulGeEq_checks : Program.isSame mulGeEqProg (refParse prec mulGeEqText) = true ∧ mulGeEqProg.Tame ∧ mulGeEqProg.Clear ∧
    (Program.Scoped Env.empty mulGeEqProg ∧ ∀ d ∈ mulGeEqProg, d.CasesOk) := by
  decide_text mulGeEqText

attribute [irreducible] mulGeEqText

/-- the globals of its module -/
def mulGeEqGlobals : List (List Char × GInit) :=
[((".str.0".toList), Blang.GInit.bytes [0x35#8, 0x20#8, 0x2a#8, 0x20#8, 0x32#8, 0x20#8, 0x3e#8, 0x3d#8, 0x20#8, 0x31#8, 0x30#8, 0x20#8, 0x3d#8, 0x3d#8, 0x20#8, 0x31#8, 0x20#8, 0x2d#8, 0x3e#8, 0x20#8, 0x25#8, 0x64#8, 0x0a#8, 0x00#8])]

set_option maxRecDepth 20000 in
theorem mulGeEq_globals : globalsAre mulGeEqProg mulGeEqGlobals = true := by decide +kernel

/-- what the test expects -/
def mulGeEqOut : List Char := "5 * 2 >= 10 == 1 -> 1\n".toList

set_option maxRecDepth 20000 in
theorem mulGeEq_run : Interp.run mulGeEqProg mulGeEqGlobals 40 2000 40 6 = some (codes mulGeEqOut) := by decide +kernel

/-- The process of the test `mul_ge_eq` writes what the test expects. -/
theorem mulGeEq_writes : WritesOnAll mulGeEqText mulGeEqOut 40 40 :=
  writes_of_run mulGeEq_checks.1 mulGeEq_checks.2.1 mulGeEq_checks.2.2.1 mulGeEq_checks.2.2.2 mulGeEq_globals mulGeEq_run

/-- the test `mul_lshift` -/
def mulLshiftText : List Char := "main() {
                printf(\"4 ** 3 << 2 -> %d*n\", 4 * 3 << 2);
            }".toList

/-- its syntax tree -/
def mulLshiftProg : Program :=
[.func ("main".toList) [] (.seq (.expr (.callName ("printf".toList) [(.str [52, 32, 42, 32, 51, 32, 60, 60, 32, 50, 32, 45, 62, 32, 37, 100, 10]), (.bin .shl (.bin .mul (.num 4) (.num 3)) (.num 2))]))
  .skip)]

set_option maxRecDepth 50000 in
theorem mulLshift_checks : Program.isSame mulLshiftProg (refParse prec mulLshiftText) = true ∧ mulLshiftProg.Tame ∧ mulLshiftProg.Clear ∧
    (Program.Scoped Env.empty mulLshiftProg ∧ ∀ d ∈ mulLshiftProg, d.CasesOk) := by
  decide_text mulLshiftText

attribute [irreducible] mulLshiftText

/-- the globals of its module -/
def mulLshiftGlobals : List (List Char × GInit) :=
[((".str.0".toList), Blang.GInit.bytes [0x34#8, 0x20#8, 0x2a#8, 0x20#8, 0x33#8, 0x20#8, 0x3c#8, 0x3c#8, 0x20#8, 0x32#8, 0x20#8, 0x2d#8, 0x3e#8, 0x20#8, 0x25#8, 0x64#8, 0x0a#8, 0x00#8])]

set_option maxRecDepth 20000 in
theorem mulLshift_globals : globalsAre mulLshiftProg mulLshiftGlobals = true := by decide +kernel

/-- what the test expects -/
def mulLshiftOut : List Char := "4 * 3 << 2 -> 48\n".toList

set_option maxRecDepth 20000 in
theorem mulLshift_run : Interp.run mulLshiftProg mulLshiftGlobals 40 2000 40 6 = some (codes mulLshiftOut) := by decide +kernel

/-- The process of the test `mul_lshift` writes what the test expects. -/
theorem mulLshift_writes : WritesOnAll mulLshiftText mulLshiftOut 40 40 :=
  writes_of_run mulLshift_checks.1 mulLshift_checks.2.1 mulLshift_checks.2.2.1 mulLshift_checks.2.2.2 mulLshift_globals mulLshift_run

/-- the test `mul_lshift_add` -/
def mulLshiftAddText : List Char := "main() {
                printf(\"5 ** 2 << 1 + 3 -> %d*n\", 5 * 2 << 1 + 3);
            }".toList

/-- its syntax tree -/
def mulLshiftAddProg : Program :=
[.func ("main".toList) [] (.seq (.expr (.callName ("printf".toList) [(.str [53, 32, 42, 32, 50, 32, 60, 60, 32, 49, 32, 43, 32, 51, 32, 45, 62, 32, 37, 100, 10]), (.bin .shl (.bin .mul (.num 5) (.num 2)) (.bin .add (.num 1) (.num 3)))]))
  .skip)]

set_option maxRecDepth 50000 in
theorem mulLshiftAdd_checks : Program.isSame mulLshiftAddProg (refParse prec mulLshiftAddText) = true ∧ mulLshiftAddProg.Tame ∧ mulLshiftAddProg.Clear ∧
    (Program.Scoped Env.empty mulLshiftAddProg ∧ ∀ d ∈ mulLshiftAddProg, d.CasesOk) := by
  decide_text mulLshiftAddText

attribute [irreducible] mulLshiftAddText

/-- the globals of its module -/
def mulLshiftAddGlobals : List (List Char × GInit) :=
[((".str.0".toList), Blang.GInit.bytes [0x35#8, 0x20#8, 0x2a#8, 0x20#8, 0x32#8, 0x20#8, 0x3c#8, 0x3c#8, 0x20#8, 0x31#8, 0x20#8, 0x2b#8, 0x20#8, 0x33#8, 0x20#8, 0x2d#8, 0x3e#8, 0x20#8, 0x25#8, 0x64#8, 0x0a#8, 0x00#8])]

set_option maxRecDepth 20000 in
theorem mulLshiftAdd_globals : globalsAre mulLshiftAddProg mulLshiftAddGlobals = true := by decide +kernel

/-- what the test expects -/
def mulLshiftAddOut : List Char := "5 * 2 << 1 + 3 -> 160\n".toList

set_option maxRecDepth 20000 in
theorem mulLshiftAdd_run : Interp.run mulLshiftAddProg mulLshiftAddGlobals 40 2000 40 6 = some (codes mulLshiftAddOut) := by decide +kernel

/-- The process of the test `mul_lshift_add` writes what the test expects. -/
theorem mulLshiftAdd_writes : WritesOnAll mulLshiftAddText mulLshiftAddOut 40 40 :=
  writes_of_run mulLshiftAdd_checks.1 mulLshiftAdd_checks.2.1 mulLshiftAdd_checks.2.2.1 mulLshiftAdd_checks.2.2.2 mulLshiftAdd_globals mulLshiftAdd_run

/-- the test `mul_or` -/
def mulOrText : List Char := "main() {
                printf(\"0 ** 5 | 3 -> %d*n\", 0 * 5 | 3);
            }".toList

/-- its syntax tree -/
def mulOrProg : Program :=
[.func ("main".toList) [] (.seq (.expr (.callName ("printf".toList) [(.str [48, 32, 42, 32, 53, 32, 124, 32, 51, 32, 45, 62, 32, 37, 100, 10]), (.bin .bor (.bin .mul (.num 0) (.num 5)) (.num 3))]))
  .skip)]

set_option maxRecDepth 50000 in
theorem mulOr_checks : Program.isSame mulOrProg (refParse prec mulOrText) = true ∧ mulOrProg.Tame ∧ mulOrProg.Clear ∧
    (Program.Scoped Env.empty mulOrProg ∧ ∀ d ∈ mulOrProg, d.CasesOk) := by
  decide_text mulOrText

attribute [irreducible] mulOrText

/-- the globals of its module -/
def mulOrGlobals : List (List Char × GInit) :=
[((".str.0".toList), Blang.GInit.bytes [0x30#8, 0x20#8, 0x2a#8, 0x20#8, 0x35#8, 0x20#8, 0x7c#8, 0x20#8, 0x33#8, 0x20#8, 0x2d#8, 0x3e#8, 0x20#8, 0x25#8, 0x64#8, 0x0a#8, 0x00#8])]

set_option maxRecDepth 20000 in
theorem mulOr_globals : globalsAre mulOrProg mulOrGlobals = true := by decide +kernel

/-- what the test expects -/
def mulOrOut : List Char := "0 * 5 | 3 -> 3\n".toList

set_option maxRecDepth 20000 in
theorem mulOr_run : Interp.run mulOrProg mulOrGlobals 40 2000 40 6 = some (codes mulOrOut) := by decide +kernel

/-- The process of the test `mul_or` writes what the test expects. -/
theorem mulOr_writes : WritesOnAll mulOrText mulOrOut 40 40 :=
  writes_of_run mulOr_checks.1 mulOr_checks.2.1 mulOr_checks.2.2.1 mulOr_checks.2.2.2 mulOr_globals mulOr_run

/-- the test `ne_or` -/
def neOrText : List Char := "main() {
                printf(\"1 != 1 | 2 -> %d*n\", 1 != 1 | 2);
            }".toList

/-- its syntax tree -/
def neOrProg : Program :=
[.func ("main".toList) [] (.seq (.expr (.callName ("printf".toList) [(.str [49, 32, 33, 61, 32, 49, 32, 124, 32, 50, 32, 45, 62, 32, 37, 100, 10]), (.bin .bor (.bin .ne (.num 1) (.num 1)) (.num 2))]))
  .skip)]

set_option maxRecDepth 50000 in
theorem neOr_checks : Program.isSame neOrProg (refParse prec neOrText) = true ∧ neOrProg.Tame ∧ neOrProg.Clear ∧
    (Program.Scoped Env.empty neOrProg ∧ ∀ d ∈ neOrProg, d.CasesOk) := by
  decide_text neOrText

attribute [irreducible] neOrText

/-- the globals of its module -/
def neOrGlobals : List (List Char × GInit) :=
[((".str.0".toList), Blang.GInit.bytes [0x31#8, 0x20#8, 0x21#8, 0x3d#8, 0x20#8, 0x31#8, 0x20#8, 0x7c#8, 0x20#8, 0x32#8, 0x20#8, 0x2d#8, 0x3e#8, 0x20#8, 0x25#8, 0x64#8, 0x0a#8, 0x00#8])]

set_option maxRecDepth 20000 in
theorem neOr_globals : globalsAre neOrProg neOrGlobals = true := by decide +kernel

/-- what the test expects -/
def neOrOut : List Char := "1 != 1 | 2 -> 2\n".toList

set_option maxRecDepth 20000 in
theorem neOr_run : Interp.run neOrProg neOrGlobals 40 2000 40 6 = some (codes neOrOut) := by decide +kernel

/-- The process of the test `ne_or` writes what the test expects. -/
theorem neOr_writes : WritesOnAll neOrText neOrOut 40 40 :=
  writes_of_run neOr_checks.1 neOr_checks.2.1 neOr_checks.2.2.1 neOr_checks.2.2.2 neOr_globals neOr_run

/-- the tests of this file: the text of a program and what the test expects it to write -/
def testProgramsI : List (List Char × List Char) :=
  [(mulAndAddText, mulAndAddOut), (mulGeEqText, mulGeEqOut), (mulLshiftText, mulLshiftOut), (mulLshiftAddText, mulLshiftAddOut), (mulOrText, mulOrOut), (neOrText, neOrOut)]

theorem testProgramsI_write : AllWrite testProgramsI :=
  .cons mulAndAdd_writes (.cons mulGeEq_writes (.cons mulLshift_writes (.cons mulLshiftAdd_writes (.cons mulOr_writes (.cons neOr_writes (.nil))))))

end Blang.Props
