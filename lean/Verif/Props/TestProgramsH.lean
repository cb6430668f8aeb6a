import Verif.Props.TestPrograms
/-
Property C100: test programs of the repository.
-/
namespace Blang.Props
open Blang Blang.Spec

/-- the test `lshift_and` -/
def lshiftAndText : List Char := "main() {
                printf(\"3 << 2 & 7 -> %d*n\", 3 << 2 & 7);
            }".toList

/-- its syntax tree -/
def lshiftAndProg : Program :=
[.func ("main".toList) [] (.seq (.expr (.callName ("printf".toList) [(.str [51, 32, 60, 60, 32, 50, 32, 38, 32, 55, 32, 45, 62, 32, 37, 100, 10]), (.bin .band (.bin .shl (.num 3) (.num 2)) (.num 7))]))
  .skip)]

set_option maxRecDepth 50000 in
theorem lshiftAnd_checks : Program.isSame lshiftAndProg (refParse prec lshiftAndText) = true ∧ lshiftAndProg.Tame ∧ lshiftAndProg.Clear ∧
    (Program.Scoped Env.empty lshiftAndProg ∧ ∀ d ∈ lshiftAndProg, d.CasesOk) := by
  decide_text lshiftAndText

attribute [irreducible] lshiftAndText

/-- the globals of its module -/
def lshiftAndGlobals : List (List Char × GInit) :=
[((".str.0".toList), Blang.GInit.bytes [0x33#8, 0x20#8, 0x3c#8, 0x3c#8, 0x20#8, 0x32#8, 0x20#8, 0x26#8, 0x20#8, 0x37#8, 0x20#8, 0x2d#8, 0x3e#8, 0x20#8, 0x25#8, 0x64#8, 0x0a#8, 0x00#8])]

set_option maxRecDepth 20000 in
theorem lshiftAnd_globals : globalsAre lshiftAndProg lshiftAndGlobals = true := by decide +kernel

/-- what the test expects -/
def lshiftAndOut : List Char := "3 << 2 & 7 -> 4\n".toList

set_option maxRecDepth 20000 in
theorem lshiftAnd_run : Interp.run lshiftAndProg lshiftAndGlobals 40 2000 40 6 = some (codes lshiftAndOut) := by decide +kernel

/-- The process of the test `lshift_and` writes what the test expects. -/
theorem lshiftAnd_writes : WritesOnAll lshiftAndText lshiftAndOut 40 40 :=
  writes_of_run lshiftAnd_checks.1 lshiftAnd_checks.2.1 lshiftAnd_checks.2.2.1 lshiftAnd_checks.2.2.2 lshiftAnd_globals lshiftAnd_run

/-- the test `lshift_gt_and` -/
def lshiftGtAndText : List Char := "main() {
                printf(\"1 << 3 > 5 & 2 -> %d*n\", 1 << 3 > 5 & 2);
            }".toList

/-- its syntax tree -/
def lshiftGtAndProg : Program :=
[.func ("main".toList) [] (.seq (.expr (.callName ("printf".toList) [(.str [49, 32, 60, 60, 32, 51, 32, 62, 32, 53, 32, 38, 32, 50, 32, 45, 62, 32, 37, 100, 10]), (.bin .band (.bin .gt (.bin .shl (.num 1) (.num 3)) (.num 5)) (.num 2))]))
  .skip)]

set_option maxRecDepth 50000 in
theorem lshiftGtAnd_checks : Program.isSame lshiftGtAndProg (refParse prec lshiftGtAndText) = true ∧ lshiftGtAndProg.Tame ∧ lshiftGtAndProg.Clear ∧
    (Program.Scoped Env.empty lshiftGtAndProg ∧ ∀ d ∈ lshiftGtAndProg, d.CasesOk) := by
  decide_text lshiftGtAndText

attribute [irreducible] lshiftGtAndText

/-- the globals of its module -/
def lshiftGtAndGlobals : List (List Char × GInit) :=
[((".str.0".toList), Blang.GInit.bytes [0x31#8, 0x20#8, 0x3c#8, 0x3c#8, 0x20#8, 0x33#8, 0x20#8, 0x3e#8, 0x20#8, 0x35#8, 0x20#8, 0x26#8, 0x20#8, 0x32#8, 0x20#8, 0x2d#8, 0x3e#8, 0x20#8, 0x25#8, 0x64#8, 0x0a#8, 0x00#8])]

set_option maxRecDepth 20000 in
theorem lshiftGtAnd_globals : globalsAre lshiftGtAndProg lshiftGtAndGlobals = true := by decide +kernel

/-- what the test expects -/
def lshiftGtAndOut : List Char := "1 << 3 > 5 & 2 -> 0\n".toList

set_option maxRecDepth 20000 in
theorem lshiftGtAnd_run : Interp.run lshiftGtAndProg lshiftGtAndGlobals 40 2000 40 6 = some (codes lshiftGtAndOut) := by decide +kernel

/-- The process of the test `lshift_gt_and` writes what the test expects. -/
theorem lshiftGtAnd_writes : WritesOnAll lshiftGtAndText lshiftGtAndOut 40 40 :=
  writes_of_run lshiftGtAnd_checks.1 lshiftGtAnd_checks.2.1 lshiftGtAnd_checks.2.2.1 lshiftGtAnd_checks.2.2.2 lshiftGtAnd_globals lshiftGtAnd_run

/-- the test `lshift_lt` -/
def lshiftLtText : List Char := "main() {
                printf(\"1 << 2 < 5 -> %d*n\", 1 << 2 < 5);
            }".toList

/-- its syntax tree -/
def lshiftLtProg : Program :=
[.func ("main".toList) [] (.seq (.expr (.callName ("printf".toList) [(.str [49, 32, 60, 60, 32, 50, 32, 60, 32, 53, 32, 45, 62, 32, 37, 100, 10]), (.bin .lt (.bin .shl (.num 1) (.num 2)) (.num 5))]))
  .skip)]

set_option maxRecDepth 50000 in
theorem lshiftLt_checks : Program.isSame lshiftLtProg (refParse prec lshiftLtText) = true ∧ lshiftLtProg.Tame ∧ lshiftLtProg.Clear ∧
    (Program.Scoped Env.empty lshiftLtProg ∧ ∀ d ∈ lshiftLtProg, d.CasesOk) := by
  decide_text lshiftLtText

attribute [irreducible] lshiftLtText

/-- the globals of its module -/
def lshiftLtGlobals : List (List Char × GInit) :=
[((".str.0".toList), Blang.GInit.bytes [0x31#8, 0x20#8, 0x3c#8, 0x3c#8, 0x20#8, 0x32#8, 0x20#8, 0x3c#8, 0x20#8, 0x35#8, 0x20#8, 0x2d#8, 0x3e#8, 0x20#8, 0x25#8, 0x64#8, 0x0a#8, 0x00#8])]

set_option maxRecDepth 20000 in
theorem lshiftLt_globals : globalsAre lshiftLtProg lshiftLtGlobals = true := by decide +kernel

/-- what the test expects -/
def lshiftLtOut : List Char := "1 << 2 < 5 -> 1\n".toList

set_option maxRecDepth 20000 in
theorem lshiftLt_run : Interp.run lshiftLtProg lshiftLtGlobals 40 2000 40 6 = some (codes lshiftLtOut) := by decide +kernel

/-- The process of the test `lshift_lt` writes what the test expects. -/
theorem lshiftLt_writes : WritesOnAll lshiftLtText lshiftLtOut 40 40 :=
  writes_of_run lshiftLt_checks.1 lshiftLt_checks.2.1 lshiftLt_checks.2.2.1 lshiftLt_checks.2.2.2 lshiftLt_globals lshiftLt_run

/-- the test `lshift_ne` -/
def lshiftNeText : List Char := "main() {
                printf(\"1 << 4 != 15 -> %d*n\", 1 << 4 != 15);
            }".toList

/-- its syntax tree -/
def lshiftNeProg : Program :=
[.func ("main".toList) [] (.seq (.expr (.callName ("printf".toList) [(.str [49, 32, 60, 60, 32, 52, 32, 33, 61, 32, 49, 53, 32, 45, 62, 32, 37, 100, 10]), (.bin .ne (.bin .shl (.num 1) (.num 4)) (.num 15))]))
  .skip)]

set_option maxRecDepth 50000 in
theorem lshiftNe_checks : Program.isSame lshiftNeProg (refParse prec lshiftNeText) = true ∧ lshiftNeProg.Tame ∧ lshiftNeProg.Clear ∧
    (Program.Scoped Env.empty lshiftNeProg ∧ ∀ d ∈ lshiftNeProg, d.CasesOk) := by
  decide_text lshiftNeText

attribute [irreducible] lshiftNeText

/-- the globals of its module -/
def lshiftNeGlobals : List (List Char × GInit) :=
[((".str.0".toList), Blang.GInit.bytes [0x31#8, 0x20#8, 0x3c#8, 0x3c#8, 0x20#8, 0x34#8, 0x20#8, 0x21#8, 0x3d#8, 0x20#8, 0x31#8, 0x35#8, 0x20#8, 0x2d#8, 0x3e#8, 0x20#8, 0x25#8, 0x64#8, 0x0a#8, 0x00#8])]

set_option maxRecDepth 20000 in
theorem lshiftNe_globals : globalsAre lshiftNeProg lshiftNeGlobals = true := by decide +kernel

/-- what the test expects -/
def lshiftNeOut : List Char := "1 << 4 != 15 -> 1\n".toList

set_option maxRecDepth 20000 in
theorem lshiftNe_run : Interp.run lshiftNeProg lshiftNeGlobals 40 2000 40 6 = some (codes lshiftNeOut) := by decide +kernel

/-- The process of the test `lshift_ne` writes what the test expects. -/
theorem lshiftNe_writes : WritesOnAll lshiftNeText lshiftNeOut 40 40 :=
  writes_of_run lshiftNe_checks.1 lshiftNe_checks.2.1 lshiftNe_checks.2.2.1 lshiftNe_checks.2.2.2 lshiftNe_globals lshiftNe_run

/-- the test `lt_eq` -/
def ltEqText : List Char := "main() {
                printf(\"4 < 6 == 1 -> %d*n\", 4 < 6 == 1);
            }".toList

/-- its syntax tree -/
def ltEqProg : Program :=
[.func ("main".toList) [] (.seq (.expr (.callName ("printf".toList) [(.str [52, 32, 60, 32, 54, 32, 61, 61, 32, 49, 32, 45, 62, 32, 37, 100, 10]), (.bin .eq (.bin .lt (.num 4) (.num 6)) (.num 1))]))
  .skip)]

set_option maxRecDepth 50000 in
theorem ltEq_checks : Program.isSame ltEqProg (refParse prec ltEqText) = true ∧ ltEqProg.Tame ∧ ltEqProg.Clear ∧
    (Program.Scoped Env.empty ltEqProg ∧ ∀ d ∈ ltEqProg, d.CasesOk) := by
  decide_text ltEqText

attribute [irreducible] ltEqText

/-- the globals of its module -/
def ltEqGlobals : List (List Char × GInit) :=
[((".str.0".toList), Blang.GInit.bytes [0x34#8, 0x20#8, 0x3c#8, 0x20#8, 0x36#8, 0x20#8, 0x3d#8, 0x3d#8, 0x20#8, 0x31#8, 0x20#8, 0x2d#8, 0x3e#8, 0x20#8, 0x25#8, 0x64#8, 0x0a#8, 0x00#8])]

set_option maxRecDepth 20000 in
theorem ltEq_globals : globalsAre ltEqProg ltEqGlobals = true := by decide +kernel

/-- what the test expects -/
def ltEqOut : List Char := "4 < 6 == 1 -> 1\n".toList

set_option maxRecDepth 20000 in
theorem ltEq_run : Interp.run ltEqProg ltEqGlobals 40 2000 40 6 = some (codes ltEqOut) := by decide +kernel

/-- The process of the test `lt_eq` writes what the test expects. -/
theorem ltEq_writes : WritesOnAll ltEqText ltEqOut 40 40 :=
  writes_of_run ltEq_checks.1 ltEq_checks.2.1 ltEq_checks.2.2.1 ltEq_checks.2.2.2 ltEq_globals ltEq_run

/-- the test `mod_add` -/
def modAddText : List Char := "main() {
                printf(\"7 %% 3 + 2 -> %d*n\", 7 % 3 + 2);
            }".toList

/-- its syntax tree -/
def modAddProg : Program :=
[.func ("main".toList) [] (.seq (.expr (.callName ("printf".toList) [(.str [55, 32, 37, 37, 32, 51, 32, 43, 32, 50, 32, 45, 62, 32, 37, 100, 10]), (.bin .add (.bin .mod (.num 7) (.num 3)) (.num 2))]))
  .skip)]

set_option maxRecDepth 50000 in
theorem modAdd_checks : Program.isSame modAddProg (refParse prec modAddText) = true ∧ modAddProg.Tame ∧ modAddProg.Clear ∧
    (Program.Scoped Env.empty modAddProg ∧ ∀ d ∈ modAddProg, d.CasesOk) := by
  decide_text modAddText

attribute [irreducible] modAddText

/-- the globals of its module -/
def modAddGlobals : List (List Char × GInit) :=
[((".str.0".toList), Blang.GInit.bytes [0x37#8, 0x20#8, 0x25#8, 0x25#8, 0x20#8, 0x33#8, 0x20#8, 0x2b#8, 0x20#8, 0x32#8, 0x20#8, 0x2d#8, 0x3e#8, 0x20#8, 0x25#8, 0x64#8, 0x0a#8, 0x00#8])]

set_option maxRecDepth 20000 in
theorem modAdd_globals : globalsAre modAddProg modAddGlobals = true := by decide +kernel

/-- what the test expects -/
def modAddOut : List Char := "7 % 3 + 2 -> 3\n".toList

set_option maxRecDepth 20000 in
theorem modAdd_run : Interp.run modAddProg modAddGlobals 40 2000 40 6 = some (codes modAddOut) := by decide +kernel

/-- The process of the test `mod_add` writes what the test expects. -/
theorem modAdd_writes : WritesOnAll modAddText modAddOut 40 40 :=
  writes_of_run modAdd_checks.1 modAdd_checks.2.1 modAdd_checks.2.2.1 modAdd_checks.2.2.2 modAdd_globals modAdd_run

/-- the test `mod_lshift` -/
def modLshiftText : List Char := "main() {
                printf(\"15 %% 4 << 2 -> %d*n\", 15 % 4 << 2);
            }".toList

/-- its syntax tree -/
def modLshiftProg : Program :=
[.func ("main".toList) [] (.seq (.expr (.callName ("printf".toList) [(.str [49, 53, 32, 37, 37, 32, 52, 32, 60, 60, 32, 50, 32, 45, 62, 32, 37, 100, 10]), (.bin .shl (.bin .mod (.num 15) (.num 4)) (.num 2))]))
  .skip)]

set_option maxRecDepth 50000 in
theorem modLshift_checks : Program.isSame modLshiftProg (refParse prec modLshiftText) = true ∧ modLshiftProg.Tame ∧ modLshiftProg.Clear ∧
    (Program.Scoped Env.empty modLshiftProg ∧ ∀ d ∈ modLshiftProg, d.CasesOk) := by
  decide_text modLshiftText

attribute [irreducible] modLshiftText

/-- the globals of its module -/
def modLshiftGlobals : List (List Char × GInit) :=
[((".str.0".toList), Blang.GInit.bytes [0x31#8, 0x35#8, 0x20#8, 0x25#8, 0x25#8, 0x20#8, 0x34#8, 0x20#8, 0x3c#8, 0x3c#8, 0x20#8, 0x32#8, 0x20#8, 0x2d#8, 0x3e#8, 0x20#8, 0x25#8, 0x64#8, 0x0a#8, 0x00#8])]

set_option maxRecDepth 20000 in
theorem modLshift_globals : globalsAre modLshiftProg modLshiftGlobals = true := by decide +kernel

/-- what the test expects -/
def modLshiftOut : List Char := "15 % 4 << 2 -> 12\n".toList

set_option maxRecDepth 20000 in
theorem modLshift_run : Interp.run modLshiftProg modLshiftGlobals 40 2000 40 6 = some (codes modLshiftOut) := by decide +kernel

/-- The process of the test `mod_lshift` writes what the test expects. -/
theorem modLshift_writes : WritesOnAll modLshiftText modLshiftOut 40 40 :=
  writes_of_run modLshift_checks.1 modLshift_checks.2.1 modLshift_checks.2.2.1 modLshift_checks.2.2.2 modLshift_globals modLshift_run

/-- the test `mul_add_lt` -/
def mulAddLtText : List Char := "main() {
                printf(\"2 ** 3 + 4 < 11 -> %d*n\", 2 * 3 + 4 < 11);
            }".toList

/-- its syntax tree -/
def mulAddLtProg : Program :=
[.func ("main".toList) [] (.seq (.expr (.callName ("printf".toList) [(.str [50, 32, 42, 32, 51, 32, 43, 32, 52, 32, 60, 32, 49, 49, 32, 45, 62, 32, 37, 100, 10]), (.bin .lt (.bin .add (.bin .mul (.num 2) (.num 3)) (.num 4)) (.num 11))]))
  .skip)]

set_option maxRecDepth 50000 in
theorem mulAddLt_checks : Program.isSame mulAddLtProg (refParse prec mulAddLtText) = true ∧ mulAddLtProg.Tame ∧ mulAddLtProg.Clear ∧
    (Program.Scoped Env.empty mulAddLtProg ∧ ∀ d ∈ mulAddLtProg, d.CasesOk) := by
  decide_text mulAddLtText

attribute [irreducible] mulAddLtText

/-- the globals of its module -/
def mulAddLtGlobals : List (List Char × GInit) :=
[((".str.0".toList), Blang.GInit.bytes [0x32#8, 0x20#8, 0x2a#8, 0x20#8, 0x33#8, 0x20#8, 0x2b#8, 0x20#8, 0x34#8, 0x20#8, 0x3c#8, 0x20#8, 0x31#8, 0x31#8, 0x20#8, 0x2d#8, 0x3e#8, 0x20#8, 0x25#8, 0x64#8, 0x0a#8, 0x00#8])]

set_option maxRecDepth 20000 in
theorem mulAddLt_globals : globalsAre mulAddLtProg mulAddLtGlobals = true := by decide +kernel

/-- what the test expects -/
def mulAddLtOut : List Char := "2 * 3 + 4 < 11 -> 1\n".toList

set_option maxRecDepth 20000 in
theorem mulAddLt_run : Interp.run mulAddLtProg mulAddLtGlobals 40 2000 40 6 = some (codes mulAddLtOut) := by decide +kernel

/-- The process of the test `mul_add_lt` writes what the test expects. -/
theorem mulAddLt_writes : WritesOnAll mulAddLtText mulAddLtOut 40 40 :=
  writes_of_run mulAddLt_checks.1 mulAddLt_checks.2.1 mulAddLt_checks.2.2.1 mulAddLt_checks.2.2.2 mulAddLt_globals mulAddLt_run

/-- the test `mul_add_mul` -/
def mulAddMulText : List Char := "main() {
                printf(\"5 ** 2 + 3 ** 4 -> %d*n\", 5 * 2 + 3 * 4);
            }".toList

/-- its syntax tree -/
def mulAddMulProg : Program :=
[.func ("main".toList) [] (.seq (.expr (.callName ("printf".toList) [(.str [53, 32, 42, 32, 50, 32, 43, 32, 51, 32, 42, 32, 52, 32, 45, 62, 32, 37, 100, 10]), (.bin .add (.bin .mul (.num 5) (.num 2)) (.bin .mul (.num 3) (.num 4)))]))
  .skip)]

set_option maxRecDepth 50000 in
theorem mulAddMul_checks : Program.isSame mulAddMulProg (refParse prec mulAddMulText) = true ∧ mulAddMulProg.Tame ∧ mulAddMulProg.Clear ∧
    (Program.Scoped Env.empty mulAddMulProg ∧ ∀ d ∈ mulAddMulProg, d.CasesOk) := by
  decide_text mulAddMulText

attribute [irreducible] mulAddMulText

/-- the globals of its module -/
def mulAddMulGlobals : List (List Char × GInit) :=
[((".str.0".toList), Blang.GInit.bytes [0x35#8, 0x20#8, 0x2a#8, 0x20#8, 0x32#8, 0x20#8, 0x2b#8, 0x20#8, 0x33#8, 0x20#8, 0x2a#8, 0x20#8, 0x34#8, 0x20#8, 0x2d#8, 0x3e#8, 0x20#8, 0x25#8, 0x64#8, 0x0a#8, 0x00#8])]

set_option maxRecDepth 20000 in
theorem mulAddMul_globals : globalsAre mulAddMulProg mulAddMulGlobals = true := by decide +kernel

/-- what the test expects -/
def mulAddMulOut : List Char := "5 * 2 + 3 * 4 -> 22\n".toList

set_option maxRecDepth 20000 in
theorem mulAddMul_run : Interp.run mulAddMulProg mulAddMulGlobals 40 2000 40 6 = some (codes mulAddMulOut) := by decide +kernel

/-- The process of the test `mul_add_mul` writes what the test expects. -/
theorem mulAddMul_writes : WritesOnAll mulAddMulText mulAddMulOut 40 40 :=
  writes_of_run mulAddMul_checks.1 mulAddMul_checks.2.1 mulAddMul_checks.2.2.1 mulAddMul_checks.2.2.2 mulAddMul_globals mulAddMul_run

/-- the tests of this file: the text of a program and what the test expects it to write -/
def testProgramsH : List (List Char × List Char) :=
  [(lshiftAndText, lshiftAndOut), (lshiftGtAndText, lshiftGtAndOut), (lshiftLtText, lshiftLtOut), (lshiftNeText, lshiftNeOut), (ltEqText, ltEqOut), (modAddText, modAddOut), (modLshiftText, modLshiftOut), (mulAddLtText, mulAddLtOut), (mulAddMulText, mulAddMulOut)]

theorem testProgramsH_write : AllWrite testProgramsH :=
  .cons lshiftAnd_writes (.cons lshiftGtAnd_writes (.cons lshiftLt_writes (.cons lshiftNe_writes (.cons ltEq_writes (.cons modAdd_writes (.cons modLshift_writes (.cons mulAddLt_writes (.cons mulAddMul_writes (.nil)))))))))

end Blang.Props
