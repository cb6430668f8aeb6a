import Verif.Props.TestPrograms
/-
Property C100: test programs of the repository.
-/
namespace Blang.Props
open Blang Blang.Spec

/-- the test `add_lshift` -/
def addLshiftText : List Char := "main() {
                printf(\"12345 + 10 << 4 -> %d*n\", 12345 + 10 << 4);
            }".toList

/-- its syntax tree -/
def addLshiftProg : Program :=
[.func ("main".toList) [] (.seq (.expr (.callName ("printf".toList) [(.str [49, 50, 51, 52, 53, 32, 43, 32, 49, 48, 32, 60, 60, 32, 52, 32, 45, 62, 32, 37, 100, 10]), (.bin .shl (.bin .add (.num 12345) (.num 10)) (.num 4))]))
  .skip)]

set_option maxRecDepth 50000 in
theorem addLshift_checks : Program.isSame addLshiftProg (refParse prec addLshiftText) = true ∧ addLshiftProg.Tame ∧ addLshiftProg.Clear ∧
    (Program.Scoped Env.empty addLshiftProg ∧ ∀ d ∈ addLshiftProg, d.CasesOk) := by
  decide_text addLshiftText

attribute [irreducible] addLshiftText

/-- the globals of its module -/
def addLshiftGlobals : List (List Char × GInit) :=
[((".str.0".toList), Blang.GInit.bytes [0x31#8, 0x32#8, 0x33#8, 0x34#8, 0x35#8, 0x20#8, 0x2b#8, 0x20#8, 0x31#8, 0x30#8, 0x20#8, 0x3c#8, 0x3c#8, 0x20#8, 0x34#8, 0x20#8, 0x2d#8, 0x3e#8, 0x20#8, 0x25#8, 0x64#8, 0x0a#8, 0x00#8])]

set_option maxRecDepth 20000 in
theorem addLshift_globals : globalsAre addLshiftProg addLshiftGlobals = true := by decide +kernel

/-- what the test expects -/
def addLshiftOut : List Char := "12345 + 10 << 4 -> 197680\n".toList

set_option maxRecDepth 20000 in
theorem addLshift_run : Interp.run addLshiftProg addLshiftGlobals 40 2000 40 6 = some (codes addLshiftOut) := by decide +kernel

/-- The process of the test `add_lshift` writes what the test expects. -/
theorem addLshift_writes : WritesOnAll addLshiftText addLshiftOut 40 40 :=
  writes_of_run addLshift_checks.1 addLshift_checks.2.1 addLshift_checks.2.2.1 addLshift_checks.2.2.2 addLshift_globals addLshift_run

/-- the test `add_lt` -/
def addLtText : List Char := "main() {
                printf(\"5 + 3 < 9 -> %d*n\", 5 + 3 < 9);
            }".toList

/-- its syntax tree -/
def addLtProg : Program :=
[.func ("main".toList) [] (.seq (.expr (.callName ("printf".toList) [(.str [53, 32, 43, 32, 51, 32, 60, 32, 57, 32, 45, 62, 32, 37, 100, 10]), (.bin .lt (.bin .add (.num 5) (.num 3)) (.num 9))]))
  .skip)]

set_option maxRecDepth 50000 in
theorem addLt_checks : Program.isSame addLtProg (refParse prec addLtText) = true ∧ addLtProg.Tame ∧ addLtProg.Clear ∧
    (Program.Scoped Env.empty addLtProg ∧ ∀ d ∈ addLtProg, d.CasesOk) := by
  decide_text addLtText

attribute [irreducible] addLtText

/-- the globals of its module -/
def addLtGlobals : List (List Char × GInit) :=
[((".str.0".toList), Blang.GInit.bytes [0x35#8, 0x20#8, 0x2b#8, 0x20#8, 0x33#8, 0x20#8, 0x3c#8, 0x20#8, 0x39#8, 0x20#8, 0x2d#8, 0x3e#8, 0x20#8, 0x25#8, 0x64#8, 0x0a#8, 0x00#8])]

set_option maxRecDepth 20000 in
theorem addLt_globals : globalsAre addLtProg addLtGlobals = true := by decide +kernel

/-- what the test expects -/
def addLtOut : List Char := "5 + 3 < 9 -> 1\n".toList

set_option maxRecDepth 20000 in
theorem addLt_run : Interp.run addLtProg addLtGlobals 40 2000 40 6 = some (codes addLtOut) := by decide +kernel

/-- The process of the test `add_lt` writes what the test expects. -/
theorem addLt_writes : WritesOnAll addLtText addLtOut 40 40 :=
  writes_of_run addLt_checks.1 addLt_checks.2.1 addLt_checks.2.2.1 addLt_checks.2.2.2 addLt_globals addLt_run

/-- the test `add_mul` -/
def addMulText : List Char := "main() {
                printf(\"3 + 4 ** 2 -> %d*n\", 3 + 4 * 2);
            }".toList

/-- its syntax tree -/
def addMulProg : Program :=
[.func ("main".toList) [] (.seq (.expr (.callName ("printf".toList) [(.str [51, 32, 43, 32, 52, 32, 42, 32, 50, 32, 45, 62, 32, 37, 100, 10]), (.bin .add (.num 3) (.bin .mul (.num 4) (.num 2)))]))
  .skip)]

set_option maxRecDepth 50000 in
theorem addMul_checks : Program.isSame addMulProg (refParse prec addMulText) = true ∧ addMulProg.Tame ∧ addMulProg.Clear ∧
    (Program.Scoped Env.empty addMulProg ∧ ∀ d ∈ addMulProg, d.CasesOk) := by
  decide_text addMulText

attribute [irreducible] addMulText

/-- the globals of its module -/
def addMulGlobals : List (List Char × GInit) :=
[((".str.0".toList), Blang.GInit.bytes [0x33#8, 0x20#8, 0x2b#8, 0x20#8, 0x34#8, 0x20#8, 0x2a#8, 0x20#8, 0x32#8, 0x20#8, 0x2d#8, 0x3e#8, 0x20#8, 0x25#8, 0x64#8, 0x0a#8, 0x00#8])]

set_option maxRecDepth 20000 in
theorem addMul_globals : globalsAre addMulProg addMulGlobals = true := by decide +kernel

/-- what the test expects -/
def addMulOut : List Char := "3 + 4 * 2 -> 11\n".toList

set_option maxRecDepth 20000 in
theorem addMul_run : Interp.run addMulProg addMulGlobals 40 2000 40 6 = some (codes addMulOut) := by decide +kernel

/-- The process of the test `add_mul` writes what the test expects. -/
theorem addMul_writes : WritesOnAll addMulText addMulOut 40 40 :=
  writes_of_run addMul_checks.1 addMul_checks.2.1 addMul_checks.2.2.1 addMul_checks.2.2.2 addMul_globals addMul_run

/-- the test `and_eq` -/
def andEqText : List Char := "main() {
                printf(\"1 & 5 == 5 -> %d*n\", 1 & 5 == 5);
            }".toList

/-- its syntax tree -/
def andEqProg : Program :=
[.func ("main".toList) [] (.seq (.expr (.callName ("printf".toList) [(.str [49, 32, 38, 32, 53, 32, 61, 61, 32, 53, 32, 45, 62, 32, 37, 100, 10]), (.bin .band (.num 1) (.bin .eq (.num 5) (.num 5)))]))
  .skip)]

set_option maxRecDepth 50000 in
theorem andEq_checks : Program.isSame andEqProg (refParse prec andEqText) = true ∧ andEqProg.Tame ∧ andEqProg.Clear ∧
    (Program.Scoped Env.empty andEqProg ∧ ∀ d ∈ andEqProg, d.CasesOk) := by
  decide_text andEqText

attribute [irreducible] andEqText

/-- the globals of its module -/
def andEqGlobals : List (List Char × GInit) :=
[((".str.0".toList), Blang.GInit.bytes [0x31#8, 0x20#8, 0x26#8, 0x20#8, 0x35#8, 0x20#8, 0x3d#8, 0x3d#8, 0x20#8, 0x35#8, 0x20#8, 0x2d#8, 0x3e#8, 0x20#8, 0x25#8, 0x64#8, 0x0a#8, 0x00#8])]

set_option maxRecDepth 20000 in
theorem andEq_globals : globalsAre andEqProg andEqGlobals = true := by decide +kernel

/-- what the test expects -/
def andEqOut : List Char := "1 & 5 == 5 -> 1\n".toList

set_option maxRecDepth 20000 in
theorem andEq_run : Interp.run andEqProg andEqGlobals 40 2000 40 6 = some (codes andEqOut) := by decide +kernel

/-- The process of the test `and_eq` writes what the test expects. -/
theorem andEq_writes : WritesOnAll andEqText andEqOut 40 40 :=
  writes_of_run andEq_checks.1 andEq_checks.2.1 andEq_checks.2.2.1 andEq_checks.2.2.2 andEq_globals andEq_run

/-- the test `and_lshift_or` -/
def andLshiftOrText : List Char := "main() {
                printf(\"7 & 3 << 2 | 8 -> %d*n\", 7 & 3 << 2 | 8);
            }".toList

/-- its syntax tree -/
def andLshiftOrProg : Program :=
[.func ("main".toList) [] (.seq (.expr (.callName ("printf".toList) [(.str [55, 32, 38, 32, 51, 32, 60, 60, 32, 50, 32, 124, 32, 56, 32, 45, 62, 32, 37, 100, 10]), (.bin .bor (.bin .band (.num 7) (.bin .shl (.num 3) (.num 2))) (.num 8))]))
  .skip)]

set_option maxRecDepth 50000 in
theorem andLshiftOr_checks : Program.isSame andLshiftOrProg (refParse prec andLshiftOrText) = true ∧ andLshiftOrProg.Tame ∧ andLshiftOrProg.Clear ∧
    (Program.Scoped Env.empty andLshiftOrProg ∧ ∀ d ∈ andLshiftOrProg, d.CasesOk) := by
  decide_text andLshiftOrText

attribute [irreducible] andLshiftOrText

/-- the globals of its module -/
def andLshiftOrGlobals : List (List Char × GInit) :=
[((".str.0".toList), Blang.GInit.bytes [0x37#8, 0x20#8, 0x26#8, 0x20#8, 0x33#8, 0x20#8, 0x3c#8, 0x3c#8, 0x20#8, 0x32#8, 0x20#8, 0x7c#8, 0x20#8, 0x38#8, 0x20#8, 0x2d#8, 0x3e#8, 0x20#8, 0x25#8, 0x64#8, 0x0a#8, 0x00#8])]

set_option maxRecDepth 20000 in
theorem andLshiftOr_globals : globalsAre andLshiftOrProg andLshiftOrGlobals = true := by decide +kernel

/-- what the test expects -/
def andLshiftOrOut : List Char := "7 & 3 << 2 | 8 -> 12\n".toList

set_option maxRecDepth 20000 in
theorem andLshiftOr_run : Interp.run andLshiftOrProg andLshiftOrGlobals 40 2000 40 6 = some (codes andLshiftOrOut) := by decide +kernel

/-- The process of the test `and_lshift_or` writes what the test expects. -/
theorem andLshiftOr_writes : WritesOnAll andLshiftOrText andLshiftOrOut 40 40 :=
  writes_of_run andLshiftOr_checks.1 andLshiftOr_checks.2.1 andLshiftOr_checks.2.2.1 andLshiftOr_checks.2.2.2 andLshiftOr_globals andLshiftOr_run

/-- the test `and_ne` -/
def andNeText : List Char := "main() {
                printf(\"0 & 1 != 1 -> %d*n\", 0 & 1 != 1);
            }".toList

/-- its syntax tree -/
def andNeProg : Program :=
[.func ("main".toList) [] (.seq (.expr (.callName ("printf".toList) [(.str [48, 32, 38, 32, 49, 32, 33, 61, 32, 49, 32, 45, 62, 32, 37, 100, 10]), (.bin .band (.num 0) (.bin .ne (.num 1) (.num 1)))]))
  .skip)]

set_option maxRecDepth 50000 in
theorem andNe_checks : Program.isSame andNeProg (refParse prec andNeText) = true ∧ andNeProg.Tame ∧ andNeProg.Clear ∧
    (Program.Scoped Env.empty andNeProg ∧ ∀ d ∈ andNeProg, d.CasesOk) := by
  decide_text andNeText

attribute [irreducible] andNeText

/-- the globals of its module -/
def andNeGlobals : List (List Char × GInit) :=
[((".str.0".toList), Blang.GInit.bytes [0x30#8, 0x20#8, 0x26#8, 0x20#8, 0x31#8, 0x20#8, 0x21#8, 0x3d#8, 0x20#8, 0x31#8, 0x20#8, 0x2d#8, 0x3e#8, 0x20#8, 0x25#8, 0x64#8, 0x0a#8, 0x00#8])]

set_option maxRecDepth 20000 in
theorem andNe_globals : globalsAre andNeProg andNeGlobals = true := by decide +kernel

/-- what the test expects -/
def andNeOut : List Char := "0 & 1 != 1 -> 0\n".toList

set_option maxRecDepth 20000 in
theorem andNe_run : Interp.run andNeProg andNeGlobals 40 2000 40 6 = some (codes andNeOut) := by decide +kernel

/-- The process of the test `and_ne` writes what the test expects. -/
theorem andNe_writes : WritesOnAll andNeText andNeOut 40 40 :=
  writes_of_run andNe_checks.1 andNe_checks.2.1 andNe_checks.2.2.1 andNe_checks.2.2.2 andNe_globals andNe_run

/-- the test `and_or` -/
def andOrText : List Char := "main() {
                printf(\"1 & 2 | 3 -> %d*n\", 1 & 2 | 3);
            }".toList

/-- its syntax tree -/
def andOrProg : Program :=
[.func ("main".toList) [] (.seq (.expr (.callName ("printf".toList) [(.str [49, 32, 38, 32, 50, 32, 124, 32, 51, 32, 45, 62, 32, 37, 100, 10]), (.bin .bor (.bin .band (.num 1) (.num 2)) (.num 3))]))
  .skip)]

set_option maxRecDepth 50000 in
theorem andOr_checks : Program.isSame andOrProg (refParse prec andOrText) = true ∧ andOrProg.Tame ∧ andOrProg.Clear ∧
    (Program.Scoped Env.empty andOrProg ∧ ∀ d ∈ andOrProg, d.CasesOk) := by
  decide_text andOrText

attribute [irreducible] andOrText

/-- the globals of its module -/
def andOrGlobals : List (List Char × GInit) :=
[((".str.0".toList), Blang.GInit.bytes [0x31#8, 0x20#8, 0x26#8, 0x20#8, 0x32#8, 0x20#8, 0x7c#8, 0x20#8, 0x33#8, 0x20#8, 0x2d#8, 0x3e#8, 0x20#8, 0x25#8, 0x64#8, 0x0a#8, 0x00#8])]

set_option maxRecDepth 20000 in
theorem andOr_globals : globalsAre andOrProg andOrGlobals = true := by decide +kernel

/-- what the test expects -/
def andOrOut : List Char := "1 & 2 | 3 -> 3\n".toList

set_option maxRecDepth 20000 in
theorem andOr_run : Interp.run andOrProg andOrGlobals 40 2000 40 6 = some (codes andOrOut) := by decide +kernel

/-- The process of the test `and_or` writes what the test expects. -/
theorem andOr_writes : WritesOnAll andOrText andOrOut 40 40 :=
  writes_of_run andOr_checks.1 andOr_checks.2.1 andOr_checks.2.2.1 andOr_checks.2.2.2 andOr_globals andOr_run

/-- the test `assign_add` -/
def assignAddText : List Char := "main() { auto x; x = 10; x =+ 5; printf(\"%d*n\", x); }".toList

/-- its syntax tree -/
def assignAddProg : Program :=
[.func ("main".toList) [] (.seq (.auto [(("x".toList), none)])
  (.seq (.expr (.assign none (.var ("x".toList)) (.num 10)))
  (.seq (.expr (.assign (some .add) (.var ("x".toList)) (.num 5)))
  (.seq (.expr (.callName ("printf".toList) [(.str [37, 100, 10]), (.var ("x".toList))]))
  .skip))))]

set_option maxRecDepth 50000 in
theorem assignAdd_checks : Program.isSame assignAddProg (refParse prec assignAddText) = true ∧ assignAddProg.Tame ∧ assignAddProg.Clear ∧
    (Program.Scoped Env.empty assignAddProg ∧ ∀ d ∈ assignAddProg, d.CasesOk) := by
  decide_text assignAddText

attribute [irreducible] assignAddText

/-- the globals of its module -/
def assignAddGlobals : List (List Char × GInit) :=
[((".str.0".toList), Blang.GInit.bytes [0x25#8, 0x64#8, 0x0a#8, 0x00#8])]

set_option maxRecDepth 20000 in
theorem assignAdd_globals : globalsAre assignAddProg assignAddGlobals = true := by decide +kernel

/-- what the test expects -/
def assignAddOut : List Char := "15\n".toList

set_option maxRecDepth 20000 in
theorem assignAdd_run : Interp.run assignAddProg assignAddGlobals 40 2000 40 6 = some (codes assignAddOut) := by decide +kernel

/-- The process of the test `assign_add` writes what the test expects. -/
theorem assignAdd_writes : WritesOnAll assignAddText assignAddOut 40 40 :=
  writes_of_run assignAdd_checks.1 assignAdd_checks.2.1 assignAdd_checks.2.2.1 assignAdd_checks.2.2.2 assignAdd_globals assignAdd_run

/-- the test `assign_and` -/
def assignAndText : List Char := "main() { auto x; x = 12; x =& 10; printf(\"%d*n\", x); }".toList

/-- its syntax tree -/
def assignAndProg : Program :=
[.func ("main".toList) [] (.seq (.auto [(("x".toList), none)])
  (.seq (.expr (.assign none (.var ("x".toList)) (.num 12)))
  (.seq (.expr (.assign (some .band) (.var ("x".toList)) (.num 10)))
  (.seq (.expr (.callName ("printf".toList) [(.str [37, 100, 10]), (.var ("x".toList))]))
  .skip))))]

set_option maxRecDepth 50000 in
theorem assignAnd_checks : Program.isSame assignAndProg (refParse prec assignAndText) = true ∧ assignAndProg.Tame ∧ assignAndProg.Clear ∧
    (Program.Scoped Env.empty assignAndProg ∧ ∀ d ∈ assignAndProg, d.CasesOk) := by
  decide_text assignAndText

attribute [irreducible] assignAndText

/-- the globals of its module -/
def assignAndGlobals : List (List Char × GInit) :=
[((".str.0".toList), Blang.GInit.bytes [0x25#8, 0x64#8, 0x0a#8, 0x00#8])]

set_option maxRecDepth 20000 in
theorem assignAnd_globals : globalsAre assignAndProg assignAndGlobals = true := by decide +kernel

/-- what the test expects -/
def assignAndOut : List Char := "8\n".toList

set_option maxRecDepth 20000 in
theorem assignAnd_run : Interp.run assignAndProg assignAndGlobals 40 2000 40 6 = some (codes assignAndOut) := by decide +kernel

/-- The process of the test `assign_and` writes what the test expects. -/
theorem assignAnd_writes : WritesOnAll assignAndText assignAndOut 40 40 :=
  writes_of_run assignAnd_checks.1 assignAnd_checks.2.1 assignAnd_checks.2.2.1 assignAnd_checks.2.2.2 assignAnd_globals assignAnd_run

/-- the tests of this file: the text of a program and what the test expects it to write -/
def testProgramsA : List (List Char × List Char) :=
  [(addLshiftText, addLshiftOut), (addLtText, addLtOut), (addMulText, addMulOut), (andEqText, andEqOut), (andLshiftOrText, andLshiftOrOut), (andNeText, andNeOut), (andOrText, andOrOut), (assignAddText, assignAddOut), (assignAndText, assignAndOut)]

theorem testProgramsA_write : AllWrite testProgramsA :=
  .cons addLshift_writes (.cons addLt_writes (.cons addMul_writes (.cons andEq_writes (.cons andLshiftOr_writes (.cons andNe_writes (.cons andOr_writes (.cons assignAdd_writes (.cons assignAnd_writes (.nil)))))))))

end Blang.Props
