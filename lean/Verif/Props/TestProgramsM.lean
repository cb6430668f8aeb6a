import Verif.Props.TestPrograms
/-
Property C100: test programs of the repository.
-/
namespace Blang.Props
open Blang Blang.Spec

/-- the test `prefix_decrement_global` -/
def prefixDecrementGlobalText : List Char := "main() {
                extrn x;
                x = 20;
                printf(\"%d*n\", --x);  /* Should print 19 */
                printf(\"%d*n\", x);    /* Should print 19 */
            }
            x 0;".toList

/-- its syntax tree -/
def prefixDecrementGlobalProg : Program :=
[.func ("main".toList) [] (.seq (.extrn [("x".toList)])
  (.seq (.expr (.assign none (.var ("x".toList)) (.num 20)))
  (.seq (.expr (.callName ("printf".toList) [(.str [37, 100, 10]), (.pre .dec (.var ("x".toList)))]))
  (.seq (.expr (.callName ("printf".toList) [(.str [37, 100, 10]), (.var ("x".toList))]))
  .skip)))),
 .global ("x".toList) [.int 0]]

set_option maxRecDepth 50000 in
theorem prefixDecrementGlobal_checks : Program.isSame prefixDecrementGlobalProg (refParse prec prefixDecrementGlobalText) = true ∧ prefixDecrementGlobalProg.Tame ∧ prefixDecrementGlobalProg.Clear ∧
    (Program.Scoped Env.empty prefixDecrementGlobalProg ∧ ∀ d ∈ prefixDecrementGlobalProg, d.CasesOk) := by
  decide_text prefixDecrementGlobalText

attribute [irreducible] prefixDecrementGlobalText

/-- the globals of its module -/
def prefixDecrementGlobalGlobals : List (List Char × GInit) :=
[((".str.0".toList), Blang.GInit.bytes [0x25#8, 0x64#8, 0x0a#8, 0x00#8]),
 ((".str.1".toList), Blang.GInit.bytes [0x25#8, 0x64#8, 0x0a#8, 0x00#8]),
 (("b.x".toList), Blang.GInit.word (Blang.Const.int 0x0000000000000000#64))]

set_option maxRecDepth 20000 in
theorem prefixDecrementGlobal_globals : globalsAre prefixDecrementGlobalProg prefixDecrementGlobalGlobals = true := by decide +kernel

/-- what the test expects -/
def prefixDecrementGlobalOut : List Char := "19\n19\n".toList

set_option maxRecDepth 20000 in
theorem prefixDecrementGlobal_run : Interp.run prefixDecrementGlobalProg prefixDecrementGlobalGlobals 40 2000 40 6 = some (codes prefixDecrementGlobalOut) := by decide +kernel

/-- The process of the test `prefix_decrement_global` writes what the test expects. -/
theorem prefixDecrementGlobal_writes : WritesOnAll prefixDecrementGlobalText prefixDecrementGlobalOut 40 40 :=
  writes_of_run prefixDecrementGlobal_checks.1 prefixDecrementGlobal_checks.2.1 prefixDecrementGlobal_checks.2.2.1 prefixDecrementGlobal_checks.2.2.2 prefixDecrementGlobal_globals prefixDecrementGlobal_run

/-- the test `prefix_increment` -/
def prefixIncrementText : List Char := "main() {
                auto x;
                x = 5;
                printf(\"%d*n\", ++x);  /* Should print 6 */
                printf(\"%d*n\", x);    /* Should print 6 */
            }".toList

/-- its syntax tree -/
def prefixIncrementProg : Program :=
[.func ("main".toList) [] (.seq (.auto [(("x".toList), none)])
  (.seq (.expr (.assign none (.var ("x".toList)) (.num 5)))
  (.seq (.expr (.callName ("printf".toList) [(.str [37, 100, 10]), (.pre .inc (.var ("x".toList)))]))
  (.seq (.expr (.callName ("printf".toList) [(.str [37, 100, 10]), (.var ("x".toList))]))
  .skip))))]

set_option maxRecDepth 50000 in
theorem prefixIncrement_checks : Program.isSame prefixIncrementProg (refParse prec prefixIncrementText) = true ∧ prefixIncrementProg.Tame ∧ prefixIncrementProg.Clear ∧
    (Program.Scoped Env.empty prefixIncrementProg ∧ ∀ d ∈ prefixIncrementProg, d.CasesOk) := by
  decide_text prefixIncrementText

attribute [irreducible] prefixIncrementText

/-- the globals of its module -/
def prefixIncrementGlobals : List (List Char × GInit) :=
[((".str.0".toList), Blang.GInit.bytes [0x25#8, 0x64#8, 0x0a#8, 0x00#8]),
 ((".str.1".toList), Blang.GInit.bytes [0x25#8, 0x64#8, 0x0a#8, 0x00#8])]

set_option maxRecDepth 20000 in
theorem prefixIncrement_globals : globalsAre prefixIncrementProg prefixIncrementGlobals = true := by decide +kernel

/-- what the test expects -/
def prefixIncrementOut : List Char := "6\n6\n".toList

set_option maxRecDepth 20000 in
theorem prefixIncrement_run : Interp.run prefixIncrementProg prefixIncrementGlobals 40 2000 40 6 = some (codes prefixIncrementOut) := by decide +kernel

/-- The process of the test `prefix_increment` writes what the test expects. -/
theorem prefixIncrement_writes : WritesOnAll prefixIncrementText prefixIncrementOut 40 40 :=
  writes_of_run prefixIncrement_checks.1 prefixIncrement_checks.2.1 prefixIncrement_checks.2.2.1 prefixIncrement_checks.2.2.2 prefixIncrement_globals prefixIncrement_run

/-- the test `prefix_increment_global` -/
def prefixIncrementGlobalText : List Char := "main() {
                extrn x;
                x = 15;
                printf(\"%d*n\", ++x);  /* Should print 16 */
                printf(\"%d*n\", x);    /* Should print 16 */
            }
            x 0;".toList

/-- its syntax tree -/
def prefixIncrementGlobalProg : Program :=
[.func ("main".toList) [] (.seq (.extrn [("x".toList)])
  (.seq (.expr (.assign none (.var ("x".toList)) (.num 15)))
  (.seq (.expr (.callName ("printf".toList) [(.str [37, 100, 10]), (.pre .inc (.var ("x".toList)))]))
  (.seq (.expr (.callName ("printf".toList) [(.str [37, 100, 10]), (.var ("x".toList))]))
  .skip)))),
 .global ("x".toList) [.int 0]]

set_option maxRecDepth 50000 in
theorem prefixIncrementGlobal_checks : Program.isSame prefixIncrementGlobalProg (refParse prec prefixIncrementGlobalText) = true ∧ prefixIncrementGlobalProg.Tame ∧ prefixIncrementGlobalProg.Clear ∧
    (Program.Scoped Env.empty prefixIncrementGlobalProg ∧ ∀ d ∈ prefixIncrementGlobalProg, d.CasesOk) := by
  decide_text prefixIncrementGlobalText

attribute [irreducible] prefixIncrementGlobalText

/-- the globals of its module -/
def prefixIncrementGlobalGlobals : List (List Char × GInit) :=
[((".str.0".toList), Blang.GInit.bytes [0x25#8, 0x64#8, 0x0a#8, 0x00#8]),
 ((".str.1".toList), Blang.GInit.bytes [0x25#8, 0x64#8, 0x0a#8, 0x00#8]),
 (("b.x".toList), Blang.GInit.word (Blang.Const.int 0x0000000000000000#64))]

set_option maxRecDepth 20000 in
theorem prefixIncrementGlobal_globals : globalsAre prefixIncrementGlobalProg prefixIncrementGlobalGlobals = true := by decide +kernel

/-- what the test expects -/
def prefixIncrementGlobalOut : List Char := "16\n16\n".toList

set_option maxRecDepth 20000 in
theorem prefixIncrementGlobal_run : Interp.run prefixIncrementGlobalProg prefixIncrementGlobalGlobals 40 2000 40 6 = some (codes prefixIncrementGlobalOut) := by decide +kernel

/-- The process of the test `prefix_increment_global` writes what the test expects. -/
theorem prefixIncrementGlobal_writes : WritesOnAll prefixIncrementGlobalText prefixIncrementGlobalOut 40 40 :=
  writes_of_run prefixIncrementGlobal_checks.1 prefixIncrementGlobal_checks.2.1 prefixIncrementGlobal_checks.2.2.1 prefixIncrementGlobal_checks.2.2.2 prefixIncrementGlobal_globals prefixIncrementGlobal_run

/-- the test `rshift_eq` -/
def rshiftEqText : List Char := "main() {
                printf(\"8 >> 2 == 2 -> %d*n\", 8 >> 2 == 2);
            }".toList

/-- its syntax tree -/
def rshiftEqProg : Program :=
[.func ("main".toList) [] (.seq (.expr (.callName ("printf".toList) [(.str [56, 32, 62, 62, 32, 50, 32, 61, 61, 32, 50, 32, 45, 62, 32, 37, 100, 10]), (.bin .eq (.bin .shr (.num 8) (.num 2)) (.num 2))]))
  .skip)]

set_option maxRecDepth 50000 in
theorem rshiftEq_checks : Program.isSame rshiftEqProg (refParse prec rshiftEqText) = true ∧ rshiftEqProg.Tame ∧ rshiftEqProg.Clear ∧
    (Program.Scoped Env.empty rshiftEqProg ∧ ∀ d ∈ rshiftEqProg, d.CasesOk) := by
  decide_text rshiftEqText

attribute [irreducible] rshiftEqText

/-- the globals of its module -/
def rshiftEqGlobals : List (List Char × GInit) :=
[((".str.0".toList), Blang.GInit.bytes [0x38#8, 0x20#8, 0x3e#8, 0x3e#8, 0x20#8, 0x32#8, 0x20#8, 0x3d#8, 0x3d#8, 0x20#8, 0x32#8, 0x20#8, 0x2d#8, 0x3e#8, 0x20#8, 0x25#8, 0x64#8, 0x0a#8, 0x00#8])]

set_option maxRecDepth 20000 in
theorem rshiftEq_globals : globalsAre rshiftEqProg rshiftEqGlobals = true := by decide +kernel

/-- what the test expects -/
def rshiftEqOut : List Char := "8 >> 2 == 2 -> 1\n".toList

set_option maxRecDepth 20000 in
theorem rshiftEq_run : Interp.run rshiftEqProg rshiftEqGlobals 40 2000 40 6 = some (codes rshiftEqOut) := by decide +kernel

/-- The process of the test `rshift_eq` writes what the test expects. -/
theorem rshiftEq_writes : WritesOnAll rshiftEqText rshiftEqOut 40 40 :=
  writes_of_run rshiftEq_checks.1 rshiftEq_checks.2.1 rshiftEq_checks.2.2.1 rshiftEq_checks.2.2.2 rshiftEq_globals rshiftEq_run

/-- the test `rshift_ge` -/
def rshiftGeText : List Char := "main() {
                printf(\"98765 >> 3 >= 12345 -> %d*n\", 98765 >> 3 >= 12345);
            }".toList

/-- its syntax tree -/
def rshiftGeProg : Program :=
[.func ("main".toList) [] (.seq (.expr (.callName ("printf".toList) [(.str [57, 56, 55, 54, 53, 32, 62, 62, 32, 51, 32, 62, 61, 32, 49, 50, 51, 52, 53, 32, 45, 62, 32, 37, 100, 10]), (.bin .ge (.bin .shr (.num 98765) (.num 3)) (.num 12345))]))
  .skip)]

set_option maxRecDepth 50000 in
theorem rshiftGe_checks : Program.isSame rshiftGeProg (refParse prec rshiftGeText) = true ∧ rshiftGeProg.Tame ∧ rshiftGeProg.Clear ∧
    (Program.Scoped Env.empty rshiftGeProg ∧ ∀ d ∈ rshiftGeProg, d.CasesOk) := by
  decide_text rshiftGeText

attribute [irreducible] rshiftGeText

/-- the globals of its module -/
def rshiftGeGlobals : List (List Char × GInit) :=
[((".str.0".toList), Blang.GInit.bytes [0x39#8, 0x38#8, 0x37#8, 0x36#8, 0x35#8, 0x20#8, 0x3e#8, 0x3e#8, 0x20#8, 0x33#8, 0x20#8, 0x3e#8, 0x3d#8, 0x20#8, 0x31#8, 0x32#8, 0x33#8, 0x34#8, 0x35#8, 0x20#8, 0x2d#8, 0x3e#8, 0x20#8, 0x25#8, 0x64#8, 0x0a#8, 0x00#8])]

set_option maxRecDepth 20000 in
theorem rshiftGe_globals : globalsAre rshiftGeProg rshiftGeGlobals = true := by decide +kernel

/-- what the test expects -/
def rshiftGeOut : List Char := "98765 >> 3 >= 12345 -> 1\n".toList

set_option maxRecDepth 20000 in
theorem rshiftGe_run : Interp.run rshiftGeProg rshiftGeGlobals 40 2000 40 6 = some (codes rshiftGeOut) := by decide +kernel

/-- The process of the test `rshift_ge` writes what the test expects. -/
theorem rshiftGe_writes : WritesOnAll rshiftGeText rshiftGeOut 40 40 :=
  writes_of_run rshiftGe_checks.1 rshiftGe_checks.2.1 rshiftGe_checks.2.2.1 rshiftGe_checks.2.2.2 rshiftGe_globals rshiftGe_run

/-- the test `runtime_char` -/
def runtimeCharText : List Char := "main() {
                write(char(\"fubar\", 2));
                write(char(\"fubar\", 4));
                write(char(\"fubar\", 1));
                write(char(\"fubar\", 0));
                write(char(\"fubar\", 3));
                write('*n');
            }".toList

/-- its syntax tree -/
def runtimeCharProg : Program :=
[.func ("main".toList) [] (.seq (.expr (.callName ("write".toList) [(.callName ("char".toList) [(.str [102, 117, 98, 97, 114]), (.num 2)])]))
  (.seq (.expr (.callName ("write".toList) [(.callName ("char".toList) [(.str [102, 117, 98, 97, 114]), (.num 4)])]))
  (.seq (.expr (.callName ("write".toList) [(.callName ("char".toList) [(.str [102, 117, 98, 97, 114]), (.num 1)])]))
  (.seq (.expr (.callName ("write".toList) [(.callName ("char".toList) [(.str [102, 117, 98, 97, 114]), (.num 0)])]))
  (.seq (.expr (.callName ("write".toList) [(.callName ("char".toList) [(.str [102, 117, 98, 97, 114]), (.num 3)])]))
  (.seq (.expr (.callName ("write".toList) [(.num 10)]))
  .skip))))))]

set_option maxRecDepth 50000 in
theorem runtimeChar_checks : Program.isSame runtimeCharProg (refParse prec runtimeCharText) = true ∧ runtimeCharProg.Tame ∧ runtimeCharProg.Clear ∧
    (Program.Scoped Env.empty runtimeCharProg ∧ ∀ d ∈ runtimeCharProg, d.CasesOk) := by
  decide_text runtimeCharText

attribute [irreducible] runtimeCharText

/-- the globals of its module -/
def runtimeCharGlobals : List (List Char × GInit) :=
[((".str.0".toList), Blang.GInit.bytes [0x66#8, 0x75#8, 0x62#8, 0x61#8, 0x72#8, 0x00#8]),
 ((".str.1".toList), Blang.GInit.bytes [0x66#8, 0x75#8, 0x62#8, 0x61#8, 0x72#8, 0x00#8]),
 ((".str.2".toList), Blang.GInit.bytes [0x66#8, 0x75#8, 0x62#8, 0x61#8, 0x72#8, 0x00#8]),
 ((".str.3".toList), Blang.GInit.bytes [0x66#8, 0x75#8, 0x62#8, 0x61#8, 0x72#8, 0x00#8]),
 ((".str.4".toList), Blang.GInit.bytes [0x66#8, 0x75#8, 0x62#8, 0x61#8, 0x72#8, 0x00#8])]

set_option maxRecDepth 20000 in
theorem runtimeChar_globals : globalsAre runtimeCharProg runtimeCharGlobals = true := by decide +kernel

/-- what the test expects -/
def runtimeCharOut : List Char := "brufa\n".toList

set_option maxRecDepth 20000 in
theorem runtimeChar_run : Interp.run runtimeCharProg runtimeCharGlobals 40 2000 40 6 = some (codes runtimeCharOut) := by decide +kernel

/-- The process of the test `runtime_char` writes what the test expects. -/
theorem runtimeChar_writes : WritesOnAll runtimeCharText runtimeCharOut 40 40 :=
  writes_of_run runtimeChar_checks.1 runtimeChar_checks.2.1 runtimeChar_checks.2.2.1 runtimeChar_checks.2.2.2 runtimeChar_globals runtimeChar_run

/-- the test `runtime_nwrite` -/
def runtimeNwriteText : List Char := "main() {
                nwrite(1, \"foobar*n\", 7);
            }".toList

/-- its syntax tree -/
def runtimeNwriteProg : Program :=
[.func ("main".toList) [] (.seq (.expr (.callName ("nwrite".toList) [(.num 1), (.str [102, 111, 111, 98, 97, 114, 10]), (.num 7)]))
  .skip)]

set_option maxRecDepth 50000 in
theorem runtimeNwrite_checks : Program.isSame runtimeNwriteProg (refParse prec runtimeNwriteText) = true ∧ runtimeNwriteProg.Tame ∧ runtimeNwriteProg.Clear ∧
    (Program.Scoped Env.empty runtimeNwriteProg ∧ ∀ d ∈ runtimeNwriteProg, d.CasesOk) := by
  decide_text runtimeNwriteText

attribute [irreducible] runtimeNwriteText

/-- the globals of its module -/
def runtimeNwriteGlobals : List (List Char × GInit) :=
[((".str.0".toList), Blang.GInit.bytes [0x66#8, 0x6f#8, 0x6f#8, 0x62#8, 0x61#8, 0x72#8, 0x0a#8, 0x00#8])]

set_option maxRecDepth 20000 in
theorem runtimeNwrite_globals : globalsAre runtimeNwriteProg runtimeNwriteGlobals = true := by decide +kernel

/-- what the test expects -/
def runtimeNwriteOut : List Char := "foobar\n".toList

set_option maxRecDepth 20000 in
theorem runtimeNwrite_run : Interp.run runtimeNwriteProg runtimeNwriteGlobals 40 2000 40 6 = some (codes runtimeNwriteOut) := by decide +kernel

/-- The process of the test `runtime_nwrite` writes what the test expects. -/
theorem runtimeNwrite_writes : WritesOnAll runtimeNwriteText runtimeNwriteOut 40 40 :=
  writes_of_run runtimeNwrite_checks.1 runtimeNwrite_checks.2.1 runtimeNwrite_checks.2.2.1 runtimeNwrite_checks.2.2.2 runtimeNwrite_globals runtimeNwrite_run

/-- the tests of this file: the text of a program and what the test expects it to write -/
def testProgramsM : List (List Char × List Char) :=
  [(prefixDecrementGlobalText, prefixDecrementGlobalOut), (prefixIncrementText, prefixIncrementOut), (prefixIncrementGlobalText, prefixIncrementGlobalOut), (rshiftEqText, rshiftEqOut), (rshiftGeText, rshiftGeOut), (runtimeCharText, runtimeCharOut), (runtimeNwriteText, runtimeNwriteOut)]

theorem testProgramsM_write : AllWrite testProgramsM :=
  .cons prefixDecrementGlobal_writes (.cons prefixIncrement_writes (.cons prefixIncrementGlobal_writes (.cons rshiftEq_writes (.cons rshiftGe_writes (.cons runtimeChar_writes (.cons runtimeNwrite_writes (.nil)))))))

end Blang.Props
