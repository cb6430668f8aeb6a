import Verif.Props.TestPrograms
/-
Property C100: test programs of the repository.
-/
namespace Blang.Props
open Blang Blang.Spec

/-- the test `unary_edge_cases` -/
def unaryEdgeCasesText : List Char := "main() {
                auto x, y;
                x = 0;
                y = 1;
                printf(\"%d*n\", ++x);  /* Increment 0: ++0 = 1 */
                printf(\"%d*n\", --x);  /* Decrement 1: --1 = 0 */
                printf(\"%d*n\", !x);   /* Logical not 0: !0 = 1 */
                printf(\"%d*n\", !y);   /* Logical not 1: !1 = 0 */
                printf(\"%d*n\", -x);   /* Negate 0: -0 = 0 */
                printf(\"%d*n\", -y);   /* Negate 1: -1 = -1 */
            }".toList

/-- its syntax tree -/
def unaryEdgeCasesProg : Program :=
[.func ("main".toList) [] (.seq (.auto [(("x".toList), none), (("y".toList), none)])
  (.seq (.expr (.assign none (.var ("x".toList)) (.num 0)))
  (.seq (.expr (.assign none (.var ("y".toList)) (.num 1)))
  (.seq (.expr (.callName ("printf".toList) [(.str [37, 100, 10]), (.pre .inc (.var ("x".toList)))]))
  (.seq (.expr (.callName ("printf".toList) [(.str [37, 100, 10]), (.pre .dec (.var ("x".toList)))]))
  (.seq (.expr (.callName ("printf".toList) [(.str [37, 100, 10]), (.not (.var ("x".toList)))]))
  (.seq (.expr (.callName ("printf".toList) [(.str [37, 100, 10]), (.not (.var ("y".toList)))]))
  (.seq (.expr (.callName ("printf".toList) [(.str [37, 100, 10]), (.neg (.var ("x".toList)))]))
  (.seq (.expr (.callName ("printf".toList) [(.str [37, 100, 10]), (.neg (.var ("y".toList)))]))
  .skip)))))))))]

set_option maxRecDepth 50000 in
theorem unaryEdgeCases_checks : Program.isSame unaryEdgeCasesProg (refParse prec unaryEdgeCasesText) = true ∧ unaryEdgeCasesProg.Tame ∧ unaryEdgeCasesProg.Clear ∧
    (Program.Scoped Env.empty unaryEdgeCasesProg ∧ ∀ d ∈ unaryEdgeCasesProg, d.CasesOk) := by
  decide_text unaryEdgeCasesText

attribute [irreducible] unaryEdgeCasesText

/-- the globals of its module -/
def unaryEdgeCasesGlobals : List (List Char × GInit) :=
[((".str.0".toList), Blang.GInit.bytes [0x25#8, 0x64#8, 0x0a#8, 0x00#8]),
 ((".str.1".toList), Blang.GInit.bytes [0x25#8, 0x64#8, 0x0a#8, 0x00#8]),
 ((".str.2".toList), Blang.GInit.bytes [0x25#8, 0x64#8, 0x0a#8, 0x00#8]),
 ((".str.3".toList), Blang.GInit.bytes [0x25#8, 0x64#8, 0x0a#8, 0x00#8]),
 ((".str.4".toList), Blang.GInit.bytes [0x25#8, 0x64#8, 0x0a#8, 0x00#8]),
 ((".str.5".toList), Blang.GInit.bytes [0x25#8, 0x64#8, 0x0a#8, 0x00#8])]

set_option maxRecDepth 20000 in
theorem unaryEdgeCases_globals : globalsAre unaryEdgeCasesProg unaryEdgeCasesGlobals = true := by decide +kernel

/-- what the test expects -/
def unaryEdgeCasesOut : List Char := "1\n0\n1\n0\n0\n-1\n".toList

set_option maxRecDepth 20000 in
theorem unaryEdgeCases_run : Interp.run unaryEdgeCasesProg unaryEdgeCasesGlobals 40 2000 40 6 = some (codes unaryEdgeCasesOut) := by decide +kernel

/-- The process of the test `unary_edge_cases` writes what the test expects. -/
theorem unaryEdgeCases_writes : WritesOnAll unaryEdgeCasesText unaryEdgeCasesOut 40 40 :=
  writes_of_run unaryEdgeCases_checks.1 unaryEdgeCases_checks.2.1 unaryEdgeCases_checks.2.2.1 unaryEdgeCases_checks.2.2.2 unaryEdgeCases_globals unaryEdgeCases_run

/-- the test `unary_on_expressions` -/
def unaryOnExpressionsText : List Char := "main() {
                auto x, y, sum;
                x = 3; y = 4;
                printf(\"%d*n\", -(x + y));  /* Negate sum: -(3+4) = -7 */
                printf(\"%d*n\", !(x * y));  /* Logical not: !(3*4) = !12 = 0 */
                sum = x + y;               /* Store sum: 3+4 = 7 */
                ++sum;                     /* Increment sum: 7 -> 8 */
                printf(\"%d*n\", sum);       /* Final sum: 8 */
            }".toList

/-- its syntax tree -/
def unaryOnExpressionsProg : Program :=
[.func ("main".toList) [] (.seq (.auto [(("x".toList), none), (("y".toList), none), (("sum".toList), none)])
  (.seq (.expr (.assign none (.var ("x".toList)) (.num 3)))
  (.seq (.expr (.assign none (.var ("y".toList)) (.num 4)))
  (.seq (.expr (.callName ("printf".toList) [(.str [37, 100, 10]), (.neg (.paren (.bin .add (.var ("x".toList)) (.var ("y".toList)))))]))
  (.seq (.expr (.callName ("printf".toList) [(.str [37, 100, 10]), (.not (.paren (.bin .mul (.var ("x".toList)) (.var ("y".toList)))))]))
  (.seq (.expr (.assign none (.var ("sum".toList)) (.bin .add (.var ("x".toList)) (.var ("y".toList)))))
  (.seq (.expr (.pre .inc (.var ("sum".toList))))
  (.seq (.expr (.callName ("printf".toList) [(.str [37, 100, 10]), (.var ("sum".toList))]))
  .skip))))))))]

set_option maxRecDepth 50000 in
theorem unaryOnExpressions_checks : Program.isSame unaryOnExpressionsProg (refParse prec unaryOnExpressionsText) = true ∧ unaryOnExpressionsProg.Tame ∧ unaryOnExpressionsProg.Clear ∧
    (Program.Scoped Env.empty unaryOnExpressionsProg ∧ ∀ d ∈ unaryOnExpressionsProg, d.CasesOk) := by
  decide_text unaryOnExpressionsText

attribute [irreducible] unaryOnExpressionsText

/-- the globals of its module -/
def unaryOnExpressionsGlobals : List (List Char × GInit) :=
[((".str.0".toList), Blang.GInit.bytes [0x25#8, 0x64#8, 0x0a#8, 0x00#8]),
 ((".str.1".toList), Blang.GInit.bytes [0x25#8, 0x64#8, 0x0a#8, 0x00#8]),
 ((".str.2".toList), Blang.GInit.bytes [0x25#8, 0x64#8, 0x0a#8, 0x00#8])]

set_option maxRecDepth 20000 in
theorem unaryOnExpressions_globals : globalsAre unaryOnExpressionsProg unaryOnExpressionsGlobals = true := by decide +kernel

/-- what the test expects -/
def unaryOnExpressionsOut : List Char := "-7\n0\n8\n".toList

set_option maxRecDepth 20000 in
theorem unaryOnExpressions_run : Interp.run unaryOnExpressionsProg unaryOnExpressionsGlobals 40 2000 40 6 = some (codes unaryOnExpressionsOut) := by decide +kernel

/-- The process of the test `unary_on_expressions` writes what the test expects. -/
theorem unaryOnExpressions_writes : WritesOnAll unaryOnExpressionsText unaryOnExpressionsOut 40 40 :=
  writes_of_run unaryOnExpressions_checks.1 unaryOnExpressions_checks.2.1 unaryOnExpressions_checks.2.2.1 unaryOnExpressions_checks.2.2.2 unaryOnExpressions_globals unaryOnExpressions_run

/-- the test `unary_operators` -/
def unaryOperatorsText : List Char := "main() {
                extrn x;
                auto y;

                printf(\"global -x = %d, expect %d*n\", -x, -42);
                x = 0;
                printf(\"global !x = %d, expect %d*n\", !x, 1);
                y = 987;
                x = &y;
                printf(\"global **x = %d, expect %d*n\", *x, y);

                printf(\"local -y = %d, expect %d*n\", -y, -987);
                y = 0;
                printf(\"local !y = %d, expect %d*n\", !y, 1);
                x = 42;
                y = &x;
                printf(\"local **y = %d, expect %d*n\", *y, x);
            }

            x 42;
            ".toList

/-- its syntax tree -/
def unaryOperatorsProg : Program :=
[.func ("main".toList) [] (.seq (.extrn [("x".toList)])
  (.seq (.auto [(("y".toList), none)])
  (.seq (.expr (.callName ("printf".toList) [(.str [103, 108, 111, 98, 97, 108, 32, 45, 120, 32, 61, 32, 37, 100, 44, 32, 101, 120, 112, 101, 99, 116, 32, 37, 100, 10]), (.neg (.var ("x".toList))), (.neg (.num 42))]))
  (.seq (.expr (.assign none (.var ("x".toList)) (.num 0)))
  (.seq (.expr (.callName ("printf".toList) [(.str [103, 108, 111, 98, 97, 108, 32, 33, 120, 32, 61, 32, 37, 100, 44, 32, 101, 120, 112, 101, 99, 116, 32, 37, 100, 10]), (.not (.var ("x".toList))), (.num 1)]))
  (.seq (.expr (.assign none (.var ("y".toList)) (.num 987)))
  (.seq (.expr (.assign none (.var ("x".toList)) (.addr (.var ("y".toList)))))
  (.seq (.expr (.callName ("printf".toList) [(.str [103, 108, 111, 98, 97, 108, 32, 42, 120, 32, 61, 32, 37, 100, 44, 32, 101, 120, 112, 101, 99, 116, 32, 37, 100, 10]), (.deref (.var ("x".toList))), (.var ("y".toList))]))
  (.seq (.expr (.callName ("printf".toList) [(.str [108, 111, 99, 97, 108, 32, 45, 121, 32, 61, 32, 37, 100, 44, 32, 101, 120, 112, 101, 99, 116, 32, 37, 100, 10]), (.neg (.var ("y".toList))), (.neg (.num 987))]))
  (.seq (.expr (.assign none (.var ("y".toList)) (.num 0)))
  (.seq (.expr (.callName ("printf".toList) [(.str [108, 111, 99, 97, 108, 32, 33, 121, 32, 61, 32, 37, 100, 44, 32, 101, 120, 112, 101, 99, 116, 32, 37, 100, 10]), (.not (.var ("y".toList))), (.num 1)]))
  (.seq (.expr (.assign none (.var ("x".toList)) (.num 42)))
  (.seq (.expr (.assign none (.var ("y".toList)) (.addr (.var ("x".toList)))))
  (.seq (.expr (.callName ("printf".toList) [(.str [108, 111, 99, 97, 108, 32, 42, 121, 32, 61, 32, 37, 100, 44, 32, 101, 120, 112, 101, 99, 116, 32, 37, 100, 10]), (.deref (.var ("y".toList))), (.var ("x".toList))]))
  .skip)))))))))))))),
 .global ("x".toList) [.int 42]]

set_option maxRecDepth 50000 in
theorem unaryOperators_checks : Program.isSame unaryOperatorsProg (refParse prec unaryOperatorsText) = true ∧ unaryOperatorsProg.Tame ∧ unaryOperatorsProg.Clear ∧
    (Program.Scoped Env.empty unaryOperatorsProg ∧ ∀ d ∈ unaryOperatorsProg, d.CasesOk) := by
  decide_text unaryOperatorsText

attribute [irreducible] unaryOperatorsText

/-- the globals of its module -/
def unaryOperatorsGlobals : List (List Char × GInit) :=
[((".str.0".toList), Blang.GInit.bytes [0x67#8, 0x6c#8, 0x6f#8, 0x62#8, 0x61#8, 0x6c#8, 0x20#8, 0x2d#8, 0x78#8, 0x20#8, 0x3d#8, 0x20#8, 0x25#8, 0x64#8, 0x2c#8, 0x20#8, 0x65#8, 0x78#8, 0x70#8, 0x65#8, 0x63#8, 0x74#8, 0x20#8, 0x25#8, 0x64#8, 0x0a#8, 0x00#8]),
 ((".str.1".toList), Blang.GInit.bytes [0x67#8, 0x6c#8, 0x6f#8, 0x62#8, 0x61#8, 0x6c#8, 0x20#8, 0x21#8, 0x78#8, 0x20#8, 0x3d#8, 0x20#8, 0x25#8, 0x64#8, 0x2c#8, 0x20#8, 0x65#8, 0x78#8, 0x70#8, 0x65#8, 0x63#8, 0x74#8, 0x20#8, 0x25#8, 0x64#8, 0x0a#8, 0x00#8]),
 ((".str.2".toList), Blang.GInit.bytes [0x67#8, 0x6c#8, 0x6f#8, 0x62#8, 0x61#8, 0x6c#8, 0x20#8, 0x2a#8, 0x78#8, 0x20#8, 0x3d#8, 0x20#8, 0x25#8, 0x64#8, 0x2c#8, 0x20#8, 0x65#8, 0x78#8, 0x70#8, 0x65#8, 0x63#8, 0x74#8, 0x20#8, 0x25#8, 0x64#8, 0x0a#8, 0x00#8]),
 ((".str.3".toList), Blang.GInit.bytes [0x6c#8, 0x6f#8, 0x63#8, 0x61#8, 0x6c#8, 0x20#8, 0x2d#8, 0x79#8, 0x20#8, 0x3d#8, 0x20#8, 0x25#8, 0x64#8, 0x2c#8, 0x20#8, 0x65#8, 0x78#8, 0x70#8, 0x65#8, 0x63#8, 0x74#8, 0x20#8, 0x25#8, 0x64#8, 0x0a#8, 0x00#8]),
 ((".str.4".toList), Blang.GInit.bytes [0x6c#8, 0x6f#8, 0x63#8, 0x61#8, 0x6c#8, 0x20#8, 0x21#8, 0x79#8, 0x20#8, 0x3d#8, 0x20#8, 0x25#8, 0x64#8, 0x2c#8, 0x20#8, 0x65#8, 0x78#8, 0x70#8, 0x65#8, 0x63#8, 0x74#8, 0x20#8, 0x25#8, 0x64#8, 0x0a#8, 0x00#8]),
 ((".str.5".toList), Blang.GInit.bytes [0x6c#8, 0x6f#8, 0x63#8, 0x61#8, 0x6c#8, 0x20#8, 0x2a#8, 0x79#8, 0x20#8, 0x3d#8, 0x20#8, 0x25#8, 0x64#8, 0x2c#8, 0x20#8, 0x65#8, 0x78#8, 0x70#8, 0x65#8, 0x63#8, 0x74#8, 0x20#8, 0x25#8, 0x64#8, 0x0a#8, 0x00#8]),
 (("b.x".toList), Blang.GInit.word (Blang.Const.int 0x000000000000002a#64))]

set_option maxRecDepth 20000 in
theorem unaryOperators_globals : globalsAre unaryOperatorsProg unaryOperatorsGlobals = true := by decide +kernel

/-- what the test expects -/
def unaryOperatorsOut : List Char := "global -x = -42, expect -42\nglobal !x = 1, expect 1\nglobal *x = 987, expect 987\nlocal -y = -987, expect -987\nlocal !y = 1, expect 1\nlocal *y = 42, expect 42\n".toList

set_option maxRecDepth 20000 in
theorem unaryOperators_run : Interp.run unaryOperatorsProg unaryOperatorsGlobals 40 2000 40 6 = some (codes unaryOperatorsOut) := by decide +kernel

/-- The process of the test `unary_operators` writes what the test expects. -/
theorem unaryOperators_writes : WritesOnAll unaryOperatorsText unaryOperatorsOut 40 40 :=
  writes_of_run unaryOperators_checks.1 unaryOperators_checks.2.1 unaryOperators_checks.2.2.1 unaryOperators_checks.2.2.2 unaryOperators_globals unaryOperators_run

/-- the tests of this file: the text of a program and what the test expects it to write -/
def testProgramsO : List (List Char × List Char) :=
  [(unaryEdgeCasesText, unaryEdgeCasesOut), (unaryOnExpressionsText, unaryOnExpressionsOut), (unaryOperatorsText, unaryOperatorsOut)]

theorem testProgramsO_write : AllWrite testProgramsO :=
  .cons unaryEdgeCases_writes (.cons unaryOnExpressions_writes (.cons unaryOperators_writes (.nil)))

end Blang.Props
