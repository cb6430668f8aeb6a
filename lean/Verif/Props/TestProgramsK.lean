import Verif.Props.TestPrograms
/-
Property C100: test programs of the repository.
-/
namespace Blang.Props
open Blang Blang.Spec

/-- the test `nested_unary_operators` -/
def nestedUnaryOperatorsText : List Char := "main() {
                auto x;
                x = 5;
                printf(\"%d*n\", !!x);     /* Double negation: !(!5) = !0 = 1 */
                printf(\"%d*n\", -(-x));   /* Double negation: -(-5) = 5 */
                ++x;                     /* Increment x: 5 -> 6 */
                ++x;                     /* Increment x: 6 -> 7 */
                printf(\"%d*n\", x);       /* Final value: 7 */
            }".toList

/-- its syntax tree -/
def nestedUnaryOperatorsProg : Program :=
[.func ("main".toList) [] (.seq (.auto [(("x".toList), none)])
  (.seq (.expr (.assign none (.var ("x".toList)) (.num 5)))
  (.seq (.expr (.callName ("printf".toList) [(.str [37, 100, 10]), (.not (.not (.var ("x".toList))))]))
  (.seq (.expr (.callName ("printf".toList) [(.str [37, 100, 10]), (.neg (.paren (.neg (.var ("x".toList)))))]))
  (.seq (.expr (.pre .inc (.var ("x".toList))))
  (.seq (.expr (.pre .inc (.var ("x".toList))))
  (.seq (.expr (.callName ("printf".toList) [(.str [37, 100, 10]), (.var ("x".toList))]))
  .skip)))))))]

set_option maxRecDepth 50000 in
theorem nestedUnaryOperators_checks : Program.isSame nestedUnaryOperatorsProg (refParse prec nestedUnaryOperatorsText) = true ∧ nestedUnaryOperatorsProg.Tame ∧ nestedUnaryOperatorsProg.Clear ∧
    (Program.Scoped Env.empty nestedUnaryOperatorsProg ∧ ∀ d ∈ nestedUnaryOperatorsProg, d.CasesOk) := by
  decide_text nestedUnaryOperatorsText

attribute [irreducible] nestedUnaryOperatorsText

/-- the globals of its module -/
def nestedUnaryOperatorsGlobals : List (List Char × GInit) :=
[((".str.0".toList), Blang.GInit.bytes [0x25#8, 0x64#8, 0x0a#8, 0x00#8]),
 ((".str.1".toList), Blang.GInit.bytes [0x25#8, 0x64#8, 0x0a#8, 0x00#8]),
 ((".str.2".toList), Blang.GInit.bytes [0x25#8, 0x64#8, 0x0a#8, 0x00#8])]

set_option maxRecDepth 20000 in
theorem nestedUnaryOperators_globals : globalsAre nestedUnaryOperatorsProg nestedUnaryOperatorsGlobals = true := by decide +kernel

/-- what the test expects -/
def nestedUnaryOperatorsOut : List Char := "1\n5\n7\n".toList

set_option maxRecDepth 20000 in
theorem nestedUnaryOperators_run : Interp.run nestedUnaryOperatorsProg nestedUnaryOperatorsGlobals 40 2000 40 6 = some (codes nestedUnaryOperatorsOut) := by decide +kernel

/-- The process of the test `nested_unary_operators` writes what the test expects. -/
theorem nestedUnaryOperators_writes : WritesOnAll nestedUnaryOperatorsText nestedUnaryOperatorsOut 40 40 :=
  writes_of_run nestedUnaryOperators_checks.1 nestedUnaryOperators_checks.2.1 nestedUnaryOperators_checks.2.2.1 nestedUnaryOperators_checks.2.2.2 nestedUnaryOperators_globals nestedUnaryOperators_run

/-- the test `nested_while_basic` -/
def nestedWhileBasicText : List Char := "main() {
                auto i, j, sum;

                sum = 0;
                i = 0;
                while (i < 3) {
                    j = 0;
                    while (j < 3) {
                        sum = sum + 1;
                        j++;
                    }
                    i++;
                }

                printf(\"sum = %d*n\", sum);
            }".toList

/-- its syntax tree -/
def nestedWhileBasicProg : Program :=
[.func ("main".toList) [] (.seq (.auto [(("i".toList), none), (("j".toList), none), (("sum".toList), none)])
  (.seq (.expr (.assign none (.var ("sum".toList)) (.num 0)))
  (.seq (.expr (.assign none (.var ("i".toList)) (.num 0)))
  (.seq (.while (.bin .lt (.var ("i".toList)) (.num 3)) (.seq (.expr (.assign none (.var ("j".toList)) (.num 0)))
  (.seq (.while (.bin .lt (.var ("j".toList)) (.num 3)) (.seq (.expr (.assign none (.var ("sum".toList)) (.bin .add (.var ("sum".toList)) (.num 1))))
  (.seq (.expr (.post .inc (.var ("j".toList))))
  .skip)))
  (.seq (.expr (.post .inc (.var ("i".toList))))
  .skip))))
  (.seq (.expr (.callName ("printf".toList) [(.str [115, 117, 109, 32, 61, 32, 37, 100, 10]), (.var ("sum".toList))]))
  .skip)))))]

set_option maxRecDepth 50000 in
theorem nestedWhileBasic_checks : Program.isSame nestedWhileBasicProg (refParse prec nestedWhileBasicText) = true ∧ nestedWhileBasicProg.Tame ∧ nestedWhileBasicProg.Clear ∧
    (Program.Scoped Env.empty nestedWhileBasicProg ∧ ∀ d ∈ nestedWhileBasicProg, d.CasesOk) := by
  decide_text nestedWhileBasicText

attribute [irreducible] nestedWhileBasicText

/-- the globals of its module -/
def nestedWhileBasicGlobals : List (List Char × GInit) :=
[((".str.0".toList), Blang.GInit.bytes [0x73#8, 0x75#8, 0x6d#8, 0x20#8, 0x3d#8, 0x20#8, 0x25#8, 0x64#8, 0x0a#8, 0x00#8])]

set_option maxRecDepth 20000 in
theorem nestedWhileBasic_globals : globalsAre nestedWhileBasicProg nestedWhileBasicGlobals = true := by decide +kernel

/-- what the test expects -/
def nestedWhileBasicOut : List Char := "sum = 9\n".toList

set_option maxRecDepth 20000 in
theorem nestedWhileBasic_run : Interp.run nestedWhileBasicProg nestedWhileBasicGlobals 40 2000 40 6 = some (codes nestedWhileBasicOut) := by decide +kernel

/-- The process of the test `nested_while_basic` writes what the test expects. -/
theorem nestedWhileBasic_writes : WritesOnAll nestedWhileBasicText nestedWhileBasicOut 40 40 :=
  writes_of_run nestedWhileBasic_checks.1 nestedWhileBasic_checks.2.1 nestedWhileBasic_checks.2.2.1 nestedWhileBasic_checks.2.2.2 nestedWhileBasic_globals nestedWhileBasic_run

/-- the test `nested_while_complex` -/
def nestedWhileComplexText : List Char := "main() {
                auto i, j, k, count;

                count = 0;
                i = 1;
                while (i <= 2) {
                    j = 1;
                    while (j <= 2) {
                        k = 1;
                        while (k <= 2) {
                            count++;
                            k++;
                        }
                        j++;
                    }
                    i++;
                }

                printf(\"count = %d*n\", count);
            }".toList

/-- its syntax tree -/
def nestedWhileComplexProg : Program :=
[.func ("main".toList) [] (.seq (.auto [(("i".toList), none), (("j".toList), none), (("k".toList), none), (("count".toList), none)])
  (.seq (.expr (.assign none (.var ("count".toList)) (.num 0)))
  (.seq (.expr (.assign none (.var ("i".toList)) (.num 1)))
  (.seq (.while (.bin .le (.var ("i".toList)) (.num 2)) (.seq (.expr (.assign none (.var ("j".toList)) (.num 1)))
  (.seq (.while (.bin .le (.var ("j".toList)) (.num 2)) (.seq (.expr (.assign none (.var ("k".toList)) (.num 1)))
  (.seq (.while (.bin .le (.var ("k".toList)) (.num 2)) (.seq (.expr (.post .inc (.var ("count".toList))))
  (.seq (.expr (.post .inc (.var ("k".toList))))
  .skip)))
  (.seq (.expr (.post .inc (.var ("j".toList))))
  .skip))))
  (.seq (.expr (.post .inc (.var ("i".toList))))
  .skip))))
  (.seq (.expr (.callName ("printf".toList) [(.str [99, 111, 117, 110, 116, 32, 61, 32, 37, 100, 10]), (.var ("count".toList))]))
  .skip)))))]

set_option maxRecDepth 50000 in
theorem nestedWhileComplex_checks : Program.isSame nestedWhileComplexProg (refParse prec nestedWhileComplexText) = true ∧ nestedWhileComplexProg.Tame ∧ nestedWhileComplexProg.Clear ∧
    (Program.Scoped Env.empty nestedWhileComplexProg ∧ ∀ d ∈ nestedWhileComplexProg, d.CasesOk) := by
  decide_text nestedWhileComplexText

attribute [irreducible] nestedWhileComplexText

/-- the globals of its module -/
def nestedWhileComplexGlobals : List (List Char × GInit) :=
[((".str.0".toList), Blang.GInit.bytes [0x63#8, 0x6f#8, 0x75#8, 0x6e#8, 0x74#8, 0x20#8, 0x3d#8, 0x20#8, 0x25#8, 0x64#8, 0x0a#8, 0x00#8])]

set_option maxRecDepth 20000 in
theorem nestedWhileComplex_globals : globalsAre nestedWhileComplexProg nestedWhileComplexGlobals = true := by decide +kernel

/-- what the test expects -/
def nestedWhileComplexOut : List Char := "count = 8\n".toList

set_option maxRecDepth 20000 in
theorem nestedWhileComplex_run : Interp.run nestedWhileComplexProg nestedWhileComplexGlobals 40 2000 40 6 = some (codes nestedWhileComplexOut) := by decide +kernel

/-- The process of the test `nested_while_complex` writes what the test expects. -/
theorem nestedWhileComplex_writes : WritesOnAll nestedWhileComplexText nestedWhileComplexOut 40 40 :=
  writes_of_run nestedWhileComplex_checks.1 nestedWhileComplex_checks.2.1 nestedWhileComplex_checks.2.2.1 nestedWhileComplex_checks.2.2.2 nestedWhileComplex_globals nestedWhileComplex_run

/-- the test `octal_literals` -/
def octalLiteralsText : List Char := "main() {
                auto v;
                v = 012345;
                printf(\"%d*n\", v);
                v = -04567;
                printf(\"%d*n\", v);
            }".toList

/-- its syntax tree -/
def octalLiteralsProg : Program :=
[.func ("main".toList) [] (.seq (.auto [(("v".toList), none)])
  (.seq (.expr (.assign none (.var ("v".toList)) (.num 5349)))
  (.seq (.expr (.callName ("printf".toList) [(.str [37, 100, 10]), (.var ("v".toList))]))
  (.seq (.expr (.assign none (.var ("v".toList)) (.neg (.num 2423))))
  (.seq (.expr (.callName ("printf".toList) [(.str [37, 100, 10]), (.var ("v".toList))]))
  .skip)))))]

set_option maxRecDepth 50000 in
theorem octalLiterals_checks : Program.isSame octalLiteralsProg (refParse prec octalLiteralsText) = true ∧ octalLiteralsProg.Tame ∧ octalLiteralsProg.Clear ∧
    (Program.Scoped Env.empty octalLiteralsProg ∧ ∀ d ∈ octalLiteralsProg, d.CasesOk) := by
  decide_text octalLiteralsText

attribute [irreducible] octalLiteralsText

/-- the globals of its module -/
def octalLiteralsGlobals : List (List Char × GInit) :=
[((".str.0".toList), Blang.GInit.bytes [0x25#8, 0x64#8, 0x0a#8, 0x00#8]),
 ((".str.1".toList), Blang.GInit.bytes [0x25#8, 0x64#8, 0x0a#8, 0x00#8])]

set_option maxRecDepth 20000 in
theorem octalLiterals_globals : globalsAre octalLiteralsProg octalLiteralsGlobals = true := by decide +kernel

/-- what the test expects -/
def octalLiteralsOut : List Char := "5349\n-2423\n".toList

set_option maxRecDepth 20000 in
theorem octalLiterals_run : Interp.run octalLiteralsProg octalLiteralsGlobals 40 2000 40 6 = some (codes octalLiteralsOut) := by decide +kernel

/-- The process of the test `octal_literals` writes what the test expects. -/
theorem octalLiterals_writes : WritesOnAll octalLiteralsText octalLiteralsOut 40 40 :=
  writes_of_run octalLiterals_checks.1 octalLiterals_checks.2.1 octalLiterals_checks.2.2.1 octalLiterals_checks.2.2.2 octalLiterals_globals octalLiterals_run

/-- the tests of this file: the text of a program and what the test expects it to write -/
def testProgramsK : List (List Char × List Char) :=
  [(nestedUnaryOperatorsText, nestedUnaryOperatorsOut), (nestedWhileBasicText, nestedWhileBasicOut), (nestedWhileComplexText, nestedWhileComplexOut), (octalLiteralsText, octalLiteralsOut)]

theorem testProgramsK_write : AllWrite testProgramsK :=
  .cons nestedUnaryOperators_writes (.cons nestedWhileBasic_writes (.cons nestedWhileComplex_writes (.cons octalLiterals_writes (.nil))))

end Blang.Props
