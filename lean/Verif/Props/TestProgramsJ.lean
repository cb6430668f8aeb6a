import Verif.Props.TestPrograms
/-
Property C100: test programs of the repository.
-/
namespace Blang.Props
open Blang Blang.Spec

/-- the test `negation_in_conditional_context` -/
def negationInConditionalContextText : List Char := "main() {
                extrn x;
                auto y;

                y = x + 100;
                printf(\"x = %d, y = %d*n\", x, y);
                if (x)
                    printf(\"if (x) WRONG*n\");
                else
                    printf(\"if (x) Correct*n\");

                if (y)
                    printf(\"if (y) Correct*n\");
                else
                    printf(\"if (y) WRONG*n\");

                if (!x)
                    printf(\"if (!x) Correct*n\");
                else
                    printf(\"if (!x) WRONG*n\");

                if (!y)
                    printf(\"if (!y) WRONG*n\");
                else
                    printf(\"if (!y) Correct*n\");

                while (!x) {
                    printf(\"while (!x) x = %d*n\", x);
                    x = 42;
                }
            }

            x;
            ".toList

/-- its syntax tree -/
def negationInConditionalContextProg : Program :=
[.func ("main".toList) [] (.seq (.extrn [("x".toList)])
  (.seq (.auto [(("y".toList), none)])
  (.seq (.expr (.assign none (.var ("y".toList)) (.bin .add (.var ("x".toList)) (.num 100))))
  (.seq (.expr (.callName ("printf".toList) [(.str [120, 32, 61, 32, 37, 100, 44, 32, 121, 32, 61, 32, 37, 100, 10]), (.var ("x".toList)), (.var ("y".toList))]))
  (.seq (.ifElse (.var ("x".toList)) (.expr (.callName ("printf".toList) [(.str [105, 102, 32, 40, 120, 41, 32, 87, 82, 79, 78, 71, 10])])) (.expr (.callName ("printf".toList) [(.str [105, 102, 32, 40, 120, 41, 32, 67, 111, 114, 114, 101, 99, 116, 10])])))
  (.seq (.ifElse (.var ("y".toList)) (.expr (.callName ("printf".toList) [(.str [105, 102, 32, 40, 121, 41, 32, 67, 111, 114, 114, 101, 99, 116, 10])])) (.expr (.callName ("printf".toList) [(.str [105, 102, 32, 40, 121, 41, 32, 87, 82, 79, 78, 71, 10])])))
  (.seq (.ifElse (.not (.var ("x".toList))) (.expr (.callName ("printf".toList) [(.str [105, 102, 32, 40, 33, 120, 41, 32, 67, 111, 114, 114, 101, 99, 116, 10])])) (.expr (.callName ("printf".toList) [(.str [105, 102, 32, 40, 33, 120, 41, 32, 87, 82, 79, 78, 71, 10])])))
  (.seq (.ifElse (.not (.var ("y".toList))) (.expr (.callName ("printf".toList) [(.str [105, 102, 32, 40, 33, 121, 41, 32, 87, 82, 79, 78, 71, 10])])) (.expr (.callName ("printf".toList) [(.str [105, 102, 32, 40, 33, 121, 41, 32, 67, 111, 114, 114, 101, 99, 116, 10])])))
  (.seq (.while (.not (.var ("x".toList))) (.seq (.expr (.callName ("printf".toList) [(.str [119, 104, 105, 108, 101, 32, 40, 33, 120, 41, 32, 120, 32, 61, 32, 37, 100, 10]), (.var ("x".toList))]))
  (.seq (.expr (.assign none (.var ("x".toList)) (.num 42)))
  .skip)))
  .skip))))))))),
 .global ("x".toList) []]

set_option maxRecDepth 50000 in
theorem negationInConditionalContext_checks : Program.isSame negationInConditionalContextProg (refParse prec negationInConditionalContextText) = true ∧ negationInConditionalContextProg.Tame ∧ negationInConditionalContextProg.Clear ∧
    (Program.Scoped Env.empty negationInConditionalContextProg ∧ ∀ d ∈ negationInConditionalContextProg, d.CasesOk) := by
  decide_text negationInConditionalContextText

attribute [irreducible] negationInConditionalContextText

/-- the globals of its module -/
def negationInConditionalContextGlobals : List (List Char × GInit) :=
[((".str.0".toList), Blang.GInit.bytes [0x78#8, 0x20#8, 0x3d#8, 0x20#8, 0x25#8, 0x64#8, 0x2c#8, 0x20#8, 0x79#8, 0x20#8, 0x3d#8, 0x20#8, 0x25#8, 0x64#8, 0x0a#8, 0x00#8]),
 ((".str.1".toList), Blang.GInit.bytes [0x69#8, 0x66#8, 0x20#8, 0x28#8, 0x78#8, 0x29#8, 0x20#8, 0x57#8, 0x52#8, 0x4f#8, 0x4e#8, 0x47#8, 0x0a#8, 0x00#8]),
 ((".str.2".toList), Blang.GInit.bytes [0x69#8, 0x66#8, 0x20#8, 0x28#8, 0x78#8, 0x29#8, 0x20#8, 0x43#8, 0x6f#8, 0x72#8, 0x72#8, 0x65#8, 0x63#8, 0x74#8, 0x0a#8, 0x00#8]),
 ((".str.3".toList), Blang.GInit.bytes [0x69#8, 0x66#8, 0x20#8, 0x28#8, 0x79#8, 0x29#8, 0x20#8, 0x43#8, 0x6f#8, 0x72#8, 0x72#8, 0x65#8, 0x63#8, 0x74#8, 0x0a#8, 0x00#8]),
 ((".str.4".toList), Blang.GInit.bytes [0x69#8, 0x66#8, 0x20#8, 0x28#8, 0x79#8, 0x29#8, 0x20#8, 0x57#8, 0x52#8, 0x4f#8, 0x4e#8, 0x47#8, 0x0a#8, 0x00#8]),
 ((".str.5".toList), Blang.GInit.bytes [0x69#8, 0x66#8, 0x20#8, 0x28#8, 0x21#8, 0x78#8, 0x29#8, 0x20#8, 0x43#8, 0x6f#8, 0x72#8, 0x72#8, 0x65#8, 0x63#8, 0x74#8, 0x0a#8, 0x00#8]),
 ((".str.6".toList), Blang.GInit.bytes [0x69#8, 0x66#8, 0x20#8, 0x28#8, 0x21#8, 0x78#8, 0x29#8, 0x20#8, 0x57#8, 0x52#8, 0x4f#8, 0x4e#8, 0x47#8, 0x0a#8, 0x00#8]),
 ((".str.7".toList), Blang.GInit.bytes [0x69#8, 0x66#8, 0x20#8, 0x28#8, 0x21#8, 0x79#8, 0x29#8, 0x20#8, 0x57#8, 0x52#8, 0x4f#8, 0x4e#8, 0x47#8, 0x0a#8, 0x00#8]),
 ((".str.8".toList), Blang.GInit.bytes [0x69#8, 0x66#8, 0x20#8, 0x28#8, 0x21#8, 0x79#8, 0x29#8, 0x20#8, 0x43#8, 0x6f#8, 0x72#8, 0x72#8, 0x65#8, 0x63#8, 0x74#8, 0x0a#8, 0x00#8]),
 ((".str.9".toList), Blang.GInit.bytes [0x77#8, 0x68#8, 0x69#8, 0x6c#8, 0x65#8, 0x20#8, 0x28#8, 0x21#8, 0x78#8, 0x29#8, 0x20#8, 0x78#8, 0x20#8, 0x3d#8, 0x20#8, 0x25#8, 0x64#8, 0x0a#8, 0x00#8]),
 (("b.x".toList), Blang.GInit.word (Blang.Const.int 0x0000000000000000#64))]

set_option maxRecDepth 20000 in
theorem negationInConditionalContext_globals : globalsAre negationInConditionalContextProg negationInConditionalContextGlobals = true := by decide +kernel

/-- what the test expects -/
def negationInConditionalContextOut : List Char := "x = 0, y = 100\nif (x) Correct\nif (y) Correct\nif (!x) Correct\nif (!y) Correct\nwhile (!x) x = 0\n".toList

set_option maxRecDepth 20000 in
theorem negationInConditionalContext_run : Interp.run negationInConditionalContextProg negationInConditionalContextGlobals 40 2000 40 6 = some (codes negationInConditionalContextOut) := by decide +kernel

/-- The process of the test `negation_in_conditional_context` writes what the test expects. -/
theorem negationInConditionalContext_writes : WritesOnAll negationInConditionalContextText negationInConditionalContextOut 40 40 :=
  writes_of_run negationInConditionalContext_checks.1 negationInConditionalContext_checks.2.1 negationInConditionalContext_checks.2.2.1 negationInConditionalContext_checks.2.2.2 negationInConditionalContext_globals negationInConditionalContext_run

/-- the test `nested_ternary` -/
def nestedTernaryText : List Char := "classify(n) {
                return (n > 50 ? 100 : (n > 25 ? 50 : 25));
            }

            sign(n) {
                return (n > 0 ? 1 : (n < 0 ? -1 : 0));
            }

            main() {
                printf(\"classify(75) = %d*n\", classify(75));
                printf(\"classify(40) = %d*n\", classify(40));
                printf(\"classify(10) = %d*n\", classify(10));

                printf(\"sign(42) = %d*n\", sign(42));
                printf(\"sign(-17) = %d*n\", sign(-17));
                printf(\"sign(0) = %d*n\", sign(0));
            }".toList

/-- its syntax tree -/
def nestedTernaryProg : Program :=
[.func ("classify".toList) [("n".toList)] (.seq (.ret (some (.cond (.bin .gt (.var ("n".toList)) (.num 50)) (.num 100) (.paren (.cond (.bin .gt (.var ("n".toList)) (.num 25)) (.num 50) (.num 25))))))
  .skip),
 .func ("sign".toList) [("n".toList)] (.seq (.ret (some (.cond (.bin .gt (.var ("n".toList)) (.num 0)) (.num 1) (.paren (.cond (.bin .lt (.var ("n".toList)) (.num 0)) (.neg (.num 1)) (.num 0))))))
  .skip),
 .func ("main".toList) [] (.seq (.expr (.callName ("printf".toList) [(.str [99, 108, 97, 115, 115, 105, 102, 121, 40, 55, 53, 41, 32, 61, 32, 37, 100, 10]), (.callName ("classify".toList) [(.num 75)])]))
  (.seq (.expr (.callName ("printf".toList) [(.str [99, 108, 97, 115, 115, 105, 102, 121, 40, 52, 48, 41, 32, 61, 32, 37, 100, 10]), (.callName ("classify".toList) [(.num 40)])]))
  (.seq (.expr (.callName ("printf".toList) [(.str [99, 108, 97, 115, 115, 105, 102, 121, 40, 49, 48, 41, 32, 61, 32, 37, 100, 10]), (.callName ("classify".toList) [(.num 10)])]))
  (.seq (.expr (.callName ("printf".toList) [(.str [115, 105, 103, 110, 40, 52, 50, 41, 32, 61, 32, 37, 100, 10]), (.callName ("sign".toList) [(.num 42)])]))
  (.seq (.expr (.callName ("printf".toList) [(.str [115, 105, 103, 110, 40, 45, 49, 55, 41, 32, 61, 32, 37, 100, 10]), (.callName ("sign".toList) [(.neg (.num 17))])]))
  (.seq (.expr (.callName ("printf".toList) [(.str [115, 105, 103, 110, 40, 48, 41, 32, 61, 32, 37, 100, 10]), (.callName ("sign".toList) [(.num 0)])]))
  .skip))))))]

set_option maxRecDepth 50000 in
theorem nestedTernary_checks : Program.isSame nestedTernaryProg (refParse prec nestedTernaryText) = true ∧ nestedTernaryProg.Tame ∧ nestedTernaryProg.Clear ∧
    (Program.Scoped Env.empty nestedTernaryProg ∧ ∀ d ∈ nestedTernaryProg, d.CasesOk) := by
  decide_text nestedTernaryText

attribute [irreducible] nestedTernaryText

/-- the globals of its module -/
def nestedTernaryGlobals : List (List Char × GInit) :=
[((".str.0".toList), Blang.GInit.bytes [0x63#8, 0x6c#8, 0x61#8, 0x73#8, 0x73#8, 0x69#8, 0x66#8, 0x79#8, 0x28#8, 0x37#8, 0x35#8, 0x29#8, 0x20#8, 0x3d#8, 0x20#8, 0x25#8, 0x64#8, 0x0a#8, 0x00#8]),
 ((".str.1".toList), Blang.GInit.bytes [0x63#8, 0x6c#8, 0x61#8, 0x73#8, 0x73#8, 0x69#8, 0x66#8, 0x79#8, 0x28#8, 0x34#8, 0x30#8, 0x29#8, 0x20#8, 0x3d#8, 0x20#8, 0x25#8, 0x64#8, 0x0a#8, 0x00#8]),
 ((".str.2".toList), Blang.GInit.bytes [0x63#8, 0x6c#8, 0x61#8, 0x73#8, 0x73#8, 0x69#8, 0x66#8, 0x79#8, 0x28#8, 0x31#8, 0x30#8, 0x29#8, 0x20#8, 0x3d#8, 0x20#8, 0x25#8, 0x64#8, 0x0a#8, 0x00#8]),
 ((".str.3".toList), Blang.GInit.bytes [0x73#8, 0x69#8, 0x67#8, 0x6e#8, 0x28#8, 0x34#8, 0x32#8, 0x29#8, 0x20#8, 0x3d#8, 0x20#8, 0x25#8, 0x64#8, 0x0a#8, 0x00#8]),
 ((".str.4".toList), Blang.GInit.bytes [0x73#8, 0x69#8, 0x67#8, 0x6e#8, 0x28#8, 0x2d#8, 0x31#8, 0x37#8, 0x29#8, 0x20#8, 0x3d#8, 0x20#8, 0x25#8, 0x64#8, 0x0a#8, 0x00#8]),
 ((".str.5".toList), Blang.GInit.bytes [0x73#8, 0x69#8, 0x67#8, 0x6e#8, 0x28#8, 0x30#8, 0x29#8, 0x20#8, 0x3d#8, 0x20#8, 0x25#8, 0x64#8, 0x0a#8, 0x00#8])]

set_option maxRecDepth 20000 in
theorem nestedTernary_globals : globalsAre nestedTernaryProg nestedTernaryGlobals = true := by decide +kernel

/-- what the test expects -/
def nestedTernaryOut : List Char := "classify(75) = 100\nclassify(40) = 50\nclassify(10) = 25\nsign(42) = 1\nsign(-17) = -1\nsign(0) = 0\n".toList

set_option maxRecDepth 20000 in
theorem nestedTernary_run : Interp.run nestedTernaryProg nestedTernaryGlobals 40 2000 40 6 = some (codes nestedTernaryOut) := by decide +kernel

/-- The process of the test `nested_ternary` writes what the test expects. -/
theorem nestedTernary_writes : WritesOnAll nestedTernaryText nestedTernaryOut 40 40 :=
  writes_of_run nestedTernary_checks.1 nestedTernary_checks.2.1 nestedTernary_checks.2.2.1 nestedTernary_checks.2.2.2 nestedTernary_globals nestedTernary_run

/-- the tests of this file: the text of a program and what the test expects it to write -/
def testProgramsJ : List (List Char × List Char) :=
  [(negationInConditionalContextText, negationInConditionalContextOut), (nestedTernaryText, nestedTernaryOut)]

theorem testProgramsJ_write : AllWrite testProgramsJ :=
  .cons negationInConditionalContext_writes (.cons nestedTernary_writes (.nil))

end Blang.Props
