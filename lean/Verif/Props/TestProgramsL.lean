import Verif.Props.TestPrograms
/-
Property C100: test programs of the repository.
-/
namespace Blang.Props
open Blang Blang.Spec

/-- the test `or_rshift` -/
def orRshiftText : List Char := "main() {
                printf(\"2 | 4 >> 1 -> %d*n\", 2 | 4 >> 1);
            }".toList

/-- its syntax tree -/
def orRshiftProg : Program :=
[.func ("main".toList) [] (.seq (.expr (.callName ("printf".toList) [(.str [50, 32, 124, 32, 52, 32, 62, 62, 32, 49, 32, 45, 62, 32, 37, 100, 10]), (.bin .bor (.num 2) (.bin .shr (.num 4) (.num 1)))]))
  .skip)]

set_option maxRecDepth 50000 in
theorem orRshift_checks : Program.isSame orRshiftProg (refParse prec orRshiftText) = true ∧ orRshiftProg.Tame ∧ orRshiftProg.Clear ∧
    (Program.Scoped Env.empty orRshiftProg ∧ ∀ d ∈ orRshiftProg, d.CasesOk) := by
  decide_text orRshiftText

attribute [irreducible] orRshiftText

/-- the globals of its module -/
def orRshiftGlobals : List (List Char × GInit) :=
[((".str.0".toList), Blang.GInit.bytes [0x32#8, 0x20#8, 0x7c#8, 0x20#8, 0x34#8, 0x20#8, 0x3e#8, 0x3e#8, 0x20#8, 0x31#8, 0x20#8, 0x2d#8, 0x3e#8, 0x20#8, 0x25#8, 0x64#8, 0x0a#8, 0x00#8])]

set_option maxRecDepth 20000 in
theorem orRshift_globals : globalsAre orRshiftProg orRshiftGlobals = true := by decide +kernel

/-- what the test expects -/
def orRshiftOut : List Char := "2 | 4 >> 1 -> 2\n".toList

set_option maxRecDepth 20000 in
theorem orRshift_run : Interp.run orRshiftProg orRshiftGlobals 40 2000 40 6 = some (codes orRshiftOut) := by decide +kernel

/-- The process of the test `or_rshift` writes what the test expects. -/
theorem orRshift_writes : WritesOnAll orRshiftText orRshiftOut 40 40 :=
  writes_of_run orRshift_checks.1 orRshift_checks.2.1 orRshift_checks.2.2.1 orRshift_checks.2.2.2 orRshift_globals orRshift_run

/-- the test `postfix_operators` -/
def postfixOperatorsText : List Char := "incr(x) {
                printf(\"increment %d*n\", x++);
                return (x);
            }

            add(a, b) {
                printf(\"add %d + %d*n\", a, b);
                return (a + b);
            }

            decr(x) {
                printf(\"decrement %d*n\", x--);
                return (x);
            }

            sub(a, b) {
                printf(\"subtract %d - %d*n\", a, b);
                return (a - b);
            }

            assign_local(x) {
                auto result;
                printf(\"assign local %d*n\", x);
                result = x;
                return (result);
            }

            assign_global(x) {
                extrn g;

                printf(\"assign global %d*n\", x);
                g = x;
            }

            main() {
                extrn g;

                printf(\"%d*n\", incr(42));
                printf(\"%d*n\", add(42, 123));
                printf(\"%d*n\", decr(42));
                printf(\"%d*n\", sub(42, 123));
                printf(\"%d*n\", assign_local(42));
                assign_global(42);
                printf(\"%d*n\", g);
            }

            g;
            ".toList

/-- its syntax tree -/
def postfixOperatorsProg : Program :=
[.func ("incr".toList) [("x".toList)] (.seq (.expr (.callName ("printf".toList) [(.str [105, 110, 99, 114, 101, 109, 101, 110, 116, 32, 37, 100, 10]), (.post .inc (.var ("x".toList)))]))
  (.seq (.ret (some (.var ("x".toList))))
  .skip)),
 .func ("add".toList) [("a".toList), ("b".toList)] (.seq (.expr (.callName ("printf".toList) [(.str [97, 100, 100, 32, 37, 100, 32, 43, 32, 37, 100, 10]), (.var ("a".toList)), (.var ("b".toList))]))
  (.seq (.ret (some (.bin .add (.var ("a".toList)) (.var ("b".toList)))))
  .skip)),
 .func ("decr".toList) [("x".toList)] (.seq (.expr (.callName ("printf".toList) [(.str [100, 101, 99, 114, 101, 109, 101, 110, 116, 32, 37, 100, 10]), (.post .dec (.var ("x".toList)))]))
  (.seq (.ret (some (.var ("x".toList))))
  .skip)),
 .func ("sub".toList) [("a".toList), ("b".toList)] (.seq (.expr (.callName ("printf".toList) [(.str [115, 117, 98, 116, 114, 97, 99, 116, 32, 37, 100, 32, 45, 32, 37, 100, 10]), (.var ("a".toList)), (.var ("b".toList))]))
  (.seq (.ret (some (.bin .sub (.var ("a".toList)) (.var ("b".toList)))))
  .skip)),
 .func ("assign_local".toList) [("x".toList)] (.seq (.auto [(("result".toList), none)])
  (.seq (.expr (.callName ("printf".toList) [(.str [97, 115, 115, 105, 103, 110, 32, 108, 111, 99, 97, 108, 32, 37, 100, 10]), (.var ("x".toList))]))
  (.seq (.expr (.assign none (.var ("result".toList)) (.var ("x".toList))))
  (.seq (.ret (some (.var ("result".toList))))
  .skip)))),
 .func ("assign_global".toList) [("x".toList)] (.seq (.extrn [("g".toList)])
  (.seq (.expr (.callName ("printf".toList) [(.str [97, 115, 115, 105, 103, 110, 32, 103, 108, 111, 98, 97, 108, 32, 37, 100, 10]), (.var ("x".toList))]))
  (.seq (.expr (.assign none (.var ("g".toList)) (.var ("x".toList))))
  .skip))),
 .func ("main".toList) [] (.seq (.extrn [("g".toList)])
  (.seq (.expr (.callName ("printf".toList) [(.str [37, 100, 10]), (.callName ("incr".toList) [(.num 42)])]))
  (.seq (.expr (.callName ("printf".toList) [(.str [37, 100, 10]), (.callName ("add".toList) [(.num 42), (.num 123)])]))
  (.seq (.expr (.callName ("printf".toList) [(.str [37, 100, 10]), (.callName ("decr".toList) [(.num 42)])]))
  (.seq (.expr (.callName ("printf".toList) [(.str [37, 100, 10]), (.callName ("sub".toList) [(.num 42), (.num 123)])]))
  (.seq (.expr (.callName ("printf".toList) [(.str [37, 100, 10]), (.callName ("assign_local".toList) [(.num 42)])]))
  (.seq (.expr (.callName ("assign_global".toList) [(.num 42)]))
  (.seq (.expr (.callName ("printf".toList) [(.str [37, 100, 10]), (.var ("g".toList))]))
  .skip)))))))),
 .global ("g".toList) []]

set_option maxRecDepth 50000 in
theorem postfixOperators_checks : Program.isSame postfixOperatorsProg (refParse prec postfixOperatorsText) = true ∧ postfixOperatorsProg.Tame ∧ postfixOperatorsProg.Clear ∧
    (Program.Scoped Env.empty postfixOperatorsProg ∧ ∀ d ∈ postfixOperatorsProg, d.CasesOk) := by
  decide_text postfixOperatorsText

attribute [irreducible] postfixOperatorsText

/-- the globals of its module -/
def postfixOperatorsGlobals : List (List Char × GInit) :=
[((".str.0".toList), Blang.GInit.bytes [0x69#8, 0x6e#8, 0x63#8, 0x72#8, 0x65#8, 0x6d#8, 0x65#8, 0x6e#8, 0x74#8, 0x20#8, 0x25#8, 0x64#8, 0x0a#8, 0x00#8]),
 ((".str.1".toList), Blang.GInit.bytes [0x61#8, 0x64#8, 0x64#8, 0x20#8, 0x25#8, 0x64#8, 0x20#8, 0x2b#8, 0x20#8, 0x25#8, 0x64#8, 0x0a#8, 0x00#8]),
 ((".str.2".toList), Blang.GInit.bytes [0x64#8, 0x65#8, 0x63#8, 0x72#8, 0x65#8, 0x6d#8, 0x65#8, 0x6e#8, 0x74#8, 0x20#8, 0x25#8, 0x64#8, 0x0a#8, 0x00#8]),
 ((".str.3".toList), Blang.GInit.bytes [0x73#8, 0x75#8, 0x62#8, 0x74#8, 0x72#8, 0x61#8, 0x63#8, 0x74#8, 0x20#8, 0x25#8, 0x64#8, 0x20#8, 0x2d#8, 0x20#8, 0x25#8, 0x64#8, 0x0a#8, 0x00#8]),
 ((".str.4".toList), Blang.GInit.bytes [0x61#8, 0x73#8, 0x73#8, 0x69#8, 0x67#8, 0x6e#8, 0x20#8, 0x6c#8, 0x6f#8, 0x63#8, 0x61#8, 0x6c#8, 0x20#8, 0x25#8, 0x64#8, 0x0a#8, 0x00#8]),
 ((".str.5".toList), Blang.GInit.bytes [0x61#8, 0x73#8, 0x73#8, 0x69#8, 0x67#8, 0x6e#8, 0x20#8, 0x67#8, 0x6c#8, 0x6f#8, 0x62#8, 0x61#8, 0x6c#8, 0x20#8, 0x25#8, 0x64#8, 0x0a#8, 0x00#8]),
 ((".str.6".toList), Blang.GInit.bytes [0x25#8, 0x64#8, 0x0a#8, 0x00#8]),
 ((".str.7".toList), Blang.GInit.bytes [0x25#8, 0x64#8, 0x0a#8, 0x00#8]),
 ((".str.8".toList), Blang.GInit.bytes [0x25#8, 0x64#8, 0x0a#8, 0x00#8]),
 ((".str.9".toList), Blang.GInit.bytes [0x25#8, 0x64#8, 0x0a#8, 0x00#8]),
 ((".str.10".toList), Blang.GInit.bytes [0x25#8, 0x64#8, 0x0a#8, 0x00#8]),
 ((".str.11".toList), Blang.GInit.bytes [0x25#8, 0x64#8, 0x0a#8, 0x00#8]),
 (("b.g".toList), Blang.GInit.word (Blang.Const.int 0x0000000000000000#64))]

set_option maxRecDepth 20000 in
theorem postfixOperators_globals : globalsAre postfixOperatorsProg postfixOperatorsGlobals = true := by decide +kernel

/-- what the test expects -/
def postfixOperatorsOut : List Char := "increment 42\n43\nadd 42 + 123\n165\ndecrement 42\n41\nsubtract 42 - 123\n-81\nassign local 42\n42\nassign global 42\n42\n".toList

set_option maxRecDepth 20000 in
theorem postfixOperators_run : Interp.run postfixOperatorsProg postfixOperatorsGlobals 40 2000 40 6 = some (codes postfixOperatorsOut) := by decide +kernel

/-- The process of the test `postfix_operators` writes what the test expects. -/
theorem postfixOperators_writes : WritesOnAll postfixOperatorsText postfixOperatorsOut 40 40 :=
  writes_of_run postfixOperators_checks.1 postfixOperators_checks.2.1 postfixOperators_checks.2.2.1 postfixOperators_checks.2.2.2 postfixOperators_globals postfixOperators_run

/-- the test `prefix_decrement` -/
def prefixDecrementText : List Char := "main() {
                auto x;
                x = 10;
                printf(\"%d*n\", --x);  /* Should print 9 */
                printf(\"%d*n\", x);    /* Should print 9 */
            }".toList

/-- its syntax tree -/
def prefixDecrementProg : Program :=
[.func ("main".toList) [] (.seq (.auto [(("x".toList), none)])
  (.seq (.expr (.assign none (.var ("x".toList)) (.num 10)))
  (.seq (.expr (.callName ("printf".toList) [(.str [37, 100, 10]), (.pre .dec (.var ("x".toList)))]))
  (.seq (.expr (.callName ("printf".toList) [(.str [37, 100, 10]), (.var ("x".toList))]))
  .skip))))]

set_option maxRecDepth 50000 in
theorem prefixDecrement_checks : Program.isSame prefixDecrementProg (refParse prec prefixDecrementText) = true ∧ prefixDecrementProg.Tame ∧ prefixDecrementProg.Clear ∧
    (Program.Scoped Env.empty prefixDecrementProg ∧ ∀ d ∈ prefixDecrementProg, d.CasesOk) := by
  decide_text prefixDecrementText

attribute [irreducible] prefixDecrementText

/-- the globals of its module -/
def prefixDecrementGlobals : List (List Char × GInit) :=
[((".str.0".toList), Blang.GInit.bytes [0x25#8, 0x64#8, 0x0a#8, 0x00#8]),
 ((".str.1".toList), Blang.GInit.bytes [0x25#8, 0x64#8, 0x0a#8, 0x00#8])]

set_option maxRecDepth 20000 in
theorem prefixDecrement_globals : globalsAre prefixDecrementProg prefixDecrementGlobals = true := by decide +kernel

/-- what the test expects -/
def prefixDecrementOut : List Char := "9\n9\n".toList

set_option maxRecDepth 20000 in
theorem prefixDecrement_run : Interp.run prefixDecrementProg prefixDecrementGlobals 40 2000 40 6 = some (codes prefixDecrementOut) := by decide +kernel

/-- The process of the test `prefix_decrement` writes what the test expects. -/
theorem prefixDecrement_writes : WritesOnAll prefixDecrementText prefixDecrementOut 40 40 :=
  writes_of_run prefixDecrement_checks.1 prefixDecrement_checks.2.1 prefixDecrement_checks.2.2.1 prefixDecrement_checks.2.2.2 prefixDecrement_globals prefixDecrement_run

/-- the tests of this file: the text of a program and what the test expects it to write -/
def testProgramsL : List (List Char × List Char) :=
  [(orRshiftText, orRshiftOut), (postfixOperatorsText, postfixOperatorsOut), (prefixDecrementText, prefixDecrementOut)]

theorem testProgramsL_write : AllWrite testProgramsL :=
  .cons orRshift_writes (.cons postfixOperators_writes (.cons prefixDecrement_writes (.nil)))

end Blang.Props
