import Verif.Props.TestPrograms
/-
Property C100: test programs of the repository.
-/
namespace Blang.Props
open Blang Blang.Spec

/-- the test `runtime_printf` -/
def runtimePrintfText : List Char := "main() {
                printf(\"Hello, World!*n\");
                printf(\"%% %% %%%%*n\");
                printf(\"format %%d: %d %d*n\", 123, -123);
                printf(\"format %%o: %o %o*n\", 234, -234);
                printf(\"format %%c: %c %c*n\", 'foo', 'bar');
                printf(\"format %%s: *\"%s*\" *\"%s*\"*n\", \"Hello\", \"World\");
                printf(\"unknown format: %q*n\", \"foo\");
            }".toList

/-- its syntax tree -/
def runtimePrintfProg : Program :=
[.func ("main".toList) [] (.seq (.expr (.callName ("printf".toList) [(.str [72, 101, 108, 108, 111, 44, 32, 87, 111, 114, 108, 100, 33, 10])]))
  (.seq (.expr (.callName ("printf".toList) [(.str [37, 37, 32, 37, 37, 32, 37, 37, 37, 37, 10])]))
  (.seq (.expr (.callName ("printf".toList) [(.str [102, 111, 114, 109, 97, 116, 32, 37, 37, 100, 58, 32, 37, 100, 32, 37, 100, 10]), (.num 123), (.neg (.num 123))]))
  (.seq (.expr (.callName ("printf".toList) [(.str [102, 111, 114, 109, 97, 116, 32, 37, 37, 111, 58, 32, 37, 111, 32, 37, 111, 10]), (.num 234), (.neg (.num 234))]))
  (.seq (.expr (.callName ("printf".toList) [(.str [102, 111, 114, 109, 97, 116, 32, 37, 37, 99, 58, 32, 37, 99, 32, 37, 99, 10]), (.num 6713199), (.num 6447474)]))
  (.seq (.expr (.callName ("printf".toList) [(.str [102, 111, 114, 109, 97, 116, 32, 37, 37, 115, 58, 32, 34, 37, 115, 34, 32, 34, 37, 115, 34, 10]), (.str [72, 101, 108, 108, 111]), (.str [87, 111, 114, 108, 100])]))
  (.seq (.expr (.callName ("printf".toList) [(.str [117, 110, 107, 110, 111, 119, 110, 32, 102, 111, 114, 109, 97, 116, 58, 32, 37, 113, 10]), (.str [102, 111, 111])]))
  .skip)))))))]

set_option maxRecDepth 50000 in
theorem runtimePrintf_checks : Program.isSame runtimePrintfProg (refParse prec runtimePrintfText) = true ∧ runtimePrintfProg.Tame ∧ runtimePrintfProg.Clear ∧
    (Program.Scoped Env.empty runtimePrintfProg ∧ ∀ d ∈ runtimePrintfProg, d.CasesOk) := by
  decide_text runtimePrintfText

attribute [irreducible] runtimePrintfText

/-- the globals of its module -/
def runtimePrintfGlobals : List (List Char × GInit) :=
[((".str.0".toList), Blang.GInit.bytes [0x48#8, 0x65#8, 0x6c#8, 0x6c#8, 0x6f#8, 0x2c#8, 0x20#8, 0x57#8, 0x6f#8, 0x72#8, 0x6c#8, 0x64#8, 0x21#8, 0x0a#8, 0x00#8]),
 ((".str.1".toList), Blang.GInit.bytes [0x25#8, 0x25#8, 0x20#8, 0x25#8, 0x25#8, 0x20#8, 0x25#8, 0x25#8, 0x25#8, 0x25#8, 0x0a#8, 0x00#8]),
 ((".str.2".toList), Blang.GInit.bytes [0x66#8, 0x6f#8, 0x72#8, 0x6d#8, 0x61#8, 0x74#8, 0x20#8, 0x25#8, 0x25#8, 0x64#8, 0x3a#8, 0x20#8, 0x25#8, 0x64#8, 0x20#8, 0x25#8, 0x64#8, 0x0a#8, 0x00#8]),
 ((".str.3".toList), Blang.GInit.bytes [0x66#8, 0x6f#8, 0x72#8, 0x6d#8, 0x61#8, 0x74#8, 0x20#8, 0x25#8, 0x25#8, 0x6f#8, 0x3a#8, 0x20#8, 0x25#8, 0x6f#8, 0x20#8, 0x25#8, 0x6f#8, 0x0a#8, 0x00#8]),
 ((".str.4".toList), Blang.GInit.bytes [0x66#8, 0x6f#8, 0x72#8, 0x6d#8, 0x61#8, 0x74#8, 0x20#8, 0x25#8, 0x25#8, 0x63#8, 0x3a#8, 0x20#8, 0x25#8, 0x63#8, 0x20#8, 0x25#8, 0x63#8, 0x0a#8, 0x00#8]),
 ((".str.5".toList), Blang.GInit.bytes [0x66#8, 0x6f#8, 0x72#8, 0x6d#8, 0x61#8, 0x74#8, 0x20#8, 0x25#8, 0x25#8, 0x73#8, 0x3a#8, 0x20#8, 0x22#8, 0x25#8, 0x73#8, 0x22#8, 0x20#8, 0x22#8, 0x25#8, 0x73#8, 0x22#8, 0x0a#8, 0x00#8]),
 ((".str.6".toList), Blang.GInit.bytes [0x48#8, 0x65#8, 0x6c#8, 0x6c#8, 0x6f#8, 0x00#8]),
 ((".str.7".toList), Blang.GInit.bytes [0x57#8, 0x6f#8, 0x72#8, 0x6c#8, 0x64#8, 0x00#8]),
 ((".str.8".toList), Blang.GInit.bytes [0x75#8, 0x6e#8, 0x6b#8, 0x6e#8, 0x6f#8, 0x77#8, 0x6e#8, 0x20#8, 0x66#8, 0x6f#8, 0x72#8, 0x6d#8, 0x61#8, 0x74#8, 0x3a#8, 0x20#8, 0x25#8, 0x71#8, 0x0a#8, 0x00#8]),
 ((".str.9".toList), Blang.GInit.bytes [0x66#8, 0x6f#8, 0x6f#8, 0x00#8])]

set_option maxRecDepth 20000 in
theorem runtimePrintf_globals : globalsAre runtimePrintfProg runtimePrintfGlobals = true := by decide +kernel

/-- what the test expects -/
def runtimePrintfOut : List Char := "Hello, World!\n% % %%\nformat %d: 123 -123\nformat %o: 352 -352\nformat %c: foo bar\nformat %s: \"Hello\" \"World\"\nunknown format: %q\n".toList

set_option maxRecDepth 20000 in
theorem runtimePrintf_run : Interp.run runtimePrintfProg runtimePrintfGlobals 40 2000 40 6 = some (codes runtimePrintfOut) := by decide +kernel

/-- The process of the test `runtime_printf` writes what the test expects. -/
theorem runtimePrintf_writes : WritesOnAll runtimePrintfText runtimePrintfOut 40 40 :=
  writes_of_run runtimePrintf_checks.1 runtimePrintf_checks.2.1 runtimePrintf_checks.2.2.1 runtimePrintf_checks.2.2.2 runtimePrintf_globals runtimePrintf_run

/-- the test `runtime_write` -/
def runtimeWriteText : List Char := "main() {
                write('Hello,');
                write(' World');
                write('!*n');
            }".toList

/-- its syntax tree -/
def runtimeWriteProg : Program :=
[.func ("main".toList) [] (.seq (.expr (.callName ("write".toList) [(.num 79600447942444)]))
  (.seq (.expr (.callName ("write".toList) [(.num 35559904013412)]))
  (.seq (.expr (.callName ("write".toList) [(.num 8458)]))
  .skip)))]

set_option maxRecDepth 50000 in
theorem runtimeWrite_checks : Program.isSame runtimeWriteProg (refParse prec runtimeWriteText) = true ∧ runtimeWriteProg.Tame ∧ runtimeWriteProg.Clear ∧
    (Program.Scoped Env.empty runtimeWriteProg ∧ ∀ d ∈ runtimeWriteProg, d.CasesOk) := by
  decide_text runtimeWriteText

attribute [irreducible] runtimeWriteText

/-- the globals of its module -/
def runtimeWriteGlobals : List (List Char × GInit) :=
[]

set_option maxRecDepth 20000 in
theorem runtimeWrite_globals : globalsAre runtimeWriteProg runtimeWriteGlobals = true := by decide +kernel

/-- what the test expects -/
def runtimeWriteOut : List Char := "Hello, World!\n".toList

set_option maxRecDepth 20000 in
theorem runtimeWrite_run : Interp.run runtimeWriteProg runtimeWriteGlobals 40 2000 40 6 = some (codes runtimeWriteOut) := by decide +kernel

/-- The process of the test `runtime_write` writes what the test expects. -/
theorem runtimeWrite_writes : WritesOnAll runtimeWriteText runtimeWriteOut 40 40 :=
  writes_of_run runtimeWrite_checks.1 runtimeWrite_checks.2.1 runtimeWrite_checks.2.2.1 runtimeWrite_checks.2.2.2 runtimeWrite_globals runtimeWrite_run

/-- the test `sub_div` -/
def subDivText : List Char := "main() {
                printf(\"10 - 6 / 2 -> %d*n\", 10 - 6 / 2);
            }".toList

/-- its syntax tree -/
def subDivProg : Program :=
[.func ("main".toList) [] (.seq (.expr (.callName ("printf".toList) [(.str [49, 48, 32, 45, 32, 54, 32, 47, 32, 50, 32, 45, 62, 32, 37, 100, 10]), (.bin .sub (.num 10) (.bin .div (.num 6) (.num 2)))]))
  .skip)]

set_option maxRecDepth 50000 in
theorem subDiv_checks : Program.isSame subDivProg (refParse prec subDivText) = true ∧ subDivProg.Tame ∧ subDivProg.Clear ∧
    (Program.Scoped Env.empty subDivProg ∧ ∀ d ∈ subDivProg, d.CasesOk) := by
  decide_text subDivText

attribute [irreducible] subDivText

/-- the globals of its module -/
def subDivGlobals : List (List Char × GInit) :=
[((".str.0".toList), Blang.GInit.bytes [0x31#8, 0x30#8, 0x20#8, 0x2d#8, 0x20#8, 0x36#8, 0x20#8, 0x2f#8, 0x20#8, 0x32#8, 0x20#8, 0x2d#8, 0x3e#8, 0x20#8, 0x25#8, 0x64#8, 0x0a#8, 0x00#8])]

set_option maxRecDepth 20000 in
theorem subDiv_globals : globalsAre subDivProg subDivGlobals = true := by decide +kernel

/-- what the test expects -/
def subDivOut : List Char := "10 - 6 / 2 -> 7\n".toList

set_option maxRecDepth 20000 in
theorem subDiv_run : Interp.run subDivProg subDivGlobals 40 2000 40 6 = some (codes subDivOut) := by decide +kernel

/-- The process of the test `sub_div` writes what the test expects. -/
theorem subDiv_writes : WritesOnAll subDivText subDivOut 40 40 :=
  writes_of_run subDiv_checks.1 subDiv_checks.2.1 subDiv_checks.2.2.1 subDiv_checks.2.2.2 subDiv_globals subDiv_run

/-- the test `sub_rshift` -/
def subRshiftText : List Char := "main() {
                printf(\"16 - 8 >> 1 -> %d*n\", 16 - 8 >> 1);
            }".toList

/-- its syntax tree -/
def subRshiftProg : Program :=
[.func ("main".toList) [] (.seq (.expr (.callName ("printf".toList) [(.str [49, 54, 32, 45, 32, 56, 32, 62, 62, 32, 49, 32, 45, 62, 32, 37, 100, 10]), (.bin .shr (.bin .sub (.num 16) (.num 8)) (.num 1))]))
  .skip)]

set_option maxRecDepth 50000 in
theorem subRshift_checks : Program.isSame subRshiftProg (refParse prec subRshiftText) = true ∧ subRshiftProg.Tame ∧ subRshiftProg.Clear ∧
    (Program.Scoped Env.empty subRshiftProg ∧ ∀ d ∈ subRshiftProg, d.CasesOk) := by
  decide_text subRshiftText

attribute [irreducible] subRshiftText

/-- the globals of its module -/
def subRshiftGlobals : List (List Char × GInit) :=
[((".str.0".toList), Blang.GInit.bytes [0x31#8, 0x36#8, 0x20#8, 0x2d#8, 0x20#8, 0x38#8, 0x20#8, 0x3e#8, 0x3e#8, 0x20#8, 0x31#8, 0x20#8, 0x2d#8, 0x3e#8, 0x20#8, 0x25#8, 0x64#8, 0x0a#8, 0x00#8])]

set_option maxRecDepth 20000 in
theorem subRshift_globals : globalsAre subRshiftProg subRshiftGlobals = true := by decide +kernel

/-- what the test expects -/
def subRshiftOut : List Char := "16 - 8 >> 1 -> 4\n".toList

set_option maxRecDepth 20000 in
theorem subRshift_run : Interp.run subRshiftProg subRshiftGlobals 40 2000 40 6 = some (codes subRshiftOut) := by decide +kernel

/-- The process of the test `sub_rshift` writes what the test expects. -/
theorem subRshift_writes : WritesOnAll subRshiftText subRshiftOut 40 40 :=
  writes_of_run subRshift_checks.1 subRshift_checks.2.1 subRshift_checks.2.2.1 subRshift_checks.2.2.2 subRshift_globals subRshift_run

/-- the test `ternary_in_expression` -/
def ternaryInExpressionText : List Char := "main() {
                auto x, y, z, result;

                x = 10;
                y = 20;
                z = 30;

                result = x + (y > 15 ? z : 0);
                printf(\"x + (y > 15 ? z : 0) = %d*n\", result);

                result = (x < y ? x : y) * 2;
                printf(\"(x < y ? x : y) ** 2 = %d*n\", result);

                printf(\"nested: %d*n\", (x > 5 ? (y > 15 ? 100 : 50) : 0));
            }".toList

/-- its syntax tree -/
def ternaryInExpressionProg : Program :=
[.func ("main".toList) [] (.seq (.auto [(("x".toList), none), (("y".toList), none), (("z".toList), none), (("result".toList), none)])
  (.seq (.expr (.assign none (.var ("x".toList)) (.num 10)))
  (.seq (.expr (.assign none (.var ("y".toList)) (.num 20)))
  (.seq (.expr (.assign none (.var ("z".toList)) (.num 30)))
  (.seq (.expr (.assign none (.var ("result".toList)) (.bin .add (.var ("x".toList)) (.paren (.cond (.bin .gt (.var ("y".toList)) (.num 15)) (.var ("z".toList)) (.num 0))))))
  (.seq (.expr (.callName ("printf".toList) [(.str [120, 32, 43, 32, 40, 121, 32, 62, 32, 49, 53, 32, 63, 32, 122, 32, 58, 32, 48, 41, 32, 61, 32, 37, 100, 10]), (.var ("result".toList))]))
  (.seq (.expr (.assign none (.var ("result".toList)) (.bin .mul (.paren (.cond (.bin .lt (.var ("x".toList)) (.var ("y".toList))) (.var ("x".toList)) (.var ("y".toList)))) (.num 2))))
  (.seq (.expr (.callName ("printf".toList) [(.str [40, 120, 32, 60, 32, 121, 32, 63, 32, 120, 32, 58, 32, 121, 41, 32, 42, 32, 50, 32, 61, 32, 37, 100, 10]), (.var ("result".toList))]))
  (.seq (.expr (.callName ("printf".toList) [(.str [110, 101, 115, 116, 101, 100, 58, 32, 37, 100, 10]), (.paren (.cond (.bin .gt (.var ("x".toList)) (.num 5)) (.paren (.cond (.bin .gt (.var ("y".toList)) (.num 15)) (.num 100) (.num 50))) (.num 0)))]))
  .skip)))))))))]

set_option maxRecDepth 50000 in
theorem ternaryInExpression_checks : Program.isSame ternaryInExpressionProg (refParse prec ternaryInExpressionText) = true ∧ ternaryInExpressionProg.Tame ∧ ternaryInExpressionProg.Clear ∧
    (Program.Scoped Env.empty ternaryInExpressionProg ∧ ∀ d ∈ ternaryInExpressionProg, d.CasesOk) := by
  decide_text ternaryInExpressionText

attribute [irreducible] ternaryInExpressionText

/-- the globals of its module -/
def ternaryInExpressionGlobals : List (List Char × GInit) :=
[((".str.0".toList), Blang.GInit.bytes [0x78#8, 0x20#8, 0x2b#8, 0x20#8, 0x28#8, 0x79#8, 0x20#8, 0x3e#8, 0x20#8, 0x31#8, 0x35#8, 0x20#8, 0x3f#8, 0x20#8, 0x7a#8, 0x20#8, 0x3a#8, 0x20#8, 0x30#8, 0x29#8, 0x20#8, 0x3d#8, 0x20#8, 0x25#8, 0x64#8, 0x0a#8, 0x00#8]),
 ((".str.1".toList), Blang.GInit.bytes [0x28#8, 0x78#8, 0x20#8, 0x3c#8, 0x20#8, 0x79#8, 0x20#8, 0x3f#8, 0x20#8, 0x78#8, 0x20#8, 0x3a#8, 0x20#8, 0x79#8, 0x29#8, 0x20#8, 0x2a#8, 0x20#8, 0x32#8, 0x20#8, 0x3d#8, 0x20#8, 0x25#8, 0x64#8, 0x0a#8, 0x00#8]),
 ((".str.2".toList), Blang.GInit.bytes [0x6e#8, 0x65#8, 0x73#8, 0x74#8, 0x65#8, 0x64#8, 0x3a#8, 0x20#8, 0x25#8, 0x64#8, 0x0a#8, 0x00#8])]

set_option maxRecDepth 20000 in
theorem ternaryInExpression_globals : globalsAre ternaryInExpressionProg ternaryInExpressionGlobals = true := by decide +kernel

/-- what the test expects -/
def ternaryInExpressionOut : List Char := "x + (y > 15 ? z : 0) = 40\n(x < y ? x : y) * 2 = 20\nnested: 100\n".toList

set_option maxRecDepth 20000 in
theorem ternaryInExpression_run : Interp.run ternaryInExpressionProg ternaryInExpressionGlobals 40 2000 40 6 = some (codes ternaryInExpressionOut) := by decide +kernel

/-- The process of the test `ternary_in_expression` writes what the test expects. -/
theorem ternaryInExpression_writes : WritesOnAll ternaryInExpressionText ternaryInExpressionOut 40 40 :=
  writes_of_run ternaryInExpression_checks.1 ternaryInExpression_checks.2.1 ternaryInExpression_checks.2.2.1 ternaryInExpression_checks.2.2.2 ternaryInExpression_globals ternaryInExpression_run

/-- the test `three_args` -/
def threeArgsText : List Char := "
main() {
\tabc(12, 34, 56);
}
abc(a, b, c) {
\tprintf(\"%d %d %d*n\", a, b, c);
}
".toList

/-- its syntax tree -/
def threeArgsProg : Program :=
[.func ("main".toList) [] (.seq (.expr (.callName ("abc".toList) [(.num 12), (.num 34), (.num 56)]))
  .skip),
 .func ("abc".toList) [("a".toList), ("b".toList), ("c".toList)] (.seq (.expr (.callName ("printf".toList) [(.str [37, 100, 32, 37, 100, 32, 37, 100, 10]), (.var ("a".toList)), (.var ("b".toList)), (.var ("c".toList))]))
  .skip)]

set_option maxRecDepth 50000 in
theorem threeArgs_checks : Program.isSame threeArgsProg (refParse prec threeArgsText) = true ∧ threeArgsProg.Tame ∧ threeArgsProg.Clear ∧
    (Program.Scoped Env.empty threeArgsProg ∧ ∀ d ∈ threeArgsProg, d.CasesOk) := by
  decide_text threeArgsText

attribute [irreducible] threeArgsText

/-- the globals of its module -/
def threeArgsGlobals : List (List Char × GInit) :=
[((".str.0".toList), Blang.GInit.bytes [0x25#8, 0x64#8, 0x20#8, 0x25#8, 0x64#8, 0x20#8, 0x25#8, 0x64#8, 0x0a#8, 0x00#8])]

set_option maxRecDepth 20000 in
theorem threeArgs_globals : globalsAre threeArgsProg threeArgsGlobals = true := by decide +kernel

/-- what the test expects -/
def threeArgsOut : List Char := "12 34 56\n".toList

set_option maxRecDepth 20000 in
theorem threeArgs_run : Interp.run threeArgsProg threeArgsGlobals 40 2000 40 6 = some (codes threeArgsOut) := by decide +kernel

/-- The process of the test `three_args` writes what the test expects. -/
theorem threeArgs_writes : WritesOnAll threeArgsText threeArgsOut 40 40 :=
  writes_of_run threeArgs_checks.1 threeArgs_checks.2.1 threeArgs_checks.2.2.1 threeArgs_checks.2.2.2 threeArgs_globals threeArgs_run

/-- the tests of this file: the text of a program and what the test expects it to write -/
def testProgramsN : List (List Char × List Char) :=
  [(runtimePrintfText, runtimePrintfOut), (runtimeWriteText, runtimeWriteOut), (subDivText, subDivOut), (subRshiftText, subRshiftOut), (ternaryInExpressionText, ternaryInExpressionOut), (threeArgsText, threeArgsOut)]

theorem testProgramsN_write : AllWrite testProgramsN :=
  .cons runtimePrintf_writes (.cons runtimeWrite_writes (.cons subDiv_writes (.cons subRshift_writes (.cons ternaryInExpression_writes (.cons threeArgs_writes (.nil))))))

end Blang.Props
