import Verif.Props.TestPrograms
/-
Property C100: test programs of the repository.
-/
namespace Blang.Props
open Blang Blang.Spec

/-- the test `binary_operators` -/
def binaryOperatorsText : List Char := "x 42;

            main() {
                extrn x;
                auto y;

                y = 345;
                printf(\"%d + %d -> %d*n\", x, y, x + y);
                printf(\"%d + %d -> %d*n\", y, x, y + x);

                printf(\"%d - %d -> %d*n\", x, y, x - y);
                printf(\"%d - %d -> %d*n\", y, x, y - x);

                printf(\"%d ** %d -> %d*n\", x, y, x * y);
                printf(\"%d ** %d -> %d*n\", y, x, y * x);

                printf(\"%d / %d -> %d*n\", x, y, x / y);
                printf(\"%d / %d -> %d*n\", y, x, y / x);

                printf(\"%d %% %d -> %d*n\", x, y, x % y);
                printf(\"%d %% %d -> %d*n\", y, x, y % x);

                printf(\"%d < %d -> %d*n\", x, y, x < y);
                printf(\"%d < %d -> %d*n\", y, x, y < x);

                printf(\"%d <= %d -> %d*n\", x, y, x <= y);
                printf(\"%d <= %d -> %d*n\", y, x, y <= x);

                printf(\"%d > %d -> %d*n\", x, y, x > y);
                printf(\"%d > %d -> %d*n\", y, x, y > x);

                printf(\"%d >= %d -> %d*n\", x, y, x >= y);
                printf(\"%d >= %d -> %d*n\", y, x, y >= x);

                printf(\"%d == %d -> %d*n\", x, y, x == y);
                printf(\"%d == %d -> %d*n\", y, x, y == x);

                printf(\"%d != %d -> %d*n\", x, y, x != y);
                printf(\"%d != %d -> %d*n\", y, x, y != x);

                printf(\"%d & %d -> %d*n\", x, y, x & y);
                printf(\"%d & %d -> %d*n\", y, x, y & x);

                printf(\"%d | %d -> %d*n\", x, y, x | y);
                printf(\"%d | %d -> %d*n\", y, x, y | x);
            }".toList

/-- its syntax tree -/
def binaryOperatorsProg : Program :=
[.global ("x".toList) [.int 42],
 .func ("main".toList) [] (.seq (.extrn [("x".toList)])
  (.seq (.auto [(("y".toList), none)])
  (.seq (.expr (.assign none (.var ("y".toList)) (.num 345)))
  (.seq (.expr (.callName ("printf".toList) [(.str [37, 100, 32, 43, 32, 37, 100, 32, 45, 62, 32, 37, 100, 10]), (.var ("x".toList)), (.var ("y".toList)), (.bin .add (.var ("x".toList)) (.var ("y".toList)))]))
  (.seq (.expr (.callName ("printf".toList) [(.str [37, 100, 32, 43, 32, 37, 100, 32, 45, 62, 32, 37, 100, 10]), (.var ("y".toList)), (.var ("x".toList)), (.bin .add (.var ("y".toList)) (.var ("x".toList)))]))
  (.seq (.expr (.callName ("printf".toList) [(.str [37, 100, 32, 45, 32, 37, 100, 32, 45, 62, 32, 37, 100, 10]), (.var ("x".toList)), (.var ("y".toList)), (.bin .sub (.var ("x".toList)) (.var ("y".toList)))]))
  (.seq (.expr (.callName ("printf".toList) [(.str [37, 100, 32, 45, 32, 37, 100, 32, 45, 62, 32, 37, 100, 10]), (.var ("y".toList)), (.var ("x".toList)), (.bin .sub (.var ("y".toList)) (.var ("x".toList)))]))
  (.seq (.expr (.callName ("printf".toList) [(.str [37, 100, 32, 42, 32, 37, 100, 32, 45, 62, 32, 37, 100, 10]), (.var ("x".toList)), (.var ("y".toList)), (.bin .mul (.var ("x".toList)) (.var ("y".toList)))]))
  (.seq (.expr (.callName ("printf".toList) [(.str [37, 100, 32, 42, 32, 37, 100, 32, 45, 62, 32, 37, 100, 10]), (.var ("y".toList)), (.var ("x".toList)), (.bin .mul (.var ("y".toList)) (.var ("x".toList)))]))
  (.seq (.expr (.callName ("printf".toList) [(.str [37, 100, 32, 47, 32, 37, 100, 32, 45, 62, 32, 37, 100, 10]), (.var ("x".toList)), (.var ("y".toList)), (.bin .div (.var ("x".toList)) (.var ("y".toList)))]))
  (.seq (.expr (.callName ("printf".toList) [(.str [37, 100, 32, 47, 32, 37, 100, 32, 45, 62, 32, 37, 100, 10]), (.var ("y".toList)), (.var ("x".toList)), (.bin .div (.var ("y".toList)) (.var ("x".toList)))]))
  (.seq (.expr (.callName ("printf".toList) [(.str [37, 100, 32, 37, 37, 32, 37, 100, 32, 45, 62, 32, 37, 100, 10]), (.var ("x".toList)), (.var ("y".toList)), (.bin .mod (.var ("x".toList)) (.var ("y".toList)))]))
  (.seq (.expr (.callName ("printf".toList) [(.str [37, 100, 32, 37, 37, 32, 37, 100, 32, 45, 62, 32, 37, 100, 10]), (.var ("y".toList)), (.var ("x".toList)), (.bin .mod (.var ("y".toList)) (.var ("x".toList)))]))
  (.seq (.expr (.callName ("printf".toList) [(.str [37, 100, 32, 60, 32, 37, 100, 32, 45, 62, 32, 37, 100, 10]), (.var ("x".toList)), (.var ("y".toList)), (.bin .lt (.var ("x".toList)) (.var ("y".toList)))]))
  (.seq (.expr (.callName ("printf".toList) [(.str [37, 100, 32, 60, 32, 37, 100, 32, 45, 62, 32, 37, 100, 10]), (.var ("y".toList)), (.var ("x".toList)), (.bin .lt (.var ("y".toList)) (.var ("x".toList)))]))
  (.seq (.expr (.callName ("printf".toList) [(.str [37, 100, 32, 60, 61, 32, 37, 100, 32, 45, 62, 32, 37, 100, 10]), (.var ("x".toList)), (.var ("y".toList)), (.bin .le (.var ("x".toList)) (.var ("y".toList)))]))
  (.seq (.expr (.callName ("printf".toList) [(.str [37, 100, 32, 60, 61, 32, 37, 100, 32, 45, 62, 32, 37, 100, 10]), (.var ("y".toList)), (.var ("x".toList)), (.bin .le (.var ("y".toList)) (.var ("x".toList)))]))
  (.seq (.expr (.callName ("printf".toList) [(.str [37, 100, 32, 62, 32, 37, 100, 32, 45, 62, 32, 37, 100, 10]), (.var ("x".toList)), (.var ("y".toList)), (.bin .gt (.var ("x".toList)) (.var ("y".toList)))]))
  (.seq (.expr (.callName ("printf".toList) [(.str [37, 100, 32, 62, 32, 37, 100, 32, 45, 62, 32, 37, 100, 10]), (.var ("y".toList)), (.var ("x".toList)), (.bin .gt (.var ("y".toList)) (.var ("x".toList)))]))
  (.seq (.expr (.callName ("printf".toList) [(.str [37, 100, 32, 62, 61, 32, 37, 100, 32, 45, 62, 32, 37, 100, 10]), (.var ("x".toList)), (.var ("y".toList)), (.bin .ge (.var ("x".toList)) (.var ("y".toList)))]))
  (.seq (.expr (.callName ("printf".toList) [(.str [37, 100, 32, 62, 61, 32, 37, 100, 32, 45, 62, 32, 37, 100, 10]), (.var ("y".toList)), (.var ("x".toList)), (.bin .ge (.var ("y".toList)) (.var ("x".toList)))]))
  (.seq (.expr (.callName ("printf".toList) [(.str [37, 100, 32, 61, 61, 32, 37, 100, 32, 45, 62, 32, 37, 100, 10]), (.var ("x".toList)), (.var ("y".toList)), (.bin .eq (.var ("x".toList)) (.var ("y".toList)))]))
  (.seq (.expr (.callName ("printf".toList) [(.str [37, 100, 32, 61, 61, 32, 37, 100, 32, 45, 62, 32, 37, 100, 10]), (.var ("y".toList)), (.var ("x".toList)), (.bin .eq (.var ("y".toList)) (.var ("x".toList)))]))
  (.seq (.expr (.callName ("printf".toList) [(.str [37, 100, 32, 33, 61, 32, 37, 100, 32, 45, 62, 32, 37, 100, 10]), (.var ("x".toList)), (.var ("y".toList)), (.bin .ne (.var ("x".toList)) (.var ("y".toList)))]))
  (.seq (.expr (.callName ("printf".toList) [(.str [37, 100, 32, 33, 61, 32, 37, 100, 32, 45, 62, 32, 37, 100, 10]), (.var ("y".toList)), (.var ("x".toList)), (.bin .ne (.var ("y".toList)) (.var ("x".toList)))]))
  (.seq (.expr (.callName ("printf".toList) [(.str [37, 100, 32, 38, 32, 37, 100, 32, 45, 62, 32, 37, 100, 10]), (.var ("x".toList)), (.var ("y".toList)), (.bin .band (.var ("x".toList)) (.var ("y".toList)))]))
  (.seq (.expr (.callName ("printf".toList) [(.str [37, 100, 32, 38, 32, 37, 100, 32, 45, 62, 32, 37, 100, 10]), (.var ("y".toList)), (.var ("x".toList)), (.bin .band (.var ("y".toList)) (.var ("x".toList)))]))
  (.seq (.expr (.callName ("printf".toList) [(.str [37, 100, 32, 124, 32, 37, 100, 32, 45, 62, 32, 37, 100, 10]), (.var ("x".toList)), (.var ("y".toList)), (.bin .bor (.var ("x".toList)) (.var ("y".toList)))]))
  (.seq (.expr (.callName ("printf".toList) [(.str [37, 100, 32, 124, 32, 37, 100, 32, 45, 62, 32, 37, 100, 10]), (.var ("y".toList)), (.var ("x".toList)), (.bin .bor (.var ("y".toList)) (.var ("x".toList)))]))
  .skip)))))))))))))))))))))))))))))]

set_option maxRecDepth 50000 in
theorem binaryOperators_checks : Program.isSame binaryOperatorsProg (refParse prec binaryOperatorsText) = true ∧ binaryOperatorsProg.Tame ∧ binaryOperatorsProg.Clear ∧
    (Program.Scoped Env.empty binaryOperatorsProg ∧ ∀ d ∈ binaryOperatorsProg, d.CasesOk) := by
  decide_text binaryOperatorsText

attribute [irreducible] binaryOperatorsText

/-- the globals of its module -/
def binaryOperatorsGlobals : List (List Char × GInit) :=
[(("b.x".toList), Blang.GInit.word (Blang.Const.int 0x000000000000002a#64)),
 ((".str.0".toList), Blang.GInit.bytes [0x25#8, 0x64#8, 0x20#8, 0x2b#8, 0x20#8, 0x25#8, 0x64#8, 0x20#8, 0x2d#8, 0x3e#8, 0x20#8, 0x25#8, 0x64#8, 0x0a#8, 0x00#8]),
 ((".str.1".toList), Blang.GInit.bytes [0x25#8, 0x64#8, 0x20#8, 0x2b#8, 0x20#8, 0x25#8, 0x64#8, 0x20#8, 0x2d#8, 0x3e#8, 0x20#8, 0x25#8, 0x64#8, 0x0a#8, 0x00#8]),
 ((".str.2".toList), Blang.GInit.bytes [0x25#8, 0x64#8, 0x20#8, 0x2d#8, 0x20#8, 0x25#8, 0x64#8, 0x20#8, 0x2d#8, 0x3e#8, 0x20#8, 0x25#8, 0x64#8, 0x0a#8, 0x00#8]),
 ((".str.3".toList), Blang.GInit.bytes [0x25#8, 0x64#8, 0x20#8, 0x2d#8, 0x20#8, 0x25#8, 0x64#8, 0x20#8, 0x2d#8, 0x3e#8, 0x20#8, 0x25#8, 0x64#8, 0x0a#8, 0x00#8]),
 ((".str.4".toList), Blang.GInit.bytes [0x25#8, 0x64#8, 0x20#8, 0x2a#8, 0x20#8, 0x25#8, 0x64#8, 0x20#8, 0x2d#8, 0x3e#8, 0x20#8, 0x25#8, 0x64#8, 0x0a#8, 0x00#8]),
 ((".str.5".toList), Blang.GInit.bytes [0x25#8, 0x64#8, 0x20#8, 0x2a#8, 0x20#8, 0x25#8, 0x64#8, 0x20#8, 0x2d#8, 0x3e#8, 0x20#8, 0x25#8, 0x64#8, 0x0a#8, 0x00#8]),
 ((".str.6".toList), Blang.GInit.bytes [0x25#8, 0x64#8, 0x20#8, 0x2f#8, 0x20#8, 0x25#8, 0x64#8, 0x20#8, 0x2d#8, 0x3e#8, 0x20#8, 0x25#8, 0x64#8, 0x0a#8, 0x00#8]),
 ((".str.7".toList), Blang.GInit.bytes [0x25#8, 0x64#8, 0x20#8, 0x2f#8, 0x20#8, 0x25#8, 0x64#8, 0x20#8, 0x2d#8, 0x3e#8, 0x20#8, 0x25#8, 0x64#8, 0x0a#8, 0x00#8]),
 ((".str.8".toList), Blang.GInit.bytes [0x25#8, 0x64#8, 0x20#8, 0x25#8, 0x25#8, 0x20#8, 0x25#8, 0x64#8, 0x20#8, 0x2d#8, 0x3e#8, 0x20#8, 0x25#8, 0x64#8, 0x0a#8, 0x00#8]),
 ((".str.9".toList), Blang.GInit.bytes [0x25#8, 0x64#8, 0x20#8, 0x25#8, 0x25#8, 0x20#8, 0x25#8, 0x64#8, 0x20#8, 0x2d#8, 0x3e#8, 0x20#8, 0x25#8, 0x64#8, 0x0a#8, 0x00#8]),
 ((".str.10".toList), Blang.GInit.bytes [0x25#8, 0x64#8, 0x20#8, 0x3c#8, 0x20#8, 0x25#8, 0x64#8, 0x20#8, 0x2d#8, 0x3e#8, 0x20#8, 0x25#8, 0x64#8, 0x0a#8, 0x00#8]),
 ((".str.11".toList), Blang.GInit.bytes [0x25#8, 0x64#8, 0x20#8, 0x3c#8, 0x20#8, 0x25#8, 0x64#8, 0x20#8, 0x2d#8, 0x3e#8, 0x20#8, 0x25#8, 0x64#8, 0x0a#8, 0x00#8]),
 ((".str.12".toList), Blang.GInit.bytes [0x25#8, 0x64#8, 0x20#8, 0x3c#8, 0x3d#8, 0x20#8, 0x25#8, 0x64#8, 0x20#8, 0x2d#8, 0x3e#8, 0x20#8, 0x25#8, 0x64#8, 0x0a#8, 0x00#8]),
 ((".str.13".toList), Blang.GInit.bytes [0x25#8, 0x64#8, 0x20#8, 0x3c#8, 0x3d#8, 0x20#8, 0x25#8, 0x64#8, 0x20#8, 0x2d#8, 0x3e#8, 0x20#8, 0x25#8, 0x64#8, 0x0a#8, 0x00#8]),
 ((".str.14".toList), Blang.GInit.bytes [0x25#8, 0x64#8, 0x20#8, 0x3e#8, 0x20#8, 0x25#8, 0x64#8, 0x20#8, 0x2d#8, 0x3e#8, 0x20#8, 0x25#8, 0x64#8, 0x0a#8, 0x00#8]),
 ((".str.15".toList), Blang.GInit.bytes [0x25#8, 0x64#8, 0x20#8, 0x3e#8, 0x20#8, 0x25#8, 0x64#8, 0x20#8, 0x2d#8, 0x3e#8, 0x20#8, 0x25#8, 0x64#8, 0x0a#8, 0x00#8]),
 ((".str.16".toList), Blang.GInit.bytes [0x25#8, 0x64#8, 0x20#8, 0x3e#8, 0x3d#8, 0x20#8, 0x25#8, 0x64#8, 0x20#8, 0x2d#8, 0x3e#8, 0x20#8, 0x25#8, 0x64#8, 0x0a#8, 0x00#8]),
 ((".str.17".toList), Blang.GInit.bytes [0x25#8, 0x64#8, 0x20#8, 0x3e#8, 0x3d#8, 0x20#8, 0x25#8, 0x64#8, 0x20#8, 0x2d#8, 0x3e#8, 0x20#8, 0x25#8, 0x64#8, 0x0a#8, 0x00#8]),
 ((".str.18".toList), Blang.GInit.bytes [0x25#8, 0x64#8, 0x20#8, 0x3d#8, 0x3d#8, 0x20#8, 0x25#8, 0x64#8, 0x20#8, 0x2d#8, 0x3e#8, 0x20#8, 0x25#8, 0x64#8, 0x0a#8, 0x00#8]),
 ((".str.19".toList), Blang.GInit.bytes [0x25#8, 0x64#8, 0x20#8, 0x3d#8, 0x3d#8, 0x20#8, 0x25#8, 0x64#8, 0x20#8, 0x2d#8, 0x3e#8, 0x20#8, 0x25#8, 0x64#8, 0x0a#8, 0x00#8]),
 ((".str.20".toList), Blang.GInit.bytes [0x25#8, 0x64#8, 0x20#8, 0x21#8, 0x3d#8, 0x20#8, 0x25#8, 0x64#8, 0x20#8, 0x2d#8, 0x3e#8, 0x20#8, 0x25#8, 0x64#8, 0x0a#8, 0x00#8]),
 ((".str.21".toList), Blang.GInit.bytes [0x25#8, 0x64#8, 0x20#8, 0x21#8, 0x3d#8, 0x20#8, 0x25#8, 0x64#8, 0x20#8, 0x2d#8, 0x3e#8, 0x20#8, 0x25#8, 0x64#8, 0x0a#8, 0x00#8]),
 ((".str.22".toList), Blang.GInit.bytes [0x25#8, 0x64#8, 0x20#8, 0x26#8, 0x20#8, 0x25#8, 0x64#8, 0x20#8, 0x2d#8, 0x3e#8, 0x20#8, 0x25#8, 0x64#8, 0x0a#8, 0x00#8]),
 ((".str.23".toList), Blang.GInit.bytes [0x25#8, 0x64#8, 0x20#8, 0x26#8, 0x20#8, 0x25#8, 0x64#8, 0x20#8, 0x2d#8, 0x3e#8, 0x20#8, 0x25#8, 0x64#8, 0x0a#8, 0x00#8]),
 ((".str.24".toList), Blang.GInit.bytes [0x25#8, 0x64#8, 0x20#8, 0x7c#8, 0x20#8, 0x25#8, 0x64#8, 0x20#8, 0x2d#8, 0x3e#8, 0x20#8, 0x25#8, 0x64#8, 0x0a#8, 0x00#8]),
 ((".str.25".toList), Blang.GInit.bytes [0x25#8, 0x64#8, 0x20#8, 0x7c#8, 0x20#8, 0x25#8, 0x64#8, 0x20#8, 0x2d#8, 0x3e#8, 0x20#8, 0x25#8, 0x64#8, 0x0a#8, 0x00#8])]

set_option maxRecDepth 20000 in
theorem binaryOperators_globals : globalsAre binaryOperatorsProg binaryOperatorsGlobals = true := by decide +kernel

/-- what the test expects -/
def binaryOperatorsOut : List Char := "42 + 345 -> 387\n345 + 42 -> 387\n42 - 345 -> -303\n345 - 42 -> 303\n42 * 345 -> 14490\n345 * 42 -> 14490\n42 / 345 -> 0\n345 / 42 -> 8\n42 % 345 -> 42\n345 % 42 -> 9\n42 < 345 -> 1\n345 < 42 -> 0\n42 <= 345 -> 1\n345 <= 42 -> 0\n42 > 345 -> 0\n345 > 42 -> 1\n42 >= 345 -> 0\n345 >= 42 -> 1\n42 == 345 -> 0\n345 == 42 -> 0\n42 != 345 -> 1\n345 != 42 -> 1\n42 & 345 -> 8\n345 & 42 -> 8\n42 | 345 -> 379\n345 | 42 -> 379\n".toList

set_option maxRecDepth 20000 in
theorem binaryOperators_run : Interp.run binaryOperatorsProg binaryOperatorsGlobals 40 2000 40 6 = some (codes binaryOperatorsOut) := by decide +kernel

/-- The process of the test `binary_operators` writes what the test expects. -/
theorem binaryOperators_writes : WritesOnAll binaryOperatorsText binaryOperatorsOut 40 40 :=
  writes_of_run binaryOperators_checks.1 binaryOperators_checks.2.1 binaryOperators_checks.2.2.1 binaryOperators_checks.2.2.2 binaryOperators_globals binaryOperators_run

/-- the test `div_add_gt_or` -/
def divAddGtOrText : List Char := "main() {
                printf(\"6 / 2 + 1 > 3 | 2 -> %d*n\", 6 / 2 + 1 > 3 | 2);
            }".toList

/-- its syntax tree -/
def divAddGtOrProg : Program :=
[.func ("main".toList) [] (.seq (.expr (.callName ("printf".toList) [(.str [54, 32, 47, 32, 50, 32, 43, 32, 49, 32, 62, 32, 51, 32, 124, 32, 50, 32, 45, 62, 32, 37, 100, 10]), (.bin .bor (.bin .gt (.bin .add (.bin .div (.num 6) (.num 2)) (.num 1)) (.num 3)) (.num 2))]))
  .skip)]

set_option maxRecDepth 50000 in
theorem divAddGtOr_checks : Program.isSame divAddGtOrProg (refParse prec divAddGtOrText) = true ∧ divAddGtOrProg.Tame ∧ divAddGtOrProg.Clear ∧
    (Program.Scoped Env.empty divAddGtOrProg ∧ ∀ d ∈ divAddGtOrProg, d.CasesOk) := by
  decide_text divAddGtOrText

attribute [irreducible] divAddGtOrText

/-- the globals of its module -/
def divAddGtOrGlobals : List (List Char × GInit) :=
[((".str.0".toList), Blang.GInit.bytes [0x36#8, 0x20#8, 0x2f#8, 0x20#8, 0x32#8, 0x20#8, 0x2b#8, 0x20#8, 0x31#8, 0x20#8, 0x3e#8, 0x20#8, 0x33#8, 0x20#8, 0x7c#8, 0x20#8, 0x32#8, 0x20#8, 0x2d#8, 0x3e#8, 0x20#8, 0x25#8, 0x64#8, 0x0a#8, 0x00#8])]

set_option maxRecDepth 20000 in
theorem divAddGtOr_globals : globalsAre divAddGtOrProg divAddGtOrGlobals = true := by decide +kernel

/-- what the test expects -/
def divAddGtOrOut : List Char := "6 / 2 + 1 > 3 | 2 -> 3\n".toList

set_option maxRecDepth 20000 in
theorem divAddGtOr_run : Interp.run divAddGtOrProg divAddGtOrGlobals 40 2000 40 6 = some (codes divAddGtOrOut) := by decide +kernel

/-- The process of the test `div_add_gt_or` writes what the test expects. -/
theorem divAddGtOr_writes : WritesOnAll divAddGtOrText divAddGtOrOut 40 40 :=
  writes_of_run divAddGtOr_checks.1 divAddGtOr_checks.2.1 divAddGtOr_checks.2.2.1 divAddGtOr_checks.2.2.2 divAddGtOr_globals divAddGtOr_run

/-- the tests of this file: the text of a program and what the test expects it to write -/
def testProgramsD : List (List Char × List Char) :=
  [(binaryOperatorsText, binaryOperatorsOut), (divAddGtOrText, divAddGtOrOut)]

theorem testProgramsD_write : AllWrite testProgramsD :=
  .cons binaryOperators_writes (.cons divAddGtOr_writes (.nil))

end Blang.Props
