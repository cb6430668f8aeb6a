import Verif.Props.TestPrograms
/-
Property C100: test programs of the repository.
-/
namespace Blang.Props
open Blang Blang.Spec

/-- the test `div_mod` -/
def divModText : List Char := "main() {
                printf(\"10 / 2 %% 3 -> %d*n\", 10 / 2 % 3);
            }".toList

/-- its syntax tree -/
def divModProg : Program :=
[.func ("main".toList) [] (.seq (.expr (.callName ("printf".toList) [(.str [49, 48, 32, 47, 32, 50, 32, 37, 37, 32, 51, 32, 45, 62, 32, 37, 100, 10]), (.bin .mod (.bin .div (.num 10) (.num 2)) (.num 3))]))
  .skip)]

set_option maxRecDepth 50000 in
theorem divMod_checks : Program.isSame divModProg (refParse prec divModText) = true ∧ divModProg.Tame ∧ divModProg.Clear ∧
    (Program.Scoped Env.empty divModProg ∧ ∀ d ∈ divModProg, d.CasesOk) := by
  decide_text divModText

attribute [irreducible] divModText

/-- the globals of its module -/
def divModGlobals : List (List Char × GInit) :=
[((".str.0".toList), Blang.GInit.bytes [0x31#8, 0x30#8, 0x20#8, 0x2f#8, 0x20#8, 0x32#8, 0x20#8, 0x25#8, 0x25#8, 0x20#8, 0x33#8, 0x20#8, 0x2d#8, 0x3e#8, 0x20#8, 0x25#8, 0x64#8, 0x0a#8, 0x00#8])]

set_option maxRecDepth 20000 in
theorem divMod_globals : globalsAre divModProg divModGlobals = true := by decide +kernel

/-- what the test expects -/
def divModOut : List Char := "10 / 2 % 3 -> 2\n".toList

set_option maxRecDepth 20000 in
theorem divMod_run : Interp.run divModProg divModGlobals 40 2000 40 6 = some (codes divModOut) := by decide +kernel

/-- The process of the test `div_mod` writes what the test expects. -/
theorem divMod_writes : WritesOnAll divModText divModOut 40 40 :=
  writes_of_run divMod_checks.1 divMod_checks.2.1 divMod_checks.2.2.1 divMod_checks.2.2.2 divMod_globals divMod_run

/-- the test `div_rshift` -/
def divRshiftText : List Char := "main() {
                printf(\"16 / 2 >> 1 -> %d*n\", 16 / 2 >> 1);
            }".toList

/-- its syntax tree -/
def divRshiftProg : Program :=
[.func ("main".toList) [] (.seq (.expr (.callName ("printf".toList) [(.str [49, 54, 32, 47, 32, 50, 32, 62, 62, 32, 49, 32, 45, 62, 32, 37, 100, 10]), (.bin .shr (.bin .div (.num 16) (.num 2)) (.num 1))]))
  .skip)]

set_option maxRecDepth 50000 in
theorem divRshift_checks : Program.isSame divRshiftProg (refParse prec divRshiftText) = true ∧ divRshiftProg.Tame ∧ divRshiftProg.Clear ∧
    (Program.Scoped Env.empty divRshiftProg ∧ ∀ d ∈ divRshiftProg, d.CasesOk) := by
  decide_text divRshiftText

attribute [irreducible] divRshiftText

/-- the globals of its module -/
def divRshiftGlobals : List (List Char × GInit) :=
[((".str.0".toList), Blang.GInit.bytes [0x31#8, 0x36#8, 0x20#8, 0x2f#8, 0x20#8, 0x32#8, 0x20#8, 0x3e#8, 0x3e#8, 0x20#8, 0x31#8, 0x20#8, 0x2d#8, 0x3e#8, 0x20#8, 0x25#8, 0x64#8, 0x0a#8, 0x00#8])]

set_option maxRecDepth 20000 in
theorem divRshift_globals : globalsAre divRshiftProg divRshiftGlobals = true := by decide +kernel

/-- what the test expects -/
def divRshiftOut : List Char := "16 / 2 >> 1 -> 4\n".toList

set_option maxRecDepth 20000 in
theorem divRshift_run : Interp.run divRshiftProg divRshiftGlobals 40 2000 40 6 = some (codes divRshiftOut) := by decide +kernel

/-- The process of the test `div_rshift` writes what the test expects. -/
theorem divRshift_writes : WritesOnAll divRshiftText divRshiftOut 40 40 :=
  writes_of_run divRshift_checks.1 divRshift_checks.2.1 divRshift_checks.2.2.1 divRshift_checks.2.2.2 divRshift_globals divRshift_run

/-- the test `eq_and` -/
def eqAndText : List Char := "main() {
                printf(\"3 == 3 & 1 -> %d*n\", 3 == 3 & 1);
            }".toList

/-- its syntax tree -/
def eqAndProg : Program :=
[.func ("main".toList) [] (.seq (.expr (.callName ("printf".toList) [(.str [51, 32, 61, 61, 32, 51, 32, 38, 32, 49, 32, 45, 62, 32, 37, 100, 10]), (.bin .band (.bin .eq (.num 3) (.num 3)) (.num 1))]))
  .skip)]

set_option maxRecDepth 50000 in
theorem eqAnd_checks : Program.isSame eqAndProg (refParse prec eqAndText) = true ∧ eqAndProg.Tame ∧ eqAndProg.Clear ∧
    (Program.Scoped Env.empty eqAndProg ∧ ∀ d ∈ eqAndProg, d.CasesOk) := by
  decide_text eqAndText

attribute [irreducible] eqAndText

/-- the globals of its module -/
def eqAndGlobals : List (List Char × GInit) :=
[((".str.0".toList), Blang.GInit.bytes [0x33#8, 0x20#8, 0x3d#8, 0x3d#8, 0x20#8, 0x33#8, 0x20#8, 0x26#8, 0x20#8, 0x31#8, 0x20#8, 0x2d#8, 0x3e#8, 0x20#8, 0x25#8, 0x64#8, 0x0a#8, 0x00#8])]

set_option maxRecDepth 20000 in
theorem eqAnd_globals : globalsAre eqAndProg eqAndGlobals = true := by decide +kernel

/-- what the test expects -/
def eqAndOut : List Char := "3 == 3 & 1 -> 1\n".toList

set_option maxRecDepth 20000 in
theorem eqAnd_run : Interp.run eqAndProg eqAndGlobals 40 2000 40 6 = some (codes eqAndOut) := by decide +kernel

/-- The process of the test `eq_and` writes what the test expects. -/
theorem eqAnd_writes : WritesOnAll eqAndText eqAndOut 40 40 :=
  writes_of_run eqAnd_checks.1 eqAnd_checks.2.1 eqAnd_checks.2.2.1 eqAnd_checks.2.2.2 eqAnd_globals eqAnd_run

/-- the test `eq_by_bitmask` -/
def eqByBitmaskText : List Char := "main() {
                auto cval;

                cval = 51;
                if ((cval & 017777) == cval) {
                    printf(\"Small positive: %d*n\", cval);
                } else {
                    printf(\"Wrong: %d*n\", cval);
                }
            }".toList

/-- its syntax tree -/
def eqByBitmaskProg : Program :=
[.func ("main".toList) [] (.seq (.auto [(("cval".toList), none)])
  (.seq (.expr (.assign none (.var ("cval".toList)) (.num 51)))
  (.seq (.ifElse (.bin .eq (.paren (.bin .band (.var ("cval".toList)) (.num 8191))) (.var ("cval".toList))) (.seq (.expr (.callName ("printf".toList) [(.str [83, 109, 97, 108, 108, 32, 112, 111, 115, 105, 116, 105, 118, 101, 58, 32, 37, 100, 10]), (.var ("cval".toList))]))
  .skip) (.seq (.expr (.callName ("printf".toList) [(.str [87, 114, 111, 110, 103, 58, 32, 37, 100, 10]), (.var ("cval".toList))]))
  .skip))
  .skip)))]

set_option maxRecDepth 50000 in
theorem eqByBitmask_checks : Program.isSame eqByBitmaskProg (refParse prec eqByBitmaskText) = true ∧ eqByBitmaskProg.Tame ∧ eqByBitmaskProg.Clear ∧
    (Program.Scoped Env.empty eqByBitmaskProg ∧ ∀ d ∈ eqByBitmaskProg, d.CasesOk) := by
  decide_text eqByBitmaskText

attribute [irreducible] eqByBitmaskText

/-- the globals of its module -/
def eqByBitmaskGlobals : List (List Char × GInit) :=
[((".str.0".toList), Blang.GInit.bytes [0x53#8, 0x6d#8, 0x61#8, 0x6c#8, 0x6c#8, 0x20#8, 0x70#8, 0x6f#8, 0x73#8, 0x69#8, 0x74#8, 0x69#8, 0x76#8, 0x65#8, 0x3a#8, 0x20#8, 0x25#8, 0x64#8, 0x0a#8, 0x00#8]),
 ((".str.1".toList), Blang.GInit.bytes [0x57#8, 0x72#8, 0x6f#8, 0x6e#8, 0x67#8, 0x3a#8, 0x20#8, 0x25#8, 0x64#8, 0x0a#8, 0x00#8])]

set_option maxRecDepth 20000 in
theorem eqByBitmask_globals : globalsAre eqByBitmaskProg eqByBitmaskGlobals = true := by decide +kernel

/-- what the test expects -/
def eqByBitmaskOut : List Char := "Small positive: 51\n".toList

set_option maxRecDepth 20000 in
theorem eqByBitmask_run : Interp.run eqByBitmaskProg eqByBitmaskGlobals 40 2000 40 6 = some (codes eqByBitmaskOut) := by decide +kernel

/-- The process of the test `eq_by_bitmask` writes what the test expects. -/
theorem eqByBitmask_writes : WritesOnAll eqByBitmaskText eqByBitmaskOut 40 40 :=
  writes_of_run eqByBitmask_checks.1 eqByBitmask_checks.2.1 eqByBitmask_checks.2.2.1 eqByBitmask_checks.2.2.2 eqByBitmask_globals eqByBitmask_run

/-- the test `eq_or` -/
def eqOrText : List Char := "main() {
                printf(\"0 == 0 | 1 -> %d*n\", 0 == 0 | 1);
            }".toList

/-- its syntax tree -/
def eqOrProg : Program :=
[.func ("main".toList) [] (.seq (.expr (.callName ("printf".toList) [(.str [48, 32, 61, 61, 32, 48, 32, 124, 32, 49, 32, 45, 62, 32, 37, 100, 10]), (.bin .bor (.bin .eq (.num 0) (.num 0)) (.num 1))]))
  .skip)]

set_option maxRecDepth 50000 in
theorem eqOr_checks : Program.isSame eqOrProg (refParse prec eqOrText) = true ∧ eqOrProg.Tame ∧ eqOrProg.Clear ∧
    (Program.Scoped Env.empty eqOrProg ∧ ∀ d ∈ eqOrProg, d.CasesOk) := by
  decide_text eqOrText

attribute [irreducible] eqOrText

/-- the globals of its module -/
def eqOrGlobals : List (List Char × GInit) :=
[((".str.0".toList), Blang.GInit.bytes [0x30#8, 0x20#8, 0x3d#8, 0x3d#8, 0x20#8, 0x30#8, 0x20#8, 0x7c#8, 0x20#8, 0x31#8, 0x20#8, 0x2d#8, 0x3e#8, 0x20#8, 0x25#8, 0x64#8, 0x0a#8, 0x00#8])]

set_option maxRecDepth 20000 in
theorem eqOr_globals : globalsAre eqOrProg eqOrGlobals = true := by decide +kernel

/-- what the test expects -/
def eqOrOut : List Char := "0 == 0 | 1 -> 1\n".toList

set_option maxRecDepth 20000 in
theorem eqOr_run : Interp.run eqOrProg eqOrGlobals 40 2000 40 6 = some (codes eqOrOut) := by decide +kernel

/-- The process of the test `eq_or` writes what the test expects. -/
theorem eqOr_writes : WritesOnAll eqOrText eqOrOut 40 40 :=
  writes_of_run eqOr_checks.1 eqOr_checks.2.1 eqOr_checks.2.2.1 eqOr_checks.2.2.2 eqOr_globals eqOr_run

/-- the test `function_arguments` -/
def functionArgumentsText : List Char := "func(a, b, c)
            {
                printf(\"a = %d, b = '%c', c = *\"%s*\"*n\", a, b, c);
            }

            main() {
                func(123, 'foo', \"bar\");
            }".toList

/-- its syntax tree -/
def functionArgumentsProg : Program :=
[.func ("func".toList) [("a".toList), ("b".toList), ("c".toList)] (.seq (.expr (.callName ("printf".toList) [(.str [97, 32, 61, 32, 37, 100, 44, 32, 98, 32, 61, 32, 39, 37, 99, 39, 44, 32, 99, 32, 61, 32, 34, 37, 115, 34, 10]), (.var ("a".toList)), (.var ("b".toList)), (.var ("c".toList))]))
  .skip),
 .func ("main".toList) [] (.seq (.expr (.callName ("func".toList) [(.num 123), (.num 6713199), (.str [98, 97, 114])]))
  .skip)]

set_option maxRecDepth 50000 in
theorem functionArguments_checks : Program.isSame functionArgumentsProg (refParse prec functionArgumentsText) = true ∧ functionArgumentsProg.Tame ∧ functionArgumentsProg.Clear ∧
    (Program.Scoped Env.empty functionArgumentsProg ∧ ∀ d ∈ functionArgumentsProg, d.CasesOk) := by
  decide_text functionArgumentsText

attribute [irreducible] functionArgumentsText

/-- the globals of its module -/
def functionArgumentsGlobals : List (List Char × GInit) :=
[((".str.0".toList), Blang.GInit.bytes [0x61#8, 0x20#8, 0x3d#8, 0x20#8, 0x25#8, 0x64#8, 0x2c#8, 0x20#8, 0x62#8, 0x20#8, 0x3d#8, 0x20#8, 0x27#8, 0x25#8, 0x63#8, 0x27#8, 0x2c#8, 0x20#8, 0x63#8, 0x20#8, 0x3d#8, 0x20#8, 0x22#8, 0x25#8, 0x73#8, 0x22#8, 0x0a#8, 0x00#8]),
 ((".str.1".toList), Blang.GInit.bytes [0x62#8, 0x61#8, 0x72#8, 0x00#8])]

set_option maxRecDepth 20000 in
theorem functionArguments_globals : globalsAre functionArgumentsProg functionArgumentsGlobals = true := by decide +kernel

/-- what the test expects -/
def functionArgumentsOut : List Char := "a = 123, b = 'foo', c = \"bar\"\n".toList

set_option maxRecDepth 20000 in
theorem functionArguments_run : Interp.run functionArgumentsProg functionArgumentsGlobals 40 2000 40 6 = some (codes functionArgumentsOut) := by decide +kernel

/-- The process of the test `function_arguments` writes what the test expects. -/
theorem functionArguments_writes : WritesOnAll functionArgumentsText functionArgumentsOut 40 40 :=
  writes_of_run functionArguments_checks.1 functionArguments_checks.2.1 functionArguments_checks.2.2.1 functionArguments_checks.2.2.2 functionArguments_globals functionArguments_run

/-- the tests of this file: the text of a program and what the test expects it to write -/
def testProgramsE : List (List Char × List Char) :=
  [(divModText, divModOut), (divRshiftText, divRshiftOut), (eqAndText, eqAndOut), (eqByBitmaskText, eqByBitmaskOut), (eqOrText, eqOrOut), (functionArgumentsText, functionArgumentsOut)]

theorem testProgramsE_write : AllWrite testProgramsE :=
  .cons divMod_writes (.cons divRshift_writes (.cons eqAnd_writes (.cons eqByBitmask_writes (.cons eqOr_writes (.cons functionArguments_writes (.nil))))))

end Blang.Props
