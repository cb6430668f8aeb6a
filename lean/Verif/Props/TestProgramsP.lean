import Verif.Props.TestPrograms
/-
Property C100: test programs of the repository.
-/
namespace Blang.Props
open Blang Blang.Spec

/-- the test `unary_with_arrays` -/
def unaryWithArraysText : List Char := "main() {
                auto arr[3];
                auto i;
                arr[0] = 10;
                arr[1] = 20;
                i = 0;
                printf(\"%d*n\", ++arr[i]);     /* Increment arr[0]: ++10 = 11 */
                printf(\"%d*n\", arr[0]);       /* Check arr[0]: 11 */
                printf(\"%d*n\", --arr[++i]);   /* Decrement arr[1]: --20 = 19 */
                printf(\"%d*n\", arr[1]);       /* Check arr[1]: 19 */
            }".toList

/-- its syntax tree -/
def unaryWithArraysProg : Program :=
[.func ("main".toList) [] (.seq (.auto [(("arr".toList), some 3)])
  (.seq (.auto [(("i".toList), none)])
  (.seq (.expr (.assign none (.index (.var ("arr".toList)) (.num 0)) (.num 10)))
  (.seq (.expr (.assign none (.index (.var ("arr".toList)) (.num 1)) (.num 20)))
  (.seq (.expr (.assign none (.var ("i".toList)) (.num 0)))
  (.seq (.expr (.callName ("printf".toList) [(.str [37, 100, 10]), (.pre .inc (.index (.var ("arr".toList)) (.var ("i".toList))))]))
  (.seq (.expr (.callName ("printf".toList) [(.str [37, 100, 10]), (.index (.var ("arr".toList)) (.num 0))]))
  (.seq (.expr (.callName ("printf".toList) [(.str [37, 100, 10]), (.pre .dec (.index (.var ("arr".toList)) (.pre .inc (.var ("i".toList)))))]))
  (.seq (.expr (.callName ("printf".toList) [(.str [37, 100, 10]), (.index (.var ("arr".toList)) (.num 1))]))
  .skip)))))))))]

set_option maxRecDepth 50000 in
theorem unaryWithArrays_checks : Program.isSame unaryWithArraysProg (refParse prec unaryWithArraysText) = true ∧ unaryWithArraysProg.Tame ∧ unaryWithArraysProg.Clear ∧
    (Program.Scoped Env.empty unaryWithArraysProg ∧ ∀ d ∈ unaryWithArraysProg, d.CasesOk) := by
  decide_text unaryWithArraysText

attribute [irreducible] unaryWithArraysText

/-- the globals of its module -/
def unaryWithArraysGlobals : List (List Char × GInit) :=
[((".str.0".toList), Blang.GInit.bytes [0x25#8, 0x64#8, 0x0a#8, 0x00#8]),
 ((".str.1".toList), Blang.GInit.bytes [0x25#8, 0x64#8, 0x0a#8, 0x00#8]),
 ((".str.2".toList), Blang.GInit.bytes [0x25#8, 0x64#8, 0x0a#8, 0x00#8]),
 ((".str.3".toList), Blang.GInit.bytes [0x25#8, 0x64#8, 0x0a#8, 0x00#8])]

set_option maxRecDepth 20000 in
theorem unaryWithArrays_globals : globalsAre unaryWithArraysProg unaryWithArraysGlobals = true := by decide +kernel

/-- what the test expects -/
def unaryWithArraysOut : List Char := "11\n11\n19\n19\n".toList

set_option maxRecDepth 20000 in
theorem unaryWithArrays_run : Interp.run unaryWithArraysProg unaryWithArraysGlobals 40 2000 40 6 = some (codes unaryWithArraysOut) := by decide +kernel

/-- The process of the test `unary_with_arrays` writes what the test expects. -/
theorem unaryWithArrays_writes : WritesOnAll unaryWithArraysText unaryWithArraysOut 40 40 :=
  writes_of_run unaryWithArrays_checks.1 unaryWithArrays_checks.2.1 unaryWithArrays_checks.2.2.1 unaryWithArrays_checks.2.2.2 unaryWithArrays_globals unaryWithArrays_run

/-- the test `unary_with_pointers` -/
def unaryWithPointersText : List Char := "main() {
                auto x;
                auto p;
                x = 100;
                p = &x;
                printf(\"%d*n\", *p);       /* Dereference: *(&x) = 100 */
                ++x;                      /* Increment original variable: ++100 = 101 */
                printf(\"%d*n\", *p);       /* Dereferenced value: 101 */
                printf(\"%d*n\", x);        /* Original variable: 101 */
            }".toList

/-- its syntax tree -/
def unaryWithPointersProg : Program :=
[.func ("main".toList) [] (.seq (.auto [(("x".toList), none)])
  (.seq (.auto [(("p".toList), none)])
  (.seq (.expr (.assign none (.var ("x".toList)) (.num 100)))
  (.seq (.expr (.assign none (.var ("p".toList)) (.addr (.var ("x".toList)))))
  (.seq (.expr (.callName ("printf".toList) [(.str [37, 100, 10]), (.deref (.var ("p".toList)))]))
  (.seq (.expr (.pre .inc (.var ("x".toList))))
  (.seq (.expr (.callName ("printf".toList) [(.str [37, 100, 10]), (.deref (.var ("p".toList)))]))
  (.seq (.expr (.callName ("printf".toList) [(.str [37, 100, 10]), (.var ("x".toList))]))
  .skip))))))))]

set_option maxRecDepth 50000 in
theorem unaryWithPointers_checks : Program.isSame unaryWithPointersProg (refParse prec unaryWithPointersText) = true ∧ unaryWithPointersProg.Tame ∧ unaryWithPointersProg.Clear ∧
    (Program.Scoped Env.empty unaryWithPointersProg ∧ ∀ d ∈ unaryWithPointersProg, d.CasesOk) := by
  decide_text unaryWithPointersText

attribute [irreducible] unaryWithPointersText

/-- the globals of its module -/
def unaryWithPointersGlobals : List (List Char × GInit) :=
[((".str.0".toList), Blang.GInit.bytes [0x25#8, 0x64#8, 0x0a#8, 0x00#8]),
 ((".str.1".toList), Blang.GInit.bytes [0x25#8, 0x64#8, 0x0a#8, 0x00#8]),
 ((".str.2".toList), Blang.GInit.bytes [0x25#8, 0x64#8, 0x0a#8, 0x00#8])]

set_option maxRecDepth 20000 in
theorem unaryWithPointers_globals : globalsAre unaryWithPointersProg unaryWithPointersGlobals = true := by decide +kernel

/-- what the test expects -/
def unaryWithPointersOut : List Char := "100\n101\n101\n".toList

set_option maxRecDepth 20000 in
theorem unaryWithPointers_run : Interp.run unaryWithPointersProg unaryWithPointersGlobals 40 2000 40 6 = some (codes unaryWithPointersOut) := by decide +kernel

/-- The process of the test `unary_with_pointers` writes what the test expects. -/
theorem unaryWithPointers_writes : WritesOnAll unaryWithPointersText unaryWithPointersOut 40 40 :=
  writes_of_run unaryWithPointers_checks.1 unaryWithPointers_checks.2.1 unaryWithPointers_checks.2.2.1 unaryWithPointers_checks.2.2.2 unaryWithPointers_globals unaryWithPointers_run

/-- the tests of this file: the text of a program and what the test expects it to write -/
def testProgramsP : List (List Char × List Char) :=
  [(unaryWithArraysText, unaryWithArraysOut), (unaryWithPointersText, unaryWithPointersOut)]

theorem testProgramsP_write : AllWrite testProgramsP :=
  .cons unaryWithArrays_writes (.cons unaryWithPointers_writes (.nil))

end Blang.Props
