import Verif.Props.TestPrograms
/-
Property C100: test programs of the repository.
-/
namespace Blang.Props
open Blang Blang.Spec

/-- the test `global_scalars` -/
def globalScalarsText : List Char := "a;
            b 123;
            c -345, 'foo', \"bar\";

            main() {
                extrn a, b, c;

                printf(\"a = %d*n\", a);
                printf(\"b = %d*n\", b);
                a = &c;
                printf(\"c = %d, '%c', *\"%s*\"*n\", c, a[1], a[2]);
            }".toList

/-- its syntax tree -/
def globalScalarsProg : Program :=
[.global ("a".toList) [],
 .global ("b".toList) [.int 123],
 .global ("c".toList) [.int 18446744073709551271, .int 6713199, .str [98, 97, 114]],
 .func ("main".toList) [] (.seq (.extrn [("a".toList), ("b".toList), ("c".toList)])
  (.seq (.expr (.callName ("printf".toList) [(.str [97, 32, 61, 32, 37, 100, 10]), (.var ("a".toList))]))
  (.seq (.expr (.callName ("printf".toList) [(.str [98, 32, 61, 32, 37, 100, 10]), (.var ("b".toList))]))
  (.seq (.expr (.assign none (.var ("a".toList)) (.addr (.var ("c".toList)))))
  (.seq (.expr (.callName ("printf".toList) [(.str [99, 32, 61, 32, 37, 100, 44, 32, 39, 37, 99, 39, 44, 32, 34, 37, 115, 34, 10]), (.var ("c".toList)), (.index (.var ("a".toList)) (.num 1)), (.index (.var ("a".toList)) (.num 2))]))
  .skip)))))]

set_option maxRecDepth 50000 in
theorem globalScalars_checks : Program.isSame globalScalarsProg (refParse prec globalScalarsText) = true ∧ globalScalarsProg.Tame ∧ globalScalarsProg.Clear ∧
    (Program.Scoped Env.empty globalScalarsProg ∧ ∀ d ∈ globalScalarsProg, d.CasesOk) := by
  decide_text globalScalarsText

attribute [irreducible] globalScalarsText

/-- the globals of its module -/
def globalScalarsGlobals : List (List Char × GInit) :=
[(("b.a".toList), Blang.GInit.word (Blang.Const.int 0x0000000000000000#64)),
 (("b.b".toList), Blang.GInit.word (Blang.Const.int 0x000000000000007b#64)),
 ((".str.0".toList), Blang.GInit.bytes [0x62#8, 0x61#8, 0x72#8, 0x00#8]),
 (("b.c".toList), Blang.GInit.arr 3 [Blang.Const.int 0xfffffffffffffea7#64, Blang.Const.int 0x0000000000666f6f#64, Blang.Const.addr ['.', 's', 't', 'r', '.', '0'] (Blang.Ty.bytes 4) 0]),
 ((".str.1".toList), Blang.GInit.bytes [0x61#8, 0x20#8, 0x3d#8, 0x20#8, 0x25#8, 0x64#8, 0x0a#8, 0x00#8]),
 ((".str.2".toList), Blang.GInit.bytes [0x62#8, 0x20#8, 0x3d#8, 0x20#8, 0x25#8, 0x64#8, 0x0a#8, 0x00#8]),
 ((".str.3".toList), Blang.GInit.bytes [0x63#8, 0x20#8, 0x3d#8, 0x20#8, 0x25#8, 0x64#8, 0x2c#8, 0x20#8, 0x27#8, 0x25#8, 0x63#8, 0x27#8, 0x2c#8, 0x20#8, 0x22#8, 0x25#8, 0x73#8, 0x22#8, 0x0a#8, 0x00#8])]

set_option maxRecDepth 20000 in
theorem globalScalars_globals : globalsAre globalScalarsProg globalScalarsGlobals = true := by decide +kernel

/-- what the test expects -/
def globalScalarsOut : List Char := "a = 0\nb = 123\nc = -345, 'foo', \"bar\"\n".toList

set_option maxRecDepth 20000 in
theorem globalScalars_run : Interp.run globalScalarsProg globalScalarsGlobals 40 2000 40 6 = some (codes globalScalarsOut) := by decide +kernel

/-- The process of the test `global_scalars` writes what the test expects. -/
theorem globalScalars_writes : WritesOnAll globalScalarsText globalScalarsOut 40 40 :=
  writes_of_run globalScalars_checks.1 globalScalars_checks.2.1 globalScalars_checks.2.2.1 globalScalars_checks.2.2.2 globalScalars_globals globalScalars_run

/-- the test `global_vectors` -/
def globalVectorsText : List Char := "a[];
            b[] 123;
            c[4] -345, 'foo', \"bar\";

            main() {
                extrn a, b, c;

                printf(\"a = %d*n\", a[0]);
                printf(\"b = %d*n\", b[0]);
                printf(\"c = %d, '%c', *\"%s*\", %d*n\", c[0], c[1], c[2], c[3]);
            }".toList

/-- its syntax tree -/
def globalVectorsProg : Program :=
[.vector ("a".toList) 0 [],
 .vector ("b".toList) 0 [.int 123],
 .vector ("c".toList) 4 [.int 18446744073709551271, .int 6713199, .str [98, 97, 114]],
 .func ("main".toList) [] (.seq (.extrn [("a".toList), ("b".toList), ("c".toList)])
  (.seq (.expr (.callName ("printf".toList) [(.str [97, 32, 61, 32, 37, 100, 10]), (.index (.var ("a".toList)) (.num 0))]))
  (.seq (.expr (.callName ("printf".toList) [(.str [98, 32, 61, 32, 37, 100, 10]), (.index (.var ("b".toList)) (.num 0))]))
  (.seq (.expr (.callName ("printf".toList) [(.str [99, 32, 61, 32, 37, 100, 44, 32, 39, 37, 99, 39, 44, 32, 34, 37, 115, 34, 44, 32, 37, 100, 10]), (.index (.var ("c".toList)) (.num 0)), (.index (.var ("c".toList)) (.num 1)), (.index (.var ("c".toList)) (.num 2)), (.index (.var ("c".toList)) (.num 3))]))
  .skip))))]

set_option maxRecDepth 50000 in
theorem globalVectors_checks : Program.isSame globalVectorsProg (refParse prec globalVectorsText) = true ∧ globalVectorsProg.Tame ∧ globalVectorsProg.Clear ∧
    (Program.Scoped Env.empty globalVectorsProg ∧ ∀ d ∈ globalVectorsProg, d.CasesOk) := by
  decide_text globalVectorsText

attribute [irreducible] globalVectorsText

/-- the globals of its module -/
def globalVectorsGlobals : List (List Char × GInit) :=
[(("b.a".toList), Blang.GInit.arr 2 [Blang.Const.addr ['b', '.', 'a'] (Blang.Ty.arr 2) 1, Blang.Const.int 0x0000000000000000#64]),
 (("b.b".toList), Blang.GInit.arr 2 [Blang.Const.addr ['b', '.', 'b'] (Blang.Ty.arr 2) 1, Blang.Const.int 0x000000000000007b#64]),
 ((".str.0".toList), Blang.GInit.bytes [0x62#8, 0x61#8, 0x72#8, 0x00#8]),
 (("b.c".toList), Blang.GInit.arr 5 [Blang.Const.addr ['b', '.', 'c'] (Blang.Ty.arr 5) 1, Blang.Const.int 0xfffffffffffffea7#64, Blang.Const.int 0x0000000000666f6f#64, Blang.Const.addr ['.', 's', 't', 'r', '.', '0'] (Blang.Ty.bytes 4) 0, Blang.Const.int 0x0000000000000000#64]),
 ((".str.1".toList), Blang.GInit.bytes [0x61#8, 0x20#8, 0x3d#8, 0x20#8, 0x25#8, 0x64#8, 0x0a#8, 0x00#8]),
 ((".str.2".toList), Blang.GInit.bytes [0x62#8, 0x20#8, 0x3d#8, 0x20#8, 0x25#8, 0x64#8, 0x0a#8, 0x00#8]),
 ((".str.3".toList), Blang.GInit.bytes [0x63#8, 0x20#8, 0x3d#8, 0x20#8, 0x25#8, 0x64#8, 0x2c#8, 0x20#8, 0x27#8, 0x25#8, 0x63#8, 0x27#8, 0x2c#8, 0x20#8, 0x22#8, 0x25#8, 0x73#8, 0x22#8, 0x2c#8, 0x20#8, 0x25#8, 0x64#8, 0x0a#8, 0x00#8])]

set_option maxRecDepth 20000 in
theorem globalVectors_globals : globalsAre globalVectorsProg globalVectorsGlobals = true := by decide +kernel

/-- what the test expects -/
def globalVectorsOut : List Char := "a = 0\nb = 123\nc = -345, 'foo', \"bar\", 0\n".toList

set_option maxRecDepth 20000 in
theorem globalVectors_run : Interp.run globalVectorsProg globalVectorsGlobals 40 2000 40 6 = some (codes globalVectorsOut) := by decide +kernel

/-- The process of the test `global_vectors` writes what the test expects. -/
theorem globalVectors_writes : WritesOnAll globalVectorsText globalVectorsOut 40 40 :=
  writes_of_run globalVectors_checks.1 globalVectors_checks.2.1 globalVectors_checks.2.2.1 globalVectors_checks.2.2.2 globalVectors_globals globalVectors_run

/-- the test `indirect_call_basic` -/
def indirectCallBasicText : List Char := "add(a, b) {
                return(a + b);
            }

            func_ptr;

            main() {
                extrn func_ptr;

                func_ptr = add;
                printf(\"Result: %d*n\", func_ptr(3, 5));
            }".toList

/-- its syntax tree -/
def indirectCallBasicProg : Program :=
[.func ("add".toList) [("a".toList), ("b".toList)] (.seq (.ret (some (.bin .add (.var ("a".toList)) (.var ("b".toList)))))
  .skip),
 .global ("func_ptr".toList) [],
 .func ("main".toList) [] (.seq (.extrn [("func_ptr".toList)])
  (.seq (.expr (.assign none (.var ("func_ptr".toList)) (.var ("add".toList))))
  (.seq (.expr (.callName ("printf".toList) [(.str [82, 101, 115, 117, 108, 116, 58, 32, 37, 100, 10]), (.callName ("func_ptr".toList) [(.num 3), (.num 5)])]))
  .skip)))]

set_option maxRecDepth 50000 in
theorem indirectCallBasic_checks : Program.isSame indirectCallBasicProg (refParse prec indirectCallBasicText) = true ∧ indirectCallBasicProg.Tame ∧ indirectCallBasicProg.Clear ∧
    (Program.Scoped Env.empty indirectCallBasicProg ∧ ∀ d ∈ indirectCallBasicProg, d.CasesOk) := by
  decide_text indirectCallBasicText

attribute [irreducible] indirectCallBasicText

/-- the globals of its module -/
def indirectCallBasicGlobals : List (List Char × GInit) :=
[(("b.func_ptr".toList), Blang.GInit.word (Blang.Const.int 0x0000000000000000#64)),
 ((".str.0".toList), Blang.GInit.bytes [0x52#8, 0x65#8, 0x73#8, 0x75#8, 0x6c#8, 0x74#8, 0x3a#8, 0x20#8, 0x25#8, 0x64#8, 0x0a#8, 0x00#8])]

set_option maxRecDepth 20000 in
theorem indirectCallBasic_globals : globalsAre indirectCallBasicProg indirectCallBasicGlobals = true := by decide +kernel

/-- what the test expects -/
def indirectCallBasicOut : List Char := "Result: 8\n".toList

set_option maxRecDepth 20000 in
theorem indirectCallBasic_run : Interp.run indirectCallBasicProg indirectCallBasicGlobals 40 2000 40 6 = some (codes indirectCallBasicOut) := by decide +kernel

/-- The process of the test `indirect_call_basic` writes what the test expects. -/
theorem indirectCallBasic_writes : WritesOnAll indirectCallBasicText indirectCallBasicOut 40 40 :=
  writes_of_run indirectCallBasic_checks.1 indirectCallBasic_checks.2.1 indirectCallBasic_checks.2.2.1 indirectCallBasic_checks.2.2.2 indirectCallBasic_globals indirectCallBasic_run

/-- the test `indirect_call_multiple` -/
def indirectCallMultipleText : List Char := "add(a, b) { return(a + b); }
            sub(a, b) { return(a - b); }
            mul(a, b) { return(a * b); }

            op;

            main() {
                extrn op;

                op = add;
                printf(\"add: %d*n\", op(10, 5));

                op = sub;
                printf(\"sub: %d*n\", op(10, 5));

                op = mul;
                printf(\"mul: %d*n\", op(10, 5));
            }".toList

/-- its syntax tree -/
def indirectCallMultipleProg : Program :=
[.func ("add".toList) [("a".toList), ("b".toList)] (.seq (.ret (some (.bin .add (.var ("a".toList)) (.var ("b".toList)))))
  .skip),
 .func ("sub".toList) [("a".toList), ("b".toList)] (.seq (.ret (some (.bin .sub (.var ("a".toList)) (.var ("b".toList)))))
  .skip),
 .func ("mul".toList) [("a".toList), ("b".toList)] (.seq (.ret (some (.bin .mul (.var ("a".toList)) (.var ("b".toList)))))
  .skip),
 .global ("op".toList) [],
 .func ("main".toList) [] (.seq (.extrn [("op".toList)])
  (.seq (.expr (.assign none (.var ("op".toList)) (.var ("add".toList))))
  (.seq (.expr (.callName ("printf".toList) [(.str [97, 100, 100, 58, 32, 37, 100, 10]), (.callName ("op".toList) [(.num 10), (.num 5)])]))
  (.seq (.expr (.assign none (.var ("op".toList)) (.var ("sub".toList))))
  (.seq (.expr (.callName ("printf".toList) [(.str [115, 117, 98, 58, 32, 37, 100, 10]), (.callName ("op".toList) [(.num 10), (.num 5)])]))
  (.seq (.expr (.assign none (.var ("op".toList)) (.var ("mul".toList))))
  (.seq (.expr (.callName ("printf".toList) [(.str [109, 117, 108, 58, 32, 37, 100, 10]), (.callName ("op".toList) [(.num 10), (.num 5)])]))
  .skip)))))))]

set_option maxRecDepth 50000 in
theorem indirectCallMultiple_checks : Program.isSame indirectCallMultipleProg (refParse prec indirectCallMultipleText) = true ∧ indirectCallMultipleProg.Tame ∧ indirectCallMultipleProg.Clear ∧
    (Program.Scoped Env.empty indirectCallMultipleProg ∧ ∀ d ∈ indirectCallMultipleProg, d.CasesOk) := by
  decide_text indirectCallMultipleText

attribute [irreducible] indirectCallMultipleText

/-- the globals of its module -/
def indirectCallMultipleGlobals : List (List Char × GInit) :=
[(("b.op".toList), Blang.GInit.word (Blang.Const.int 0x0000000000000000#64)),
 ((".str.0".toList), Blang.GInit.bytes [0x61#8, 0x64#8, 0x64#8, 0x3a#8, 0x20#8, 0x25#8, 0x64#8, 0x0a#8, 0x00#8]),
 ((".str.1".toList), Blang.GInit.bytes [0x73#8, 0x75#8, 0x62#8, 0x3a#8, 0x20#8, 0x25#8, 0x64#8, 0x0a#8, 0x00#8]),
 ((".str.2".toList), Blang.GInit.bytes [0x6d#8, 0x75#8, 0x6c#8, 0x3a#8, 0x20#8, 0x25#8, 0x64#8, 0x0a#8, 0x00#8])]

set_option maxRecDepth 20000 in
theorem indirectCallMultiple_globals : globalsAre indirectCallMultipleProg indirectCallMultipleGlobals = true := by decide +kernel

/-- what the test expects -/
def indirectCallMultipleOut : List Char := "add: 15\nsub: 5\nmul: 50\n".toList

set_option maxRecDepth 20000 in
theorem indirectCallMultiple_run : Interp.run indirectCallMultipleProg indirectCallMultipleGlobals 40 2000 40 6 = some (codes indirectCallMultipleOut) := by decide +kernel

/-- The process of the test `indirect_call_multiple` writes what the test expects. -/
theorem indirectCallMultiple_writes : WritesOnAll indirectCallMultipleText indirectCallMultipleOut 40 40 :=
  writes_of_run indirectCallMultiple_checks.1 indirectCallMultiple_checks.2.1 indirectCallMultiple_checks.2.2.1 indirectCallMultiple_checks.2.2.2 indirectCallMultiple_globals indirectCallMultiple_run

/-- the test `local_array` -/
def localArrayText : List Char := "main() {
                auto l[3];

                l[0] = 123;
                l[1] = 'local';
                l[2] = \"string\";
                printf(\"local = %d, '%c', *\"%s*\"*n\", l[0], l[1], l[2]);
            }".toList

/-- its syntax tree -/
def localArrayProg : Program :=
[.func ("main".toList) [] (.seq (.auto [(("l".toList), some 3)])
  (.seq (.expr (.assign none (.index (.var ("l".toList)) (.num 0)) (.num 123)))
  (.seq (.expr (.assign none (.index (.var ("l".toList)) (.num 1)) (.num 465725251948)))
  (.seq (.expr (.assign none (.index (.var ("l".toList)) (.num 2)) (.str [115, 116, 114, 105, 110, 103])))
  (.seq (.expr (.callName ("printf".toList) [(.str [108, 111, 99, 97, 108, 32, 61, 32, 37, 100, 44, 32, 39, 37, 99, 39, 44, 32, 34, 37, 115, 34, 10]), (.index (.var ("l".toList)) (.num 0)), (.index (.var ("l".toList)) (.num 1)), (.index (.var ("l".toList)) (.num 2))]))
  .skip)))))]

set_option maxRecDepth 50000 in
theorem localArray_checks : Program.isSame localArrayProg (refParse prec localArrayText) = true ∧ localArrayProg.Tame ∧ localArrayProg.Clear ∧
    (Program.Scoped Env.empty localArrayProg ∧ ∀ d ∈ localArrayProg, d.CasesOk) := by
  decide_text localArrayText

attribute [irreducible] localArrayText

/-- the globals of its module -/
def localArrayGlobals : List (List Char × GInit) :=
[((".str.0".toList), Blang.GInit.bytes [0x73#8, 0x74#8, 0x72#8, 0x69#8, 0x6e#8, 0x67#8, 0x00#8]),
 ((".str.1".toList), Blang.GInit.bytes [0x6c#8, 0x6f#8, 0x63#8, 0x61#8, 0x6c#8, 0x20#8, 0x3d#8, 0x20#8, 0x25#8, 0x64#8, 0x2c#8, 0x20#8, 0x27#8, 0x25#8, 0x63#8, 0x27#8, 0x2c#8, 0x20#8, 0x22#8, 0x25#8, 0x73#8, 0x22#8, 0x0a#8, 0x00#8])]

set_option maxRecDepth 20000 in
theorem localArray_globals : globalsAre localArrayProg localArrayGlobals = true := by decide +kernel

/-- what the test expects -/
def localArrayOut : List Char := "local = 123, 'local', \"string\"\n".toList

set_option maxRecDepth 20000 in
theorem localArray_run : Interp.run localArrayProg localArrayGlobals 40 2000 40 6 = some (codes localArrayOut) := by decide +kernel

/-- The process of the test `local_array` writes what the test expects. -/
theorem localArray_writes : WritesOnAll localArrayText localArrayOut 40 40 :=
  writes_of_run localArray_checks.1 localArray_checks.2.1 localArray_checks.2.2.1 localArray_checks.2.2.2 localArray_globals localArray_run

/-- the tests of this file: the text of a program and what the test expects it to write -/
def testProgramsG : List (List Char × List Char) :=
  [(globalScalarsText, globalScalarsOut), (globalVectorsText, globalVectorsOut), (indirectCallBasicText, indirectCallBasicOut), (indirectCallMultipleText, indirectCallMultipleOut), (localArrayText, localArrayOut)]

theorem testProgramsG_write : AllWrite testProgramsG :=
  .cons globalScalars_writes (.cons globalVectors_writes (.cons indirectCallBasic_writes (.cons indirectCallMultiple_writes (.cons localArray_writes (.nil)))))

end Blang.Props
