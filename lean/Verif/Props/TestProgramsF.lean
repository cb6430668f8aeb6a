import Verif.Props.TestPrograms
/-
Property C100: test programs of the repository.
-/
namespace Blang.Props
open Blang Blang.Spec

/-- the test `function_definitions` -/
def functionDefinitionsText : List Char := "a() {}
            b();
            c() label:;
            d() label: goto label;
            e() return;
            f(x) return(x);
            g(x) x;
            h(x) if(x) 123;
            i(x) if(x) 123; else 456;
            j(x) while(x);
            k(x) switch(x);
            l(x) switch(x) case 1:;
            m() extrn x;
            n() auto x;

            main() {
                printf(\"before a()*n\");
                a();    printf(\"after a(), before b()*n\");
                b();    printf(\"after b(), before c()*n\");
                c();    printf(\"after c(), before e()*n\");
                e();    printf(\"after e(), before f()*n\");
                f(42);  printf(\"after f(), before g()*n\");
                g(42);  printf(\"after g(), before h()*n\");
                h(42);  printf(\"after h(), before i()*n\");
                i(42);  printf(\"after i(), before j()*n\");
                j(0);   printf(\"after j(), before k()*n\");
                k(42);  printf(\"after k(), before l()*n\");
                l(42);  printf(\"after l(), before m()*n\");
                m();    printf(\"after m(), before n()*n\");
                n();    printf(\"after n()*n\");
            }".toList

/-- its syntax tree -/
def functionDefinitionsProg : Program :=
[.func ("a".toList) [] .skip,
 .func ("b".toList) [] .skip,
 .func ("c".toList) [] (.label ("label".toList) .skip),
 .func ("d".toList) [] (.label ("label".toList) (.goto ("label".toList))),
 .func ("e".toList) [] (.ret none),
 .func ("f".toList) [("x".toList)] (.ret (some (.var ("x".toList)))),
 .func ("g".toList) [("x".toList)] (.expr (.var ("x".toList))),
 .func ("h".toList) [("x".toList)] (.ifThen (.var ("x".toList)) (.expr (.num 123))),
 .func ("i".toList) [("x".toList)] (.ifElse (.var ("x".toList)) (.expr (.num 123)) (.expr (.num 456))),
 .func ("j".toList) [("x".toList)] (.while (.var ("x".toList)) .skip),
 .func ("k".toList) [("x".toList)] (.switch (.paren (.var ("x".toList))) .skip),
 .func ("l".toList) [("x".toList)] (.switch (.paren (.var ("x".toList))) (.case 1 .skip)),
 .func ("m".toList) [] (.extrn [("x".toList)]),
 .func ("n".toList) [] (.auto [(("x".toList), none)]),
 .func ("main".toList) [] (.seq (.expr (.callName ("printf".toList) [(.str [98, 101, 102, 111, 114, 101, 32, 97, 40, 41, 10])]))
  (.seq (.expr (.callName ("a".toList) []))
  (.seq (.expr (.callName ("printf".toList) [(.str [97, 102, 116, 101, 114, 32, 97, 40, 41, 44, 32, 98, 101, 102, 111, 114, 101, 32, 98, 40, 41, 10])]))
  (.seq (.expr (.callName ("b".toList) []))
  (.seq (.expr (.callName ("printf".toList) [(.str [97, 102, 116, 101, 114, 32, 98, 40, 41, 44, 32, 98, 101, 102, 111, 114, 101, 32, 99, 40, 41, 10])]))
  (.seq (.expr (.callName ("c".toList) []))
  (.seq (.expr (.callName ("printf".toList) [(.str [97, 102, 116, 101, 114, 32, 99, 40, 41, 44, 32, 98, 101, 102, 111, 114, 101, 32, 101, 40, 41, 10])]))
  (.seq (.expr (.callName ("e".toList) []))
  (.seq (.expr (.callName ("printf".toList) [(.str [97, 102, 116, 101, 114, 32, 101, 40, 41, 44, 32, 98, 101, 102, 111, 114, 101, 32, 102, 40, 41, 10])]))
  (.seq (.expr (.callName ("f".toList) [(.num 42)]))
  (.seq (.expr (.callName ("printf".toList) [(.str [97, 102, 116, 101, 114, 32, 102, 40, 41, 44, 32, 98, 101, 102, 111, 114, 101, 32, 103, 40, 41, 10])]))
  (.seq (.expr (.callName ("g".toList) [(.num 42)]))
  (.seq (.expr (.callName ("printf".toList) [(.str [97, 102, 116, 101, 114, 32, 103, 40, 41, 44, 32, 98, 101, 102, 111, 114, 101, 32, 104, 40, 41, 10])]))
  (.seq (.expr (.callName ("h".toList) [(.num 42)]))
  (.seq (.expr (.callName ("printf".toList) [(.str [97, 102, 116, 101, 114, 32, 104, 40, 41, 44, 32, 98, 101, 102, 111, 114, 101, 32, 105, 40, 41, 10])]))
  (.seq (.expr (.callName ("i".toList) [(.num 42)]))
  (.seq (.expr (.callName ("printf".toList) [(.str [97, 102, 116, 101, 114, 32, 105, 40, 41, 44, 32, 98, 101, 102, 111, 114, 101, 32, 106, 40, 41, 10])]))
  (.seq (.expr (.callName ("j".toList) [(.num 0)]))
  (.seq (.expr (.callName ("printf".toList) [(.str [97, 102, 116, 101, 114, 32, 106, 40, 41, 44, 32, 98, 101, 102, 111, 114, 101, 32, 107, 40, 41, 10])]))
  (.seq (.expr (.callName ("k".toList) [(.num 42)]))
  (.seq (.expr (.callName ("printf".toList) [(.str [97, 102, 116, 101, 114, 32, 107, 40, 41, 44, 32, 98, 101, 102, 111, 114, 101, 32, 108, 40, 41, 10])]))
  (.seq (.expr (.callName ("l".toList) [(.num 42)]))
  (.seq (.expr (.callName ("printf".toList) [(.str [97, 102, 116, 101, 114, 32, 108, 40, 41, 44, 32, 98, 101, 102, 111, 114, 101, 32, 109, 40, 41, 10])]))
  (.seq (.expr (.callName ("m".toList) []))
  (.seq (.expr (.callName ("printf".toList) [(.str [97, 102, 116, 101, 114, 32, 109, 40, 41, 44, 32, 98, 101, 102, 111, 114, 101, 32, 110, 40, 41, 10])]))
  (.seq (.expr (.callName ("n".toList) []))
  (.seq (.expr (.callName ("printf".toList) [(.str [97, 102, 116, 101, 114, 32, 110, 40, 41, 10])]))
  .skip)))))))))))))))))))))))))))]

set_option maxRecDepth 50000 in
theorem functionDefinitions_checks : Program.isSame functionDefinitionsProg (refParse prec functionDefinitionsText) = true ∧ functionDefinitionsProg.Tame ∧ functionDefinitionsProg.Clear ∧
    (Program.Scoped Env.empty functionDefinitionsProg ∧ ∀ d ∈ functionDefinitionsProg, d.CasesOk) := by
  decide_text functionDefinitionsText

attribute [irreducible] functionDefinitionsText

/-- the globals of its module -/
def functionDefinitionsGlobals : List (List Char × GInit) :=
[(("b.x".toList), Blang.GInit.word (Blang.Const.int 0x0000000000000000#64)),
 ((".str.0".toList), Blang.GInit.bytes [0x62#8, 0x65#8, 0x66#8, 0x6f#8, 0x72#8, 0x65#8, 0x20#8, 0x61#8, 0x28#8, 0x29#8, 0x0a#8, 0x00#8]),
 ((".str.1".toList), Blang.GInit.bytes [0x61#8, 0x66#8, 0x74#8, 0x65#8, 0x72#8, 0x20#8, 0x61#8, 0x28#8, 0x29#8, 0x2c#8, 0x20#8, 0x62#8, 0x65#8, 0x66#8, 0x6f#8, 0x72#8, 0x65#8, 0x20#8, 0x62#8, 0x28#8, 0x29#8, 0x0a#8, 0x00#8]),
 ((".str.2".toList), Blang.GInit.bytes [0x61#8, 0x66#8, 0x74#8, 0x65#8, 0x72#8, 0x20#8, 0x62#8, 0x28#8, 0x29#8, 0x2c#8, 0x20#8, 0x62#8, 0x65#8, 0x66#8, 0x6f#8, 0x72#8, 0x65#8, 0x20#8, 0x63#8, 0x28#8, 0x29#8, 0x0a#8, 0x00#8]),
 ((".str.3".toList), Blang.GInit.bytes [0x61#8, 0x66#8, 0x74#8, 0x65#8, 0x72#8, 0x20#8, 0x63#8, 0x28#8, 0x29#8, 0x2c#8, 0x20#8, 0x62#8, 0x65#8, 0x66#8, 0x6f#8, 0x72#8, 0x65#8, 0x20#8, 0x65#8, 0x28#8, 0x29#8, 0x0a#8, 0x00#8]),
 ((".str.4".toList), Blang.GInit.bytes [0x61#8, 0x66#8, 0x74#8, 0x65#8, 0x72#8, 0x20#8, 0x65#8, 0x28#8, 0x29#8, 0x2c#8, 0x20#8, 0x62#8, 0x65#8, 0x66#8, 0x6f#8, 0x72#8, 0x65#8, 0x20#8, 0x66#8, 0x28#8, 0x29#8, 0x0a#8, 0x00#8]),
 ((".str.5".toList), Blang.GInit.bytes [0x61#8, 0x66#8, 0x74#8, 0x65#8, 0x72#8, 0x20#8, 0x66#8, 0x28#8, 0x29#8, 0x2c#8, 0x20#8, 0x62#8, 0x65#8, 0x66#8, 0x6f#8, 0x72#8, 0x65#8, 0x20#8, 0x67#8, 0x28#8, 0x29#8, 0x0a#8, 0x00#8]),
 ((".str.6".toList), Blang.GInit.bytes [0x61#8, 0x66#8, 0x74#8, 0x65#8, 0x72#8, 0x20#8, 0x67#8, 0x28#8, 0x29#8, 0x2c#8, 0x20#8, 0x62#8, 0x65#8, 0x66#8, 0x6f#8, 0x72#8, 0x65#8, 0x20#8, 0x68#8, 0x28#8, 0x29#8, 0x0a#8, 0x00#8]),
 ((".str.7".toList), Blang.GInit.bytes [0x61#8, 0x66#8, 0x74#8, 0x65#8, 0x72#8, 0x20#8, 0x68#8, 0x28#8, 0x29#8, 0x2c#8, 0x20#8, 0x62#8, 0x65#8, 0x66#8, 0x6f#8, 0x72#8, 0x65#8, 0x20#8, 0x69#8, 0x28#8, 0x29#8, 0x0a#8, 0x00#8]),
 ((".str.8".toList), Blang.GInit.bytes [0x61#8, 0x66#8, 0x74#8, 0x65#8, 0x72#8, 0x20#8, 0x69#8, 0x28#8, 0x29#8, 0x2c#8, 0x20#8, 0x62#8, 0x65#8, 0x66#8, 0x6f#8, 0x72#8, 0x65#8, 0x20#8, 0x6a#8, 0x28#8, 0x29#8, 0x0a#8, 0x00#8]),
 ((".str.9".toList), Blang.GInit.bytes [0x61#8, 0x66#8, 0x74#8, 0x65#8, 0x72#8, 0x20#8, 0x6a#8, 0x28#8, 0x29#8, 0x2c#8, 0x20#8, 0x62#8, 0x65#8, 0x66#8, 0x6f#8, 0x72#8, 0x65#8, 0x20#8, 0x6b#8, 0x28#8, 0x29#8, 0x0a#8, 0x00#8]),
 ((".str.10".toList), Blang.GInit.bytes [0x61#8, 0x66#8, 0x74#8, 0x65#8, 0x72#8, 0x20#8, 0x6b#8, 0x28#8, 0x29#8, 0x2c#8, 0x20#8, 0x62#8, 0x65#8, 0x66#8, 0x6f#8, 0x72#8, 0x65#8, 0x20#8, 0x6c#8, 0x28#8, 0x29#8, 0x0a#8, 0x00#8]),
 ((".str.11".toList), Blang.GInit.bytes [0x61#8, 0x66#8, 0x74#8, 0x65#8, 0x72#8, 0x20#8, 0x6c#8, 0x28#8, 0x29#8, 0x2c#8, 0x20#8, 0x62#8, 0x65#8, 0x66#8, 0x6f#8, 0x72#8, 0x65#8, 0x20#8, 0x6d#8, 0x28#8, 0x29#8, 0x0a#8, 0x00#8]),
 ((".str.12".toList), Blang.GInit.bytes [0x61#8, 0x66#8, 0x74#8, 0x65#8, 0x72#8, 0x20#8, 0x6d#8, 0x28#8, 0x29#8, 0x2c#8, 0x20#8, 0x62#8, 0x65#8, 0x66#8, 0x6f#8, 0x72#8, 0x65#8, 0x20#8, 0x6e#8, 0x28#8, 0x29#8, 0x0a#8, 0x00#8]),
 ((".str.13".toList), Blang.GInit.bytes [0x61#8, 0x66#8, 0x74#8, 0x65#8, 0x72#8, 0x20#8, 0x6e#8, 0x28#8, 0x29#8, 0x0a#8, 0x00#8])]

set_option maxRecDepth 20000 in
theorem functionDefinitions_globals : globalsAre functionDefinitionsProg functionDefinitionsGlobals = true := by decide +kernel

/-- what the test expects -/
def functionDefinitionsOut : List Char := "before a()\nafter a(), before b()\nafter b(), before c()\nafter c(), before e()\nafter e(), before f()\nafter f(), before g()\nafter g(), before h()\nafter h(), before i()\nafter i(), before j()\nafter j(), before k()\nafter k(), before l()\nafter l(), before m()\nafter m(), before n()\nafter n()\n".toList

set_option maxRecDepth 20000 in
theorem functionDefinitions_run : Interp.run functionDefinitionsProg functionDefinitionsGlobals 40 2000 40 6 = some (codes functionDefinitionsOut) := by decide +kernel

/-- The process of the test `function_definitions` writes what the test expects. -/
theorem functionDefinitions_writes : WritesOnAll functionDefinitionsText functionDefinitionsOut 40 40 :=
  writes_of_run functionDefinitions_checks.1 functionDefinitions_checks.2.1 functionDefinitions_checks.2.2.1 functionDefinitions_checks.2.2.2 functionDefinitions_globals functionDefinitions_run

/-- the test `function_ternary_operator` -/
def functionTernaryOperatorText : List Char := "choose(a, b, c)
            {
                return (a ? b : c);
            }

            main() {
                printf(\"%d*n\", choose(1, 123, 456));
                printf(\"%d*n\", choose(0, 123, 456));
            }".toList

/-- its syntax tree -/
def functionTernaryOperatorProg : Program :=
[.func ("choose".toList) [("a".toList), ("b".toList), ("c".toList)] (.seq (.ret (some (.cond (.var ("a".toList)) (.var ("b".toList)) (.var ("c".toList)))))
  .skip),
 .func ("main".toList) [] (.seq (.expr (.callName ("printf".toList) [(.str [37, 100, 10]), (.callName ("choose".toList) [(.num 1), (.num 123), (.num 456)])]))
  (.seq (.expr (.callName ("printf".toList) [(.str [37, 100, 10]), (.callName ("choose".toList) [(.num 0), (.num 123), (.num 456)])]))
  .skip))]

set_option maxRecDepth 50000 in
theorem functionTernaryOperator_checks : Program.isSame functionTernaryOperatorProg (refParse prec functionTernaryOperatorText) = true ∧ functionTernaryOperatorProg.Tame ∧ functionTernaryOperatorProg.Clear ∧
    (Program.Scoped Env.empty functionTernaryOperatorProg ∧ ∀ d ∈ functionTernaryOperatorProg, d.CasesOk) := by
  decide_text functionTernaryOperatorText

attribute [irreducible] functionTernaryOperatorText

/-- the globals of its module -/
def functionTernaryOperatorGlobals : List (List Char × GInit) :=
[((".str.0".toList), Blang.GInit.bytes [0x25#8, 0x64#8, 0x0a#8, 0x00#8]),
 ((".str.1".toList), Blang.GInit.bytes [0x25#8, 0x64#8, 0x0a#8, 0x00#8])]

set_option maxRecDepth 20000 in
theorem functionTernaryOperator_globals : globalsAre functionTernaryOperatorProg functionTernaryOperatorGlobals = true := by decide +kernel

/-- what the test expects -/
def functionTernaryOperatorOut : List Char := "123\n456\n".toList

set_option maxRecDepth 20000 in
theorem functionTernaryOperator_run : Interp.run functionTernaryOperatorProg functionTernaryOperatorGlobals 40 2000 40 6 = some (codes functionTernaryOperatorOut) := by decide +kernel

/-- The process of the test `function_ternary_operator` writes what the test expects. -/
theorem functionTernaryOperator_writes : WritesOnAll functionTernaryOperatorText functionTernaryOperatorOut 40 40 :=
  writes_of_run functionTernaryOperator_checks.1 functionTernaryOperator_checks.2.1 functionTernaryOperator_checks.2.2.1 functionTernaryOperator_checks.2.2.2 functionTernaryOperator_globals functionTernaryOperator_run

/-- the test `global_array` -/
def globalArrayText : List Char := "g[3] -345, 'foo', \"bar\";

            main() {
                extrn g;

                printf(\"global = %d, '%c', *\"%s*\"*n\", g[0], g[1], g[2]);
                printf(\"address = %d, %d, %d*n\", (&g[0]) - g, (&g[1]) - g, (&g[2]) - g);
            }".toList

/-- its syntax tree -/
def globalArrayProg : Program :=
[.vector ("g".toList) 3 [.int 18446744073709551271, .int 6713199, .str [98, 97, 114]],
 .func ("main".toList) [] (.seq (.extrn [("g".toList)])
  (.seq (.expr (.callName ("printf".toList) [(.str [103, 108, 111, 98, 97, 108, 32, 61, 32, 37, 100, 44, 32, 39, 37, 99, 39, 44, 32, 34, 37, 115, 34, 10]), (.index (.var ("g".toList)) (.num 0)), (.index (.var ("g".toList)) (.num 1)), (.index (.var ("g".toList)) (.num 2))]))
  (.seq (.expr (.callName ("printf".toList) [(.str [97, 100, 100, 114, 101, 115, 115, 32, 61, 32, 37, 100, 44, 32, 37, 100, 44, 32, 37, 100, 10]), (.bin .sub (.paren (.addr (.index (.var ("g".toList)) (.num 0)))) (.var ("g".toList))), (.bin .sub (.paren (.addr (.index (.var ("g".toList)) (.num 1)))) (.var ("g".toList))), (.bin .sub (.paren (.addr (.index (.var ("g".toList)) (.num 2)))) (.var ("g".toList)))]))
  .skip)))]

set_option maxRecDepth 50000 in
theorem globalArray_checks : Program.isSame globalArrayProg (refParse prec globalArrayText) = true ∧ globalArrayProg.Tame ∧ globalArrayProg.Clear ∧
    (Program.Scoped Env.empty globalArrayProg ∧ ∀ d ∈ globalArrayProg, d.CasesOk) := by
  decide_text globalArrayText

attribute [irreducible] globalArrayText

/-- the globals of its module -/
def globalArrayGlobals : List (List Char × GInit) :=
[((".str.0".toList), Blang.GInit.bytes [0x62#8, 0x61#8, 0x72#8, 0x00#8]),
 (("b.g".toList), Blang.GInit.arr 4 [Blang.Const.addr ['b', '.', 'g'] (Blang.Ty.arr 4) 1, Blang.Const.int 0xfffffffffffffea7#64, Blang.Const.int 0x0000000000666f6f#64, Blang.Const.addr ['.', 's', 't', 'r', '.', '0'] (Blang.Ty.bytes 4) 0]),
 ((".str.1".toList), Blang.GInit.bytes [0x67#8, 0x6c#8, 0x6f#8, 0x62#8, 0x61#8, 0x6c#8, 0x20#8, 0x3d#8, 0x20#8, 0x25#8, 0x64#8, 0x2c#8, 0x20#8, 0x27#8, 0x25#8, 0x63#8, 0x27#8, 0x2c#8, 0x20#8, 0x22#8, 0x25#8, 0x73#8, 0x22#8, 0x0a#8, 0x00#8]),
 ((".str.2".toList), Blang.GInit.bytes [0x61#8, 0x64#8, 0x64#8, 0x72#8, 0x65#8, 0x73#8, 0x73#8, 0x20#8, 0x3d#8, 0x20#8, 0x25#8, 0x64#8, 0x2c#8, 0x20#8, 0x25#8, 0x64#8, 0x2c#8, 0x20#8, 0x25#8, 0x64#8, 0x0a#8, 0x00#8])]

set_option maxRecDepth 20000 in
theorem globalArray_globals : globalsAre globalArrayProg globalArrayGlobals = true := by decide +kernel

/-- what the test expects -/
def globalArrayOut : List Char := "global = -345, 'foo', \"bar\"\naddress = 0, 8, 16\n".toList

set_option maxRecDepth 20000 in
theorem globalArray_run : Interp.run globalArrayProg globalArrayGlobals 40 2000 40 6 = some (codes globalArrayOut) := by decide +kernel

/-- The process of the test `global_array` writes what the test expects. -/
theorem globalArray_writes : WritesOnAll globalArrayText globalArrayOut 40 40 :=
  writes_of_run globalArray_checks.1 globalArray_checks.2.1 globalArray_checks.2.2.1 globalArray_checks.2.2.2 globalArray_globals globalArray_run

/-- the tests of this file: the text of a program and what the test expects it to write -/
def testProgramsF : List (List Char × List Char) :=
  [(functionDefinitionsText, functionDefinitionsOut), (functionTernaryOperatorText, functionTernaryOperatorOut), (globalArrayText, globalArrayOut)]

theorem testProgramsF_write : AllWrite testProgramsF :=
  .cons functionDefinitions_writes (.cons functionTernaryOperator_writes (.cons globalArray_writes (.nil)))

end Blang.Props
