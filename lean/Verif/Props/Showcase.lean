import Verif.Props.Interp
/-
Property C74: `examples/showcase.b`, by means of the interpreter (C99).
-/
namespace Blang.Props
open Blang Blang.Spec

/-- examples/showcase.b -/
def showText : List Char := "/* B Language Showcase - All Features */

/* Global array */
fibonacci_cache[20] 0, 1;

/* Initialize fibonacci cache */
init_cache() {
    extrn fibonacci_cache;
    auto i;
    i = 2;
    while (i < 20) {
        fibonacci_cache[i] = fibonacci_cache[i-1] + fibonacci_cache[i-2];
        i++;
    }
}

/* Get nth fibonacci number from cache */
fib(n) {
    extrn fibonacci_cache;
    if (n >= 20)
        return(-1);  /* Error */
    return(fibonacci_cache[n]);
}

/* Test all operators */
test_operators(a, b) {
    auto result;

    /* Arithmetic */
    result = a + b - 5;
    result = a * b / 10;
    result = a % b;

    /* Bitwise */
    result = a & b;
    result = a | b;
    result = a << 2;
    result = a >> 1;

    /* Comparison */
    result = (a > b) ? a : b;
    result = (a == b);
    result = (a != b);

    /* Unary */
    result = -a;
    result = !result;

    return(result);
}

/* Test pointers and arrays */
test_arrays() {
    auto arr[5], i, sum, ptr;

    /* Initialize */
    i = 0;
    while (i < 5) {
        arr[i] = (i + 1) * 10;
        ++i;
    }

    /* Sum using indexing */
    sum = 0;
    i = 0;
    while (i < 5) {
        sum =+ arr[i++];
    }

    /* Access via pointer */
    ptr = arr;
    sum =+ ptr[2];  /* Add arr[2] again */

    return(sum);  /* 10+20+30+40+50+30 = 180 */
}

/* Main entry point */
main() {
    auto result;

    /* Initialize fibonacci cache */
    init_cache();

    /* Print some fibonacci numbers */
    printf(\"Fibonacci(5) = %d*n\", fib(5));
    printf(\"Fibonacci(10) = %d*n\", fib(10));

    /* Test operators */
    result = test_operators(15, 7);
    printf(\"Operator test result: %d*n\", result);

    /* Test arrays */
    result = test_arrays();
    printf(\"Array test result: %d*n\", result);

    return(0);
}
".toList

/-- its syntax tree -/
def showProg : Program :=
[.vector ("fibonacci_cache".toList) 20 [.int 0, .int 1],
 .func ("init_cache".toList) [] (.seq (.extrn [("fibonacci_cache".toList)])
  (.seq (.auto [(("i".toList), none)])
  (.seq (.expr (.assign none (.var ("i".toList)) (.num 2)))
  (.seq (.while (.bin .lt (.var ("i".toList)) (.num 20)) (.seq (.expr (.assign none (.index (.var ("fibonacci_cache".toList)) (.var ("i".toList))) (.bin .add (.index (.var ("fibonacci_cache".toList)) (.bin .sub (.var ("i".toList)) (.num 1))) (.index (.var ("fibonacci_cache".toList)) (.bin .sub (.var ("i".toList)) (.num 2))))))
  (.seq (.expr (.post .inc (.var ("i".toList))))
  .skip)))
  .skip)))),
 .func ("fib".toList) [("n".toList)] (.seq (.extrn [("fibonacci_cache".toList)])
  (.seq (.ifThen (.bin .ge (.var ("n".toList)) (.num 20)) (.ret (some (.neg (.num 1)))))
  (.seq (.ret (some (.index (.var ("fibonacci_cache".toList)) (.var ("n".toList)))))
  .skip))),
 .func ("test_operators".toList) [("a".toList), ("b".toList)] (.seq (.auto [(("result".toList), none)])
  (.seq (.expr (.assign none (.var ("result".toList)) (.bin .sub (.bin .add (.var ("a".toList)) (.var ("b".toList))) (.num 5))))
  (.seq (.expr (.assign none (.var ("result".toList)) (.bin .div (.bin .mul (.var ("a".toList)) (.var ("b".toList))) (.num 10))))
  (.seq (.expr (.assign none (.var ("result".toList)) (.bin .mod (.var ("a".toList)) (.var ("b".toList)))))
  (.seq (.expr (.assign none (.var ("result".toList)) (.bin .band (.var ("a".toList)) (.var ("b".toList)))))
  (.seq (.expr (.assign none (.var ("result".toList)) (.bin .bor (.var ("a".toList)) (.var ("b".toList)))))
  (.seq (.expr (.assign none (.var ("result".toList)) (.bin .shl (.var ("a".toList)) (.num 2))))
  (.seq (.expr (.assign none (.var ("result".toList)) (.bin .shr (.var ("a".toList)) (.num 1))))
  (.seq (.expr (.assign none (.var ("result".toList)) (.cond (.paren (.bin .gt (.var ("a".toList)) (.var ("b".toList)))) (.var ("a".toList)) (.var ("b".toList)))))
  (.seq (.expr (.assign none (.var ("result".toList)) (.paren (.bin .eq (.var ("a".toList)) (.var ("b".toList))))))
  (.seq (.expr (.assign none (.var ("result".toList)) (.paren (.bin .ne (.var ("a".toList)) (.var ("b".toList))))))
  (.seq (.expr (.assign none (.var ("result".toList)) (.neg (.var ("a".toList)))))
  (.seq (.expr (.assign none (.var ("result".toList)) (.not (.var ("result".toList)))))
  (.seq (.ret (some (.var ("result".toList))))
  .skip)))))))))))))),
 .func ("test_arrays".toList) [] (.seq (.auto [(("arr".toList), some 5), (("i".toList), none), (("sum".toList), none), (("ptr".toList), none)])
  (.seq (.expr (.assign none (.var ("i".toList)) (.num 0)))
  (.seq (.while (.bin .lt (.var ("i".toList)) (.num 5)) (.seq (.expr (.assign none (.index (.var ("arr".toList)) (.var ("i".toList))) (.bin .mul (.paren (.bin .add (.var ("i".toList)) (.num 1))) (.num 10))))
  (.seq (.expr (.pre .inc (.var ("i".toList))))
  .skip)))
  (.seq (.expr (.assign none (.var ("sum".toList)) (.num 0)))
  (.seq (.expr (.assign none (.var ("i".toList)) (.num 0)))
  (.seq (.while (.bin .lt (.var ("i".toList)) (.num 5)) (.seq (.expr (.assign (some .add) (.var ("sum".toList)) (.index (.var ("arr".toList)) (.post .inc (.var ("i".toList))))))
  .skip))
  (.seq (.expr (.assign none (.var ("ptr".toList)) (.var ("arr".toList))))
  (.seq (.expr (.assign (some .add) (.var ("sum".toList)) (.index (.var ("ptr".toList)) (.num 2))))
  (.seq (.ret (some (.var ("sum".toList))))
  .skip))))))))),
 .func ("main".toList) [] (.seq (.auto [(("result".toList), none)])
  (.seq (.expr (.callName ("init_cache".toList) []))
  (.seq (.expr (.callName ("printf".toList) [(.str [70, 105, 98, 111, 110, 97, 99, 99, 105, 40, 53, 41, 32, 61, 32, 37, 100, 10]), (.callName ("fib".toList) [(.num 5)])]))
  (.seq (.expr (.callName ("printf".toList) [(.str [70, 105, 98, 111, 110, 97, 99, 99, 105, 40, 49, 48, 41, 32, 61, 32, 37, 100, 10]), (.callName ("fib".toList) [(.num 10)])]))
  (.seq (.expr (.assign none (.var ("result".toList)) (.callName ("test_operators".toList) [(.num 15), (.num 7)])))
  (.seq (.expr (.callName ("printf".toList) [(.str [79, 112, 101, 114, 97, 116, 111, 114, 32, 116, 101, 115, 116, 32, 114, 101, 115, 117, 108, 116, 58, 32, 37, 100, 10]), (.var ("result".toList))]))
  (.seq (.expr (.assign none (.var ("result".toList)) (.callName ("test_arrays".toList) [])))
  (.seq (.expr (.callName ("printf".toList) [(.str [65, 114, 114, 97, 121, 32, 116, 101, 115, 116, 32, 114, 101, 115, 117, 108, 116, 58, 32, 37, 100, 10]), (.var ("result".toList))]))
  (.seq (.ret (some (.num 0)))
  .skip)))))))))]

set_option maxRecDepth 50000 in
theorem show_checks : Program.isSame showProg (refParse prec showText) = true ∧ showProg.Tame ∧ showProg.Clear ∧
    (Program.Scoped Env.empty showProg ∧ ∀ d ∈ showProg, d.CasesOk) := by
  decide_text showText

attribute [irreducible] showText

/-- the globals of its module -/
def showGlobals : List (List Char × GInit) :=
[(['b', '.', 'f', 'i', 'b', 'o', 'n', 'a', 'c', 'c', 'i', '_', 'c', 'a', 'c', 'h', 'e'],
  GInit.arr
    21
    [Const.addr
       ['b', '.', 'f', 'i', 'b', 'o', 'n', 'a', 'c', 'c', 'i', '_', 'c', 'a', 'c', 'h', 'e']
       (Ty.arr 21)
       1,
     Const.int 0x0000000000000000#64,
     Const.int 0x0000000000000001#64,
     Const.int 0x0000000000000000#64,
     Const.int 0x0000000000000000#64,
     Const.int 0x0000000000000000#64,
     Const.int 0x0000000000000000#64,
     Const.int 0x0000000000000000#64,
     Const.int 0x0000000000000000#64,
     Const.int 0x0000000000000000#64,
     Const.int 0x0000000000000000#64,
     Const.int 0x0000000000000000#64,
     Const.int 0x0000000000000000#64,
     Const.int 0x0000000000000000#64,
     Const.int 0x0000000000000000#64,
     Const.int 0x0000000000000000#64,
     Const.int 0x0000000000000000#64,
     Const.int 0x0000000000000000#64,
     Const.int 0x0000000000000000#64,
     Const.int 0x0000000000000000#64,
     Const.int 0x0000000000000000#64]),
 (['.', 's', 't', 'r', '.', '0'],
  GInit.bytes
    [0x46#8,
     0x69#8,
     0x62#8,
     0x6f#8,
     0x6e#8,
     0x61#8,
     0x63#8,
     0x63#8,
     0x69#8,
     0x28#8,
     0x35#8,
     0x29#8,
     0x20#8,
     0x3d#8,
     0x20#8,
     0x25#8,
     0x64#8,
     0x0a#8,
     0x00#8]),
 (['.', 's', 't', 'r', '.', '1'],
  GInit.bytes
    [0x46#8,
     0x69#8,
     0x62#8,
     0x6f#8,
     0x6e#8,
     0x61#8,
     0x63#8,
     0x63#8,
     0x69#8,
     0x28#8,
     0x31#8,
     0x30#8,
     0x29#8,
     0x20#8,
     0x3d#8,
     0x20#8,
     0x25#8,
     0x64#8,
     0x0a#8,
     0x00#8]),
 (['.', 's', 't', 'r', '.', '2'],
  GInit.bytes
    [0x4f#8,
     0x70#8,
     0x65#8,
     0x72#8,
     0x61#8,
     0x74#8,
     0x6f#8,
     0x72#8,
     0x20#8,
     0x74#8,
     0x65#8,
     0x73#8,
     0x74#8,
     0x20#8,
     0x72#8,
     0x65#8,
     0x73#8,
     0x75#8,
     0x6c#8,
     0x74#8,
     0x3a#8,
     0x20#8,
     0x25#8,
     0x64#8,
     0x0a#8,
     0x00#8]),
 (['.', 's', 't', 'r', '.', '3'],
  GInit.bytes
    [0x41#8,
     0x72#8,
     0x72#8,
     0x61#8,
     0x79#8,
     0x20#8,
     0x74#8,
     0x65#8,
     0x73#8,
     0x74#8,
     0x20#8,
     0x72#8,
     0x65#8,
     0x73#8,
     0x75#8,
     0x6c#8,
     0x74#8,
     0x3a#8,
     0x20#8,
     0x25#8,
     0x64#8,
     0x0a#8,
     0x00#8])]

set_option maxRecDepth 20000 in
theorem show_globals : globalsAre showProg showGlobals = true := by decide +kernel

/-- what it prints -/
def showOut : List Char := "Fibonacci(5) = 5\nFibonacci(10) = 55\nOperator test result: 0\nArray test result: 180\n".toList

set_option maxRecDepth 20000 in
theorem show_run : Interp.run showProg showGlobals 21 400 8 2 = some (codes showOut) := by decide +kernel

/-- C74. `examples/showcase.b` is accepted, and on every machine with room for its variables the process writes the four lines that the program is
to write and ends with status 0. -/
theorem C74_showcase : ∃ m, compileText showText .eof = .ok m ∧ ∀ (C : Computer) (L : Library), Module.Links m C.addr → Module.Scattered m C.addr →
    ∀ σ : Store C.machine.World, (C.see σ).fout = 0 → Module.DataIn m C.addr σ.mem → C.Roomy 21 8 σ.world.1 (Module.Occupies m C.addr) →
    Module.Outputs m C (C.calls L.Runs) σ (codes showOut) := by
  obtain ⟨m, hm, ht⟩ : ∃ m, compileText showText .eof = .ok m ∧ TreeOf showText showProg m :=
    careful_module (refParse_sound (Program.eq_of_same show_checks.1)) show_checks.2.2.1 show_checks.2.2.2
  refine ⟨m, hm, fun C L hk hs σ h0 hd hroom => ?_⟩
  exact C99_interpreted ht show_checks.2.1 (by rw [globalsAre_sound ht show_globals]; exact show_run) L hk σ h0 hd hs hroom

end Blang.Props
