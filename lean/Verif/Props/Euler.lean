import Verif.Props.Fizzbuzz
/-
C75: `examples/e-2.b`, from its text to what the process writes: 4000 digits of e - 2.
-/
namespace Blang.Props
open Blang Blang.Spec

/-- examples/e-2.b -/
def eulerText : List Char := "/* The following program will calculate the constant e-2 to about
   4000 decimal digits, and print it 50 characters to the line in
   groups of 5 characters.  The method is simple output conversion
   of the expansion
     1/2! + 1/3! + ... = .111....
   where the bases of the digits are 2, 3, 4, . . . */

main() {
    extrn n, v;
    auto i, c, col, a;

    i = col = 0;
    while (i < n) {
        v[i++] = 1;
    }
    while (col < 2 * n) {
        a = n + 1;
        c = i = 0;
        while (i < n) {
            c =+ v[i] * 10;
            v[i++] = c % a;
            c = c / a;
            a = a - 1;
        }

        write(c + '0');
        if (!(++col % 5)) {
            write(col % 50 ? ' ' : '*n');
        }
    }
    write('*n*n');
}
v[2000];
n 2000;
".toList

def vI : Ex := .var "i".toList
def vC : Ex := .var "c".toList
def vCol : Ex := .var "col".toList
def vA : Ex := .var "a".toList
def vN : Ex := .var "n".toList
def vV : Ex := .var "v".toList

def eulerFill : St := .seq (.expr (.assign none (.index vV (.post .inc vI)) (.num 1))) .skip

def eulerCarry : St :=
  .seq (.expr (.assign (some .add) vC (.bin .mul (.index vV vI) (.num 10))))
  (.seq (.expr (.assign none (.index vV (.post .inc vI)) (.bin .mod vC vA)))
  (.seq (.expr (.assign none vC (.bin .div vC vA)))
  (.seq (.expr (.assign none vA (.bin .sub vA (.num 1)))) .skip)))

def eulerSep : St := .seq (.expr (.callName "write".toList [.cond (.bin .mod vCol (.num 50)) (.num 32) (.num 10)])) .skip

def eulerDigit : St :=
  .seq (.expr (.assign none vA (.bin .add vN (.num 1))))
  (.seq (.expr (.assign none vC (.assign none vI (.num 0))))
  (.seq (.while (.bin .lt vI vN) eulerCarry)
  (.seq (.expr (.callName "write".toList [.bin .add vC (.num 48)]))
  (.seq (.ifThen (.not (.paren (.bin .mod (.pre .inc vCol) (.num 5)))) eulerSep) .skip))))

def eulerVars : List (Ident × Option Word) := [("i".toList, none), ("c".toList, none), ("col".toList, none), ("a".toList, none)]

def eulerMain : St :=
  .seq (.extrn ["n".toList, "v".toList])
  (.seq (.auto eulerVars)
  (.seq (.expr (.assign none vI (.assign none vCol (.num 0))))
  (.seq (.while (.bin .lt vI vN) eulerFill)
  (.seq (.while (.bin .lt vCol (.bin .mul (.num 2) vN)) eulerDigit)
  (.seq (wr "\n\n".toList) .skip)))))

def eulerProg : Program := [.func "main".toList [] eulerMain, .vector "v".toList 2000 [], .global "n".toList [.int 2000]]

set_option maxRecDepth 20000 in
theorem euler_checks : Program.isSame eulerProg (refParse prec eulerText) = true ∧ eulerProg.Tame ∧ eulerProg.Clear ∧
    (Program.Scoped Env.empty eulerProg ∧ ∀ d ∈ eulerProg, d.CasesOk) := by
  decide_text eulerText

attribute [irreducible] eulerText

theorem euler_module : ∃ m, compileText eulerText .eof = .ok m ∧ TreeOf eulerText eulerProg m :=
  careful_module (refParse_sound (Program.eq_of_same euler_checks.1)) euler_checks.2.2.1 euler_checks.2.2.2

end Blang.Props
