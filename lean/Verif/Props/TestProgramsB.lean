import Verif.Props.TestPrograms
/-
Property C100: test programs of the repository.
-/
namespace Blang.Props
open Blang Blang.Spec

/-- the test `assign_divide` -/
def assignDivideText : List Char := "main() { auto x; x = 15; x =/ 3; printf(\"%d*n\", x); }".toList

/-- its syntax tree -/
def assignDivideProg : Program :=
[.func ("main".toList) [] (.seq (.auto [(("x".toList), none)])
  (.seq (.expr (.assign none (.var ("x".toList)) (.num 15)))
  (.seq (.expr (.assign (some .div) (.var ("x".toList)) (.num 3)))
  (.seq (.expr (.callName ("printf".toList) [(.str [37, 100, 10]), (.var ("x".toList))]))
  .skip))))]

set_option maxRecDepth 50000 in
theorem assignDivide_checks : Program.isSame assignDivideProg (refParse prec assignDivideText) = true ∧ assignDivideProg.Tame ∧ assignDivideProg.Clear ∧
    (Program.Scoped Env.empty assignDivideProg ∧ ∀ d ∈ assignDivideProg, d.CasesOk) := by
  decide_text assignDivideText

attribute [irreducible] assignDivideText

/-- the globals of its module -/
def assignDivideGlobals : List (List Char × GInit) :=
[((".str.0".toList), Blang.GInit.bytes [0x25#8, 0x64#8, 0x0a#8, 0x00#8])]

set_option maxRecDepth 20000 in
theorem assignDivide_globals : globalsAre assignDivideProg assignDivideGlobals = true := by decide +kernel

/-- what the test expects -/
def assignDivideOut : List Char := "5\n".toList

set_option maxRecDepth 20000 in
theorem assignDivide_run : Interp.run assignDivideProg assignDivideGlobals 40 2000 40 6 = some (codes assignDivideOut) := by decide +kernel

/-- The process of the test `assign_divide` writes what the test expects. -/
theorem assignDivide_writes : WritesOnAll assignDivideText assignDivideOut 40 40 :=
  writes_of_run assignDivide_checks.1 assignDivide_checks.2.1 assignDivide_checks.2.2.1 assignDivide_checks.2.2.2 assignDivide_globals assignDivide_run

/-- the test `assign_equal` -/
def assignEqualText : List Char := "main() { auto x; x = 5; x === 5; printf(\"%d*n\", x); x = 5; x === 6; printf(\"%d*n\", x); }".toList

/-- its syntax tree -/
def assignEqualProg : Program :=
[.func ("main".toList) [] (.seq (.auto [(("x".toList), none)])
  (.seq (.expr (.assign none (.var ("x".toList)) (.num 5)))
  (.seq (.expr (.assign (some .eq) (.var ("x".toList)) (.num 5)))
  (.seq (.expr (.callName ("printf".toList) [(.str [37, 100, 10]), (.var ("x".toList))]))
  (.seq (.expr (.assign none (.var ("x".toList)) (.num 5)))
  (.seq (.expr (.assign (some .eq) (.var ("x".toList)) (.num 6)))
  (.seq (.expr (.callName ("printf".toList) [(.str [37, 100, 10]), (.var ("x".toList))]))
  .skip)))))))]

set_option maxRecDepth 50000 in
theorem assignEqual_checks : Program.isSame assignEqualProg (refParse prec assignEqualText) = true ∧ assignEqualProg.Tame ∧ assignEqualProg.Clear ∧
    (Program.Scoped Env.empty assignEqualProg ∧ ∀ d ∈ assignEqualProg, d.CasesOk) := by
  decide_text assignEqualText

attribute [irreducible] assignEqualText

/-- the globals of its module -/
def assignEqualGlobals : List (List Char × GInit) :=
[((".str.0".toList), Blang.GInit.bytes [0x25#8, 0x64#8, 0x0a#8, 0x00#8]),
 ((".str.1".toList), Blang.GInit.bytes [0x25#8, 0x64#8, 0x0a#8, 0x00#8])]

set_option maxRecDepth 20000 in
theorem assignEqual_globals : globalsAre assignEqualProg assignEqualGlobals = true := by decide +kernel

/-- what the test expects -/
def assignEqualOut : List Char := "1\n0\n".toList

set_option maxRecDepth 20000 in
theorem assignEqual_run : Interp.run assignEqualProg assignEqualGlobals 40 2000 40 6 = some (codes assignEqualOut) := by decide +kernel

/-- The process of the test `assign_equal` writes what the test expects. -/
theorem assignEqual_writes : WritesOnAll assignEqualText assignEqualOut 40 40 :=
  writes_of_run assignEqual_checks.1 assignEqual_checks.2.1 assignEqual_checks.2.2.1 assignEqual_checks.2.2.2 assignEqual_globals assignEqual_run

/-- the test `assign_greater_or_equal` -/
def assignGreaterOrEqualText : List Char := "main() { auto x; x = 3; x =>= 5; printf(\"%d*n\", x); x = 5; x =>= 5; printf(\"%d*n\", x); }".toList

/-- its syntax tree -/
def assignGreaterOrEqualProg : Program :=
[.func ("main".toList) [] (.seq (.auto [(("x".toList), none)])
  (.seq (.expr (.assign none (.var ("x".toList)) (.num 3)))
  (.seq (.expr (.assign (some .ge) (.var ("x".toList)) (.num 5)))
  (.seq (.expr (.callName ("printf".toList) [(.str [37, 100, 10]), (.var ("x".toList))]))
  (.seq (.expr (.assign none (.var ("x".toList)) (.num 5)))
  (.seq (.expr (.assign (some .ge) (.var ("x".toList)) (.num 5)))
  (.seq (.expr (.callName ("printf".toList) [(.str [37, 100, 10]), (.var ("x".toList))]))
  .skip)))))))]

set_option maxRecDepth 50000 in
theorem assignGreaterOrEqual_checks : Program.isSame assignGreaterOrEqualProg (refParse prec assignGreaterOrEqualText) = true ∧ assignGreaterOrEqualProg.Tame ∧ assignGreaterOrEqualProg.Clear ∧
    (Program.Scoped Env.empty assignGreaterOrEqualProg ∧ ∀ d ∈ assignGreaterOrEqualProg, d.CasesOk) := by
  decide_text assignGreaterOrEqualText

attribute [irreducible] assignGreaterOrEqualText

/-- the globals of its module -/
def assignGreaterOrEqualGlobals : List (List Char × GInit) :=
[((".str.0".toList), Blang.GInit.bytes [0x25#8, 0x64#8, 0x0a#8, 0x00#8]),
 ((".str.1".toList), Blang.GInit.bytes [0x25#8, 0x64#8, 0x0a#8, 0x00#8])]

set_option maxRecDepth 20000 in
theorem assignGreaterOrEqual_globals : globalsAre assignGreaterOrEqualProg assignGreaterOrEqualGlobals = true := by decide +kernel

/-- what the test expects -/
def assignGreaterOrEqualOut : List Char := "0\n1\n".toList

set_option maxRecDepth 20000 in
theorem assignGreaterOrEqual_run : Interp.run assignGreaterOrEqualProg assignGreaterOrEqualGlobals 40 2000 40 6 = some (codes assignGreaterOrEqualOut) := by decide +kernel

/-- The process of the test `assign_greater_or_equal` writes what the test expects. -/
theorem assignGreaterOrEqual_writes : WritesOnAll assignGreaterOrEqualText assignGreaterOrEqualOut 40 40 :=
  writes_of_run assignGreaterOrEqual_checks.1 assignGreaterOrEqual_checks.2.1 assignGreaterOrEqual_checks.2.2.1 assignGreaterOrEqual_checks.2.2.2 assignGreaterOrEqual_globals assignGreaterOrEqual_run

/-- the test `assign_greater_than` -/
def assignGreaterThanText : List Char := "main() { auto x; x = 4; x => 5; printf(\"%d*n\", x); x = 6; x => 5; printf(\"%d*n\", x); }".toList

/-- its syntax tree -/
def assignGreaterThanProg : Program :=
[.func ("main".toList) [] (.seq (.auto [(("x".toList), none)])
  (.seq (.expr (.assign none (.var ("x".toList)) (.num 4)))
  (.seq (.expr (.assign (some .gt) (.var ("x".toList)) (.num 5)))
  (.seq (.expr (.callName ("printf".toList) [(.str [37, 100, 10]), (.var ("x".toList))]))
  (.seq (.expr (.assign none (.var ("x".toList)) (.num 6)))
  (.seq (.expr (.assign (some .gt) (.var ("x".toList)) (.num 5)))
  (.seq (.expr (.callName ("printf".toList) [(.str [37, 100, 10]), (.var ("x".toList))]))
  .skip)))))))]

set_option maxRecDepth 50000 in
theorem assignGreaterThan_checks : Program.isSame assignGreaterThanProg (refParse prec assignGreaterThanText) = true ∧ assignGreaterThanProg.Tame ∧ assignGreaterThanProg.Clear ∧
    (Program.Scoped Env.empty assignGreaterThanProg ∧ ∀ d ∈ assignGreaterThanProg, d.CasesOk) := by
  decide_text assignGreaterThanText

attribute [irreducible] assignGreaterThanText

/-- the globals of its module -/
def assignGreaterThanGlobals : List (List Char × GInit) :=
[((".str.0".toList), Blang.GInit.bytes [0x25#8, 0x64#8, 0x0a#8, 0x00#8]),
 ((".str.1".toList), Blang.GInit.bytes [0x25#8, 0x64#8, 0x0a#8, 0x00#8])]

set_option maxRecDepth 20000 in
theorem assignGreaterThan_globals : globalsAre assignGreaterThanProg assignGreaterThanGlobals = true := by decide +kernel

/-- what the test expects -/
def assignGreaterThanOut : List Char := "0\n1\n".toList

set_option maxRecDepth 20000 in
theorem assignGreaterThan_run : Interp.run assignGreaterThanProg assignGreaterThanGlobals 40 2000 40 6 = some (codes assignGreaterThanOut) := by decide +kernel

/-- The process of the test `assign_greater_than` writes what the test expects. -/
theorem assignGreaterThan_writes : WritesOnAll assignGreaterThanText assignGreaterThanOut 40 40 :=
  writes_of_run assignGreaterThan_checks.1 assignGreaterThan_checks.2.1 assignGreaterThan_checks.2.2.1 assignGreaterThan_checks.2.2.2 assignGreaterThan_globals assignGreaterThan_run

/-- the test `assign_less_or_equal` -/
def assignLessOrEqualText : List Char := "main() { auto x; x = 5; x =<= 3; printf(\"%d*n\", x); x = 2; x =<= 3; printf(\"%d*n\", x); }".toList

/-- its syntax tree -/
def assignLessOrEqualProg : Program :=
[.func ("main".toList) [] (.seq (.auto [(("x".toList), none)])
  (.seq (.expr (.assign none (.var ("x".toList)) (.num 5)))
  (.seq (.expr (.assign (some .le) (.var ("x".toList)) (.num 3)))
  (.seq (.expr (.callName ("printf".toList) [(.str [37, 100, 10]), (.var ("x".toList))]))
  (.seq (.expr (.assign none (.var ("x".toList)) (.num 2)))
  (.seq (.expr (.assign (some .le) (.var ("x".toList)) (.num 3)))
  (.seq (.expr (.callName ("printf".toList) [(.str [37, 100, 10]), (.var ("x".toList))]))
  .skip)))))))]

set_option maxRecDepth 50000 in
theorem assignLessOrEqual_checks : Program.isSame assignLessOrEqualProg (refParse prec assignLessOrEqualText) = true ∧ assignLessOrEqualProg.Tame ∧ assignLessOrEqualProg.Clear ∧
    (Program.Scoped Env.empty assignLessOrEqualProg ∧ ∀ d ∈ assignLessOrEqualProg, d.CasesOk) := by
  decide_text assignLessOrEqualText

attribute [irreducible] assignLessOrEqualText

/-- the globals of its module -/
def assignLessOrEqualGlobals : List (List Char × GInit) :=
[((".str.0".toList), Blang.GInit.bytes [0x25#8, 0x64#8, 0x0a#8, 0x00#8]),
 ((".str.1".toList), Blang.GInit.bytes [0x25#8, 0x64#8, 0x0a#8, 0x00#8])]

set_option maxRecDepth 20000 in
theorem assignLessOrEqual_globals : globalsAre assignLessOrEqualProg assignLessOrEqualGlobals = true := by decide +kernel

/-- what the test expects -/
def assignLessOrEqualOut : List Char := "0\n1\n".toList

set_option maxRecDepth 20000 in
theorem assignLessOrEqual_run : Interp.run assignLessOrEqualProg assignLessOrEqualGlobals 40 2000 40 6 = some (codes assignLessOrEqualOut) := by decide +kernel

/-- The process of the test `assign_less_or_equal` writes what the test expects. -/
theorem assignLessOrEqual_writes : WritesOnAll assignLessOrEqualText assignLessOrEqualOut 40 40 :=
  writes_of_run assignLessOrEqual_checks.1 assignLessOrEqual_checks.2.1 assignLessOrEqual_checks.2.2.1 assignLessOrEqual_checks.2.2.2 assignLessOrEqual_globals assignLessOrEqual_run

/-- the test `assign_less_than` -/
def assignLessThanText : List Char := "main() { auto x; x = 5; x =< 5; printf(\"%d*n\", x); x = 4; x =< 5; printf(\"%d*n\", x); }".toList

/-- its syntax tree -/
def assignLessThanProg : Program :=
[.func ("main".toList) [] (.seq (.auto [(("x".toList), none)])
  (.seq (.expr (.assign none (.var ("x".toList)) (.num 5)))
  (.seq (.expr (.assign (some .lt) (.var ("x".toList)) (.num 5)))
  (.seq (.expr (.callName ("printf".toList) [(.str [37, 100, 10]), (.var ("x".toList))]))
  (.seq (.expr (.assign none (.var ("x".toList)) (.num 4)))
  (.seq (.expr (.assign (some .lt) (.var ("x".toList)) (.num 5)))
  (.seq (.expr (.callName ("printf".toList) [(.str [37, 100, 10]), (.var ("x".toList))]))
  .skip)))))))]

set_option maxRecDepth 50000 in
theorem assignLessThan_checks : Program.isSame assignLessThanProg (refParse prec assignLessThanText) = true ∧ assignLessThanProg.Tame ∧ assignLessThanProg.Clear ∧
    (Program.Scoped Env.empty assignLessThanProg ∧ ∀ d ∈ assignLessThanProg, d.CasesOk) := by
  decide_text assignLessThanText

attribute [irreducible] assignLessThanText

/-- the globals of its module -/
def assignLessThanGlobals : List (List Char × GInit) :=
[((".str.0".toList), Blang.GInit.bytes [0x25#8, 0x64#8, 0x0a#8, 0x00#8]),
 ((".str.1".toList), Blang.GInit.bytes [0x25#8, 0x64#8, 0x0a#8, 0x00#8])]

set_option maxRecDepth 20000 in
theorem assignLessThan_globals : globalsAre assignLessThanProg assignLessThanGlobals = true := by decide +kernel

/-- what the test expects -/
def assignLessThanOut : List Char := "0\n1\n".toList

set_option maxRecDepth 20000 in
theorem assignLessThan_run : Interp.run assignLessThanProg assignLessThanGlobals 40 2000 40 6 = some (codes assignLessThanOut) := by decide +kernel

/-- The process of the test `assign_less_than` writes what the test expects. -/
theorem assignLessThan_writes : WritesOnAll assignLessThanText assignLessThanOut 40 40 :=
  writes_of_run assignLessThan_checks.1 assignLessThan_checks.2.1 assignLessThan_checks.2.2.1 assignLessThan_checks.2.2.2 assignLessThan_globals assignLessThan_run

/-- the test `assign_modulo` -/
def assignModuloText : List Char := "main() { auto x; x = 17; x =% 5; printf(\"%d*n\", x); }".toList

/-- its syntax tree -/
def assignModuloProg : Program :=
[.func ("main".toList) [] (.seq (.auto [(("x".toList), none)])
  (.seq (.expr (.assign none (.var ("x".toList)) (.num 17)))
  (.seq (.expr (.assign (some .mod) (.var ("x".toList)) (.num 5)))
  (.seq (.expr (.callName ("printf".toList) [(.str [37, 100, 10]), (.var ("x".toList))]))
  .skip))))]

set_option maxRecDepth 50000 in
theorem assignModulo_checks : Program.isSame assignModuloProg (refParse prec assignModuloText) = true ∧ assignModuloProg.Tame ∧ assignModuloProg.Clear ∧
    (Program.Scoped Env.empty assignModuloProg ∧ ∀ d ∈ assignModuloProg, d.CasesOk) := by
  decide_text assignModuloText

attribute [irreducible] assignModuloText

/-- the globals of its module -/
def assignModuloGlobals : List (List Char × GInit) :=
[((".str.0".toList), Blang.GInit.bytes [0x25#8, 0x64#8, 0x0a#8, 0x00#8])]

set_option maxRecDepth 20000 in
theorem assignModulo_globals : globalsAre assignModuloProg assignModuloGlobals = true := by decide +kernel

/-- what the test expects -/
def assignModuloOut : List Char := "2\n".toList

set_option maxRecDepth 20000 in
theorem assignModulo_run : Interp.run assignModuloProg assignModuloGlobals 40 2000 40 6 = some (codes assignModuloOut) := by decide +kernel

/-- The process of the test `assign_modulo` writes what the test expects. -/
theorem assignModulo_writes : WritesOnAll assignModuloText assignModuloOut 40 40 :=
  writes_of_run assignModulo_checks.1 assignModulo_checks.2.1 assignModulo_checks.2.2.1 assignModulo_checks.2.2.2 assignModulo_globals assignModulo_run

/-- the test `assign_multiply` -/
def assignMultiplyText : List Char := "main() { auto x; x = 4; x =* 3; printf(\"%d*n\", x); }".toList

/-- its syntax tree -/
def assignMultiplyProg : Program :=
[.func ("main".toList) [] (.seq (.auto [(("x".toList), none)])
  (.seq (.expr (.assign none (.var ("x".toList)) (.num 4)))
  (.seq (.expr (.assign (some .mul) (.var ("x".toList)) (.num 3)))
  (.seq (.expr (.callName ("printf".toList) [(.str [37, 100, 10]), (.var ("x".toList))]))
  .skip))))]

set_option maxRecDepth 50000 in
theorem assignMultiply_checks : Program.isSame assignMultiplyProg (refParse prec assignMultiplyText) = true ∧ assignMultiplyProg.Tame ∧ assignMultiplyProg.Clear ∧
    (Program.Scoped Env.empty assignMultiplyProg ∧ ∀ d ∈ assignMultiplyProg, d.CasesOk) := by
  decide_text assignMultiplyText

attribute [irreducible] assignMultiplyText

/-- the globals of its module -/
def assignMultiplyGlobals : List (List Char × GInit) :=
[((".str.0".toList), Blang.GInit.bytes [0x25#8, 0x64#8, 0x0a#8, 0x00#8])]

set_option maxRecDepth 20000 in
theorem assignMultiply_globals : globalsAre assignMultiplyProg assignMultiplyGlobals = true := by decide +kernel

/-- what the test expects -/
def assignMultiplyOut : List Char := "12\n".toList

set_option maxRecDepth 20000 in
theorem assignMultiply_run : Interp.run assignMultiplyProg assignMultiplyGlobals 40 2000 40 6 = some (codes assignMultiplyOut) := by decide +kernel

/-- The process of the test `assign_multiply` writes what the test expects. -/
theorem assignMultiply_writes : WritesOnAll assignMultiplyText assignMultiplyOut 40 40 :=
  writes_of_run assignMultiply_checks.1 assignMultiply_checks.2.1 assignMultiply_checks.2.2.1 assignMultiply_checks.2.2.2 assignMultiply_globals assignMultiply_run

/-- the test `assign_not_equal` -/
def assignNotEqualText : List Char := "main() { auto x; x = 5; x =!= 5; printf(\"%d*n\", x); x = 5; x =!= 3; printf(\"%d*n\", x); }".toList

/-- its syntax tree -/
def assignNotEqualProg : Program :=
[.func ("main".toList) [] (.seq (.auto [(("x".toList), none)])
  (.seq (.expr (.assign none (.var ("x".toList)) (.num 5)))
  (.seq (.expr (.assign (some .ne) (.var ("x".toList)) (.num 5)))
  (.seq (.expr (.callName ("printf".toList) [(.str [37, 100, 10]), (.var ("x".toList))]))
  (.seq (.expr (.assign none (.var ("x".toList)) (.num 5)))
  (.seq (.expr (.assign (some .ne) (.var ("x".toList)) (.num 3)))
  (.seq (.expr (.callName ("printf".toList) [(.str [37, 100, 10]), (.var ("x".toList))]))
  .skip)))))))]

set_option maxRecDepth 50000 in
theorem assignNotEqual_checks : Program.isSame assignNotEqualProg (refParse prec assignNotEqualText) = true ∧ assignNotEqualProg.Tame ∧ assignNotEqualProg.Clear ∧
    (Program.Scoped Env.empty assignNotEqualProg ∧ ∀ d ∈ assignNotEqualProg, d.CasesOk) := by
  decide_text assignNotEqualText

attribute [irreducible] assignNotEqualText

/-- the globals of its module -/
def assignNotEqualGlobals : List (List Char × GInit) :=
[((".str.0".toList), Blang.GInit.bytes [0x25#8, 0x64#8, 0x0a#8, 0x00#8]),
 ((".str.1".toList), Blang.GInit.bytes [0x25#8, 0x64#8, 0x0a#8, 0x00#8])]

set_option maxRecDepth 20000 in
theorem assignNotEqual_globals : globalsAre assignNotEqualProg assignNotEqualGlobals = true := by decide +kernel

/-- what the test expects -/
def assignNotEqualOut : List Char := "0\n1\n".toList

set_option maxRecDepth 20000 in
theorem assignNotEqual_run : Interp.run assignNotEqualProg assignNotEqualGlobals 40 2000 40 6 = some (codes assignNotEqualOut) := by decide +kernel

/-- The process of the test `assign_not_equal` writes what the test expects. -/
theorem assignNotEqual_writes : WritesOnAll assignNotEqualText assignNotEqualOut 40 40 :=
  writes_of_run assignNotEqual_checks.1 assignNotEqual_checks.2.1 assignNotEqual_checks.2.2.1 assignNotEqual_checks.2.2.2 assignNotEqual_globals assignNotEqual_run

/-- the tests of this file: the text of a program and what the test expects it to write -/
def testProgramsB : List (List Char × List Char) :=
  [(assignDivideText, assignDivideOut), (assignEqualText, assignEqualOut), (assignGreaterOrEqualText, assignGreaterOrEqualOut), (assignGreaterThanText, assignGreaterThanOut), (assignLessOrEqualText, assignLessOrEqualOut), (assignLessThanText, assignLessThanOut), (assignModuloText, assignModuloOut), (assignMultiplyText, assignMultiplyOut), (assignNotEqualText, assignNotEqualOut)]

theorem testProgramsB_write : AllWrite testProgramsB :=
  .cons assignDivide_writes (.cons assignEqual_writes (.cons assignGreaterOrEqual_writes (.cons assignGreaterThan_writes (.cons assignLessOrEqual_writes (.cons assignLessThan_writes (.cons assignModulo_writes (.cons assignMultiply_writes (.cons assignNotEqual_writes (.nil)))))))))

end Blang.Props
