import Verif.Props.TestProgramsA
import Verif.Props.TestProgramsB
import Verif.Props.TestProgramsC
import Verif.Props.TestProgramsD
import Verif.Props.TestProgramsE
import Verif.Props.TestProgramsF
import Verif.Props.TestProgramsG
import Verif.Props.TestProgramsH
import Verif.Props.TestProgramsI
import Verif.Props.TestProgramsJ
import Verif.Props.TestProgramsK
import Verif.Props.TestProgramsL
import Verif.Props.TestProgramsM
import Verif.Props.TestProgramsN
import Verif.Props.TestProgramsO
import Verif.Props.TestProgramsP
/-
Property C100: all test programs.
-/
namespace Blang.Props
open Blang Blang.Spec

/-- 80 tests of `/repo/lang_prog_test.go` and `/repo/lang_expr_test.go`: the text of a program and what the test expects it to write -/
def testPrograms : List (List Char × List Char) :=
  testProgramsA ++ (testProgramsB ++ (testProgramsC ++ (testProgramsD ++ (testProgramsE ++ (testProgramsF ++ (testProgramsG ++ (testProgramsH ++ (testProgramsI ++ (testProgramsJ ++ (testProgramsK ++ (testProgramsL ++ (testProgramsM ++ (testProgramsN ++ (testProgramsO ++ (testProgramsP)))))))))))))))

/-- C100. Every test program is accepted, and on every machine with room for its variables its process writes exactly what the test expects
and ends with status 0. -/
theorem C100_test_programs : ∀ t ∈ testPrograms, WritesOnAll t.1 t.2 40 40 :=
  AllWrite.append testProgramsA_write (AllWrite.append testProgramsB_write (AllWrite.append testProgramsC_write (AllWrite.append testProgramsD_write (AllWrite.append testProgramsE_write (AllWrite.append testProgramsF_write (AllWrite.append testProgramsG_write (AllWrite.append testProgramsH_write (AllWrite.append testProgramsI_write (AllWrite.append testProgramsJ_write (AllWrite.append testProgramsK_write (AllWrite.append testProgramsL_write (AllWrite.append testProgramsM_write (AllWrite.append testProgramsN_write (AllWrite.append testProgramsO_write (testProgramsP_write)))))))))))))))

end Blang.Props
