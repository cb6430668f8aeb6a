import Verif.Model.MapOrder
import Verif.Proofs.Loop
import Verif.Proofs.SoundExpr
/-
Property C52: the result does not depend on Go's map iteration order.
-/
namespace Blang.Props
open Blang

/-- whatever a lexer function does, the compiler state stays -/
theorem lx_c {α : Type} {f : L α} {s s' : PS} {a : α} (h : lx f s = .ok a s') : s'.c = s.c := by
  unfold lx at h
  cases h1 : f s.lex with
  | ok b l => rw [h1] at h; simp at h; rw [← h.2]
  | err e => rw [h1] at h; cases h

theorem perm_startFunction {ord : CState → List (Name × Val)} (ho : IterOrder ord) {c : CState} {fn : Func}
    (hc : c.functions.length ≤ 1) : startFunctionOrd ord fn c = startFunction fn c := by
  have key : ∀ c' : CState, c'.functions = c.functions → ord c' = c'.functions := by
    intro c' he
    have := ho c'
    rw [he] at this ⊢
    match hl : c.functions with
    | [] => rw [hl] at this; exact this.eq_nil
    | [x] => rw [hl] at this; exact List.perm_singleton.1 this
    | x :: y :: l => rw [hl] at hc; simp at hc
  unfold startFunctionOrd startFunction
  rw [M.bind_ok (M.modify_apply _ _), M.bind_ok (M.modify_apply _ _), M.bind_ok (M.get_apply _), M.bind_ok (M.get_apply _)]
  rw [key { c with curSym := fn.sym, locals := [], labels := [], blocks := [⟨"entry".toList, [], none⟩], cur := 0 } rfl]
  show _ = _
  generalize startParams (CState.functions _) (CState.functionParams _) fn.val = l
  match l with
  | [] => rfl
  | [_] => rfl
  | _ :: _ :: _ => rfl

theorem perm_declBody {ord : CState → List (Name × Val)} (ho : IterOrder ord) (n : Nat) {s : PS}
    (hc : s.c.functions = []) : declBodyOrd ord n () s = declBody n () s := by
  unfold declBodyOrd declBody
  rw [M.bind_apply, M.bind_apply]
  cases h1 : lx identifier s with
  | err e => rfl
  | ok name s1 =>
    have c1 := lx_c h1
    dsimp only
    split
    · rfl
    · rw [M.bind_apply, M.bind_apply]
      cases h2 : lx readChar s1 with
      | err e => rfl
      | ok r s2 =>
        have c2 := lx_c h2
        dsimp only
        cases r with
        | eof => rfl
        | io => rfl
        | ch ch =>
          dsimp only
          rw [M.bind_apply, M.bind_apply]
          have : parseDeclOrd ord n name ch s2 = parseDecl n name ch s2 := by
            unfold parseDeclOrd parseDecl
            split
            · unfold parseFunctionOrd parseFunction
              rw [M.bind_apply, M.bind_apply]
              cases h3 : lx readOrErr s2 with
              | err e => rfl
              | ok c3 s3 =>
                have e3 := lx_c h3
                dsimp only
                rw [M.bind_apply, M.bind_apply]
                cases h4 : lx (paramList n c3) s3 with
                | err e => rfl
                | ok ps s4 =>
                  have e4 := lx_c h4
                  dsimp only
                  rw [M.bind_apply, M.bind_apply]
                  cases h5 : bd (declareFunction name ps) s4 with
                  | err e => rfl
                  | ok fn s5 =>
                    dsimp only
                    have e5 : s5.c.functions.length ≤ 1 := by
                      unfold bd at h5
                      simp only [declareFunction, R.ok.injEq] at h5
                      rw [← h5.2]
                      have : s4.c.functions = [] := by rw [e4, e3, c2, c1, hc]
                      simp [insert, newFunc, removeFuncByName, this]
                    rw [M.bind_apply, M.bind_apply]
                    have : bd (startFunctionOrd ord fn) s5 = bd (startFunction fn) s5 := by
                      unfold bd; rw [perm_startFunction ho e5]
                    rw [this]
            · rfl
          rw [this]

/-- every declaration leaves the function table empty -/
theorem declBody_cleared {n : Nat} {s s' : PS} (h : declBody n () s = .ok (.next ()) s') : s'.c.functions = [] := by
  unfold declBody at h
  obind h name s1 h1
  replace h := ite_ok h
  rcases h with ⟨_, h⟩ | ⟨_, h⟩
  · obind h r s2 h2
    cases r <;> cases h
  · obind h r s2 h2
    cases r with
    | eof => cases h
    | io => cases h
    | ch ch =>
      dsimp only at h
      obind h u s3 h3
      obind h u4 s4 h4
      simp at h; subst h
      unfold bd at h4
      simp [clearTopLevelContext] at h4
      rw [← h4]

theorem perm_loop {ord : CState → List (Name × Val)} (ho : IterOrder ord) (m n : Nat) : ∀ {s : PS}, s.c.functions = [] →
    loop m (declBodyOrd ord n) () s = loop m (declBody n) () s := by
  induction m with
  | zero => intro s _; rfl
  | succ m ih =>
    intro s hs
    rw [loop_succ, loop_succ, perm_declBody ho n hs]
    cases h : declBody n () s with
    | err e => rfl
    | ok it s' =>
      cases it with
      | done r => rfl
      | next u => exact ih (declBody_cleared h)

/-- C52. Whatever permutation of the function table each map iteration takes, the result of the
front end (module or error) is the same. -/
theorem C52_map_order (ord : CState → List (Name × Val)) (ho : IterOrder ord) (chars : List Char) (t : Tail) :
    compileTextOrd ord chars t = compileText chars t := by
  unfold compileTextOrd compileText parseDeclarations
  rw [perm_loop ho (fuelFor chars.length) (fuelFor chars.length) (s := ⟨⟨chars, t⟩, newCompiler⟩) rfl]
  cases loop (fuelFor chars.length) (declBody (fuelFor chars.length)) () ⟨⟨chars, t⟩, newCompiler⟩ <;> rfl

/-- reversing the table is such an order -/
example : IterOrder (fun c => c.functions.reverse) := fun _ => List.reverse_perm _

/-- and the result is a module in non-trivial cases -/
example : (match compileTextOrd (fun c => c.functions.reverse) "f(a,b){ return(a); } main(){ f(1,2); g(); }".toList .eof with
    | .ok m => m.funcs.length | .error _ => 0) = 5 := by decide +kernel

end Blang.Props
