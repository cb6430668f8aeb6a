import Verif.Proofs.Static
/-
The stages of generating a compound statement.
-/
namespace Blang
open Spec

/-- an instruction appended -/
def emitted (c : CState) (i : Inst) : CState :=
  { c with
    blocks := c.blocks.modify c.cur fun b => { b with insts := b.insts ++ [(c.nextReg, i)] }
    nextReg := c.nextReg + 1 }

theorem emit_eq (i : Inst) (c : CState) : emit i c = .ok (.reg c.nextReg) (emitted c i) := rfl

/-- the branch of `if` -/
def forkIf (c : CState) (v : Val) : CState :=
  withTerm (emitted (add3 (bump c) ("if.".toList ++ natDec c.labelID ++ ".then".toList)
    ("if.".toList ++ natDec c.labelID ++ ".else".toList) ("if.".toList ++ natDec c.labelID ++ ".end".toList))
    (.icmp .ne v (.const 0))) (.condbr (.reg c.nextReg) c.blocks.length (c.blocks.length + 1))

theorem ifStart_eq (v : Val) (c : CState) :
    ifStart v c = .ok (c.blocks.length, c.blocks.length + 1, c.blocks.length + 2) (forkIf c v) := by
  have e1 : (c.blocks ++ [(⟨"if.".toList ++ natDec c.labelID ++ ".then".toList, [], none⟩ : Block)]).length = c.blocks.length + 1 := by simp
  have e2 : (c.blocks ++ [(⟨"if.".toList ++ natDec c.labelID ++ ".then".toList, [], none⟩ : Block)] ++
    [(⟨"if.".toList ++ natDec c.labelID ++ ".else".toList, [], none⟩ : Block)]).length = c.blocks.length + 2 := by simp
  show R.ok _ _ = R.ok _ _
  congr 1
  · show (c.blocks.length, List.length (c.blocks ++ [_]), List.length (c.blocks ++ [_] ++ [_])) = _
    rw [e1, e2]
  · show withTerm _ _ = withTerm _ _
    congr 1
    · congr 1
      simp [add3, bump]
    · rw [e1]

/-- the start of `while` -/
def whileHead (c : CState) : CState :=
  goto' (withTerm (add3 (bump c) ("while.".toList ++ natDec c.labelID ++ ".cond".toList)
    ("while.".toList ++ natDec c.labelID ++ ".body".toList) ("while.".toList ++ natDec c.labelID ++ ".end".toList))
    (.br c.blocks.length)) c.blocks.length

theorem whileStart_eq (c : CState) :
    whileStart c = .ok (c.blocks.length, c.blocks.length + 1, c.blocks.length + 2) (whileHead c) := by
  show R.ok (c.blocks.length, List.length (c.blocks ++ [_]), List.length (c.blocks ++ [_] ++ [_])) _ = R.ok _ _
  congr 1
  · simp
  · simp [whileHead, goto', withTerm, add3, bump, List.append_assoc]

/-- the start of `switch` -/
def switchHead (c : CState) (id : Nat) : CState :=
  goto' (withTerm (add3 c ("switch.".toList ++ natDec id ++ ".stmts".toList)
    ("switch.".toList ++ natDec id ++ ".cmp".toList) ("switch.".toList ++ natDec id ++ ".end".toList))
    (.br (c.blocks.length + 1))) c.blocks.length

theorem switchStart_eq (id : Nat) (c : CState) :
    switchStart id c = .ok (c.blocks.length + 1, c.blocks.length + 2) (switchHead c id) := by
  show R.ok (List.length (c.blocks ++ [_]), List.length (c.blocks ++ [_] ++ [_])) _ = R.ok _ _
  congr 1
  · simp
  · simp [switchHead, goto', withTerm, add3, List.append_assoc]

theorem genSt_ifThen (cn : Ex) (t : St) : genSt (.ifThen cn t) = genSt (.ifElse cn t .skip) := by
  funext sw cs c
  simp only [genSt]
  rfl

section
variable {sw : Option Nat} {cs cs' : Cases} {c c' : CState}

theorem seq_run {s t : St} (h : genSt (.seq s t) sw cs c = .ok cs' c') :
    ∃ cs1 c1, genSt s sw cs c = .ok cs1 c1 ∧ genSt t sw cs1 c1 = .ok cs' c' := by
  simp only [genSt] at h
  obind h cs1 c1 h1
  exact ⟨cs1, c1, h1, h⟩

theorem if_run {cn : Ex} {t e : St} (h : genSt (.ifElse cn t e) sw cs c = .ok cs' c') :
    ∃ v c1 x3 c3 x5 c5, genR cn c = .ok v c1 ∧ genSt t none [] (goto' (forkIf c1 v) c1.blocks.length) = .ok x3 c3 ∧
      genSt e none [] (goto' (brTo c3 (c1.blocks.length + 2)) (c1.blocks.length + 1)) = .ok x5 c5 ∧
      c' = goto' (brTo c5 (c1.blocks.length + 2)) (c1.blocks.length + 2) ∧ cs' = cs := by
  simp only [genSt] at h
  obind h v c1 h1
  rw [M.bind_ok (ifStart_eq _ _)] at h
  simp only at h
  rw [M.bind_ok (setInsertPoint_eq _ _)] at h
  obind h x3 c3 h3
  rw [M.bind_ok (brIfOpen_eq _ _), M.bind_ok (setInsertPoint_eq _ _)] at h
  obind h x5 c5 h5
  rw [M.bind_ok (brIfOpen_eq _ _), M.bind_ok (setInsertPoint_eq _ _)] at h
  simp at h; obtain ⟨rfl, rfl⟩ := h
  exact ⟨v, c1, x3, c3, x5, c5, h1, h3, h5, rfl, rfl⟩

theorem while_run {cn : Ex} {b : St} (h : genSt (.while cn b) sw cs c = .ok cs' c') :
    ∃ v c1 x3 c3, genR cn (whileHead c) = .ok v c1 ∧
      genSt b none [] (goto' (withTerm (emitted c1 (.icmp .ne v (.const 0)))
        (.condbr (.reg c1.nextReg) (c.blocks.length + 1) (c.blocks.length + 2))) (c.blocks.length + 1)) = .ok x3 c3 ∧
      c' = goto' (brTo c3 c.blocks.length) (c.blocks.length + 2) ∧ cs' = cs := by
  simp only [genSt] at h
  rw [M.bind_ok (whileStart_eq _)] at h
  simp only at h
  obind h v c1 h1
  rw [M.bind_ok (emit_eq _ _), M.bind_ok (setTerm_eq _ _), M.bind_ok (setInsertPoint_eq _ _)] at h
  obind h x3 c3 h3
  rw [M.bind_ok (brIfOpen_eq _ _), M.bind_ok (setInsertPoint_eq _ _)] at h
  simp at h; obtain ⟨rfl, rfl⟩ := h
  exact ⟨v, c1, x3, c3, h1, h3, rfl, rfl⟩

theorem switch_run {e : Ex} {b : St} (h : genSt (.switch e b) sw cs c = .ok cs' c') :
    ∃ v c1 vs c3 c4, genR e (bump c) = .ok v c1 ∧ genSt b (some c.labelID) [] (switchHead c1 c.labelID) = .ok vs c3 ∧
      switchTerm c.labelID v (c1.blocks.length + 2) vs (goto' (brTo c3 (c1.blocks.length + 2)) (c1.blocks.length + 1)) = .ok () c4 ∧
      c' = goto' c4 (c1.blocks.length + 2) ∧ cs' = cs := by
  simp only [genSt] at h
  rw [M.bind_ok (show freshLabelID c = .ok c.labelID (bump c) from rfl)] at h
  obind h v c1 h1
  rw [M.bind_ok (switchStart_eq _ _)] at h
  simp only at h
  obind h vs c3 h3
  rw [M.bind_ok (brIfOpen_eq _ _), M.bind_ok (setInsertPoint_eq _ _)] at h
  obind h u c4 h4
  rw [M.bind_ok (setInsertPoint_eq _ _)] at h
  simp at h; obtain ⟨rfl, rfl⟩ := h
  exact ⟨v, c1, vs, c3, c4, h1, h3, h4, rfl, rfl⟩

theorem case_run {v : Word} {s : St} (h : genSt (.case v s) sw cs c = .ok cs' c') : ∃ id, sw = some id ∧
    genSt s sw (cs ++ [v]) (goto' (brTo (withLabel (caseName id v) c) (labelBlock (caseName id v) c)) (labelBlock (caseName id v) c)) =
      .ok cs' c' := by
  simp only [genSt] at h
  cases sw with
  | none => cases h
  | some id =>
    simp only at h
    rw [M.bind_ok (genLabel_eq _ _)] at h
    exact ⟨id, rfl, h⟩

theorem label_run {l : Name} {s : St} (h : genSt (.label l s) sw cs c = .ok cs' c') :
    genSt s sw cs (goto' (brTo (withLabel l c) (labelBlock l c)) (labelBlock l c)) = .ok cs' c' := by
  simp only [genSt] at h
  rw [M.bind_ok (genLabel_eq _ _)] at h
  exact h

theorem goto_run {l : Name} (h : genSt (.goto l) sw cs c = .ok cs' c') :
    c' = goto' (bump { (withTerm (withLabel l c) (.br (labelBlock l c))) with
      blocks := (withTerm (withLabel l c) (.br (labelBlock l c))).blocks ++ [⟨"unreachable.".toList ++ natDec (withLabel l c).labelID, [], none⟩] })
      (withLabel l c).blocks.length ∧ cs' = cs := by
  simp only [genSt, genGoto] at h
  obind h u c1 h1
  rw [M.bind_ok (getOrCreateLabel_eq _ _), M.bind_ok (setTerm_eq _ _), M.bind_ok (M.get_apply _)] at h1
  rw [M.bind_ok (show newBlock _ _ = .ok _ _ from rfl), M.bind_ok (show freshLabelID _ = .ok _ _ from rfl)] at h1
  rw [setInsertPoint_eq] at h1
  simp at h; obtain ⟨rfl, rfl⟩ := h
  cases h1
  refine ⟨?_, rfl⟩
  rw [withTerm_length]; rfl

end
end Blang
