import Verif.Proofs.SimProg
import Verif.Proofs.Origin
import Verif.Spec.Files
/-
Which symbols a module defines.
-/
namespace Blang
open Spec

/-! ### a function has blocks -/

/-- blocks are not lost -/
def NR (c c' : CState) : Prop := c.blocks ≠ [] → c'.blocks ≠ []

theorem NR.of_eq {c c' : CState} (h : c'.blocks = c.blocks) : NR c c' := fun hc => by rw [h]; exact hc

theorem modify_nonempty {α : Type} {l : List α} {i : Nat} {f : α → α} (h : l ≠ []) : l.modify i f ≠ [] := by
  intro e
  have := congrArg List.length e
  rw [List.length_modify] at this
  exact h (List.eq_nil_of_length_eq_zero this)

theorem NR.stable : SStable NameOk NR where
  refl c := fun h => h
  trans h1 h2 := fun h => h2 (h1 h)
  emit i c a c' h := by cases h; exact fun h => modify_nonempty h
  setTerm t c a c' h := by cases h; exact fun h => modify_nonempty h
  newBlock n c a c' h := by cases h; exact fun _ => by simp
  setInsertPoint n c a c' h := by cases h; exact .of_eq rfl
  freshLabelID c a c' h := by cases h; exact .of_eq rfl
  declFn c x v c' hP hf hx h := by
    unfold getOrDeclareFunction at h
    cases hl : lookup x c.functions with
    | some f => rw [hl] at h; cases h; exact .of_eq rfl
    | none => rw [hl, hx] at h; cases h; exact .of_eq rfl
  getOrCreateLabel n _ c a c' h := by
    unfold Blang.getOrCreateLabel at h
    cases hl : lookup n c.labels with
    | some b => rw [hl] at h; cases h; exact .of_eq rfl
    | none => rw [hl] at h; cases h; exact fun _ => by simp
  declareExtrn n _ c a c' h := by
    unfold Blang.declareExtrn at h
    split at h
    · cases h; exact .of_eq rfl
    · split at h
      · cases h; exact .of_eq rfl
      · cases h
  addLocal c k v _ := .of_eq rfl
  createString s c a c' h := by cases h; exact .of_eq rfl

theorem getOrCreateFunc_NR (f : Name) : Keeps NR (getOrCreateFunc f) := by
  intro c a c' h
  unfold getOrCreateFunc at h
  split at h
  · cases h; exact .of_eq rfl
  · cases h; exact .of_eq rfl

theorem FuncRun.ne {f : Name} {ps : List Name} {b : St} {c : CState} {bs : List Block} (r : FuncRun f ps b c bs)
    (hp : ∀ x ∈ ps, NameOk x) (hb : b.All NameOk) : bs ≠ [] := by
  have h := NR.stable.trans (paramCode_keeps NR.stable.toQStable (getOrCreateFunc_NR _) (getOrCreateFunc_NR _) ps hp _ _ _
    r.entry) (NR.stable.genSt b none [] hb _ _ _ r.body)
  have h := h (by simp [entered])
  rw [r.blocks]
  unfold closed
  split
  · exact modify_nonempty h
  · exact h

/-! ### separate blocks of vectors -/

theorem genIvals_strs {vs : List Ival} {c c' : CState} {ks : List Const} (h : genIvals vs c = .ok ks c') :
    ∃ gs, c'.globals = c.globals ++ gs ∧ ∀ g ∈ gs, IsStr g := by
  induction vs generalizing c ks with
  | nil => simp [genIvals] at h; obtain ⟨_, rfl⟩ := h; exact ⟨[], by simp, by simp⟩
  | cons v vs ih =>
    simp only [genIvals] at h
    obind h k c1 h1
    obind h ks' c2 h2
    simp at h; obtain ⟨_, rfl⟩ := h
    obtain ⟨gs, e1, e2⟩ := ih h2
    cases v with
    | int v => simp [genIval] at h1; obtain ⟨_, rfl⟩ := h1; exact ⟨gs, e1, e2⟩
    | str s =>
      simp only [genIval] at h1
      obind h1 g c3 h3
      simp at h1; obtain ⟨_, rfl⟩ := h1
      cases h3
      refine ⟨⟨strSym c.stringID, .bytes (stringBytes (s.map Char.ofNat)), true⟩ :: gs, ?_, ?_⟩
      · rw [e1]; simp [newGlobalDef]
      · intro g hg
        rcases List.mem_cons.1 hg with rfl | hg
        · exact ⟨rfl, _, rfl⟩
        · exact e2 g hg

theorem Between.data {p : Program} {c c' : CState} (h : Between p c c') : ∀ {ss : List (List Nat)}, ProgInv c ss → (∀ d ∈ p, d.All NameOk) →
    ∀ x, globalName x ++ dataSuffix ∈ c'.globals.map GlobalDef.sym →
      globalName x ++ dataSuffix ∈ c.globals.map GlobalDef.sym ∨ ∃ n vs, Decl.vector x n vs ∈ p := by
  induction h with
  | nil => intro _ _ _ x hx; exact .inl hx
  | @cons d p c c1 c' h1 h2 ih =>
    intro ss hI hn x hx
    have hd := hn d (by simp)
    rcases ih (hI.decl hd h1) (fun d h => hn d (by simp [h])) x hx with h | ⟨n, vs, h⟩
    · have h : globalName x ++ dataSuffix ∈ c1.globals.map GlobalDef.sym := h
      clear h2 ih
      have notStr : ∀ gs : List GlobalDef, (∀ g ∈ gs, IsStr g) → globalName x ++ dataSuffix ∉ gs.map GlobalDef.sym := by
        intro gs hg hm
        obtain ⟨g, m1, m2⟩ := List.mem_map.1 hm
        obtain ⟨_, n, e⟩ := hg g m1
        exact data_ne_str x n (m2.symm.trans e)
      have era : ∀ y, globalName x ++ dataSuffix ∈ (removeGlobalByName c y).globals.map GlobalDef.sym →
          globalName x ++ dataSuffix ∈ c.globals.map GlobalDef.sym := by
        intro y hm
        obtain ⟨g, m1, m2⟩ := List.mem_map.1 hm
        exact List.mem_map.2 ⟨g, List.mem_of_mem_eraseP m1, m2⟩
      cases d with
      | global y vals =>
        obtain ⟨ks, c2, k1, e⟩ := genDecl_global h1
        obtain ⟨gs, e1, e2⟩ := genIvals_strs k1
        rw [e] at h
        simp only [newGlobalDef, e1, List.map_append, List.map_cons, List.map_nil, List.mem_append, List.mem_singleton] at h
        rcases h with (h | h) | h
        · exact .inl (era y h)
        · exact absurd h (notStr gs e2)
        · exact absurd h.symm (globalName_ne_data hd x)
      | vector y n vals =>
        obtain ⟨ks, c2, c3, g', k1, k3, e⟩ := genDecl_vector h1
        obtain ⟨gs, e1, e2⟩ := genIvals_strs k1
        obtain ⟨s1, _⟩ := k3.g_eq
        rw [e] at h
        simp only [newGlobalDef, List.map_append, List.map_cons, List.map_nil, List.mem_append, List.mem_singleton, s1] at h
        rcases h with h | h
        · have : globalName x ++ dataSuffix ∈ c2.globals.map GlobalDef.sym ∨ x = y := by
            cases k3 with
            | separate _ _ h3 _ =>
              subst h3
              simp only [newGlobalDef, List.map_append, List.map_cons, List.map_nil, List.mem_append, List.mem_singleton] at h
              exact h.imp id data_inj
            | inline _ _ _ h3 _ => subst h3; exact .inl h
          rcases this with h | rfl
          · rw [e1, List.map_append, List.mem_append] at h
            rcases h with h | h
            · exact .inl (era y h)
            · exact absurd h (notStr gs e2)
          · exact .inr ⟨n, vals, by simp⟩
        · exact absurd h.symm (globalName_ne_data hd x)
      | func f ps b =>
        obtain ⟨bs, r, e⟩ := genDecl_func hI.functions h1
        obtain ⟨gs, e1, e2, _⟩ := r.gr hd.2.1 hd.2.2
        rw [e] at h
        have h : globalName x ++ dataSuffix ∈ r.c3.globals.map GlobalDef.sym := h
        have e0 : (entered (defFunc f ps) r.c1).globals = c.globals := by rw [r.c1_eq]; rfl
        rw [e1, e0, List.map_append, List.mem_append] at h
        rcases h with h | h
        · exact .inl h
        · exfalso
          obtain ⟨g, m1, m2⟩ := List.mem_map.1 h
          rcases e2 g m1 with ⟨_, n, e⟩ | ⟨y, hy, rfl⟩
          · exact data_ne_str x n (m2.symm.trans e)
          · exact globalName_ne_data hy x m2
    · exact .inr ⟨n, vs, by simp [h]⟩

end Blang
