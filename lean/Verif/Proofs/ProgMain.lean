import Verif.Proofs.ProgInv
import Verif.Proofs.SoundDecl
/-
From declarations to programs.
-/
namespace Blang
open Spec

/-! ### declarations of globals -/

/-- the initialiser of a global with the values `ks` -/
def valsInit : List Const → GInit
  | [] => .word (.int 0)
  | [k] => .word k
  | ks => .arr ks.length ks

theorem genDecl_global {x : Name} {vals : List Ival} {c c' : CState} (h : genDecl (.global x vals) c = .ok () c') :
    ∃ ks c1, genIvals vals (removeGlobalByName c x) = .ok ks c1 ∧
      c' = { newGlobalDef c1 ⟨globalName x, valsInit ks, false⟩ with
             ctx := insert x (GlobalDef.val ⟨globalName x, valsInit ks, false⟩) c1.ctx } := by
  simp only [genDecl] at h
  rw [M.bind_ok (M.modify_apply _ _)] at h
  obind h ks c1 h1
  refine ⟨ks, c1, h1, ?_⟩
  match ks with
  | [] => simp [declareVals, declareGlobal] at h; exact h.symm
  | [k] => simp [declareVals, declareGlobal] at h; exact h.symm
  | k :: k' :: ks => simp [declareVals, declareGlobalWithMultipleValues] at h; exact h.symm

/-- the two shapes of a vector -/
inductive VecShape (x : Name) (size : W) (ks : List Const) (c1 c2 : CState) (g : GlobalDef) : Prop where
  /-- without initial values: a cell with the address of a separate block -/
  | separate : ks = [] → (1 : Int) < size.toInt → c2 = newGlobalDef c1 ⟨globalName x ++ dataSuffix, .zero size.toNat, false⟩ →
      g = ⟨globalName x, .arr 1 [.addr (globalName x ++ dataSuffix) (.arr size.toNat) 0], false⟩ → VecShape x size ks c1 c2 g
  /-- the cell followed by the words -/
  | inline (n : W) : n = (if size = 0 ∧ ks = [] then 1 else size) → ¬ (ks = [] ∧ (1 : Int) < n.toInt) → c2 = c1 →
      g = ⟨globalName x, .arr (n + 1).toNat (.addr (globalName x) (.arr (n + 1).toNat) 1 ::
        (List.range n.toInt.toNat).map fun i => ks.getD i (.int 0)), false⟩ → VecShape x size ks c1 c2 g

theorem genDecl_vector {x : Name} {n : Word} {vals : List Ival} {c c' : CState}
    (h : genDecl (.vector x n vals) c = .ok () c') :
    ∃ ks c1 c2 g, genIvals vals (removeGlobalByName c x) = .ok ks c1 ∧
      VecShape x (if n = 0 then BitVec.ofNat 64 ks.length else n) ks c1 c2 g ∧
      c' = { newGlobalDef c2 g with ctx := insert x g.val c2.ctx } := by
  simp only [genDecl] at h
  rw [M.bind_ok (M.modify_apply _ _)] at h
  obind h ks c1 h1
  refine ⟨ks, c1, ?_⟩
  generalize (if n = 0 then BitVec.ofNat 64 ks.length else n) = size at h
  simp only [declareGlobalArray, M.modify_apply, R.ok.injEq, true_and] at h
  by_cases hs : ks = [] ∧ (1 : Int) < (if size = 0 ∧ ks = [] then (1 : W) else size).toInt
  · rw [if_pos hs] at h
    have h0 : ¬ (size = 0 ∧ ks = []) := by
      intro hz; rw [if_pos hz] at hs; exact absurd hs.2 (by decide)
    rw [if_neg h0] at hs h
    exact ⟨_, _, h1, .separate hs.1 hs.2 rfl rfl, h.symm⟩
  · rw [if_neg hs] at h
    exact ⟨_, _, h1, .inline _ rfl hs rfl rfl, h.symm⟩

theorem VecShape.g_eq {x : Name} {size : W} {ks : List Const} {c1 c2 : CState} {g : GlobalDef}
    (h : VecShape x size ks c1 c2 g) : g.sym = globalName x ∧ g.priv = false := by
  cases h with
  | separate _ _ _ h => subst h; exact ⟨rfl, rfl⟩
  | inline _ _ _ _ h => subst h; exact ⟨rfl, rfl⟩

theorem ProgInv.clear {c : CState} {ss : List (List Nat)} (h : ProgInv c ss) (ctx : List (Name × Val)) :
    ProgInv { c with ctx := [], functions := [], functionParams := [] } ss :=
  ⟨h.nodup, h.fsym, h.gsym, h.ginv, h.str, rfl, rfl, rfl⟩

/-- one declaration keeps the invariant -/
theorem ProgInv.decl {d : Decl} {c c' : CState} {ss : List (List Nat)} (hI : ProgInv c ss) (hn : d.All NameOk)
    (h : genDecl d c = .ok () c') :
    ProgInv { c' with ctx := [], functions := [], functionParams := [] } (ss ++ d.strings) := by
  cases d with
  | func f ps b => exact hI.func hn h
  | global x vals =>
    obtain ⟨ks, c1, h1, rfl⟩ := genDecl_global h
    have i1 := genIvals_PInv (hI.remove x) h1
    have i2 := genIvals_noGlobal (NoGlobal.remove hI.ginv hn) h1
    exact (i1.add hn (g := ⟨globalName x, valsInit ks, false⟩) rfl rfl i2).clear []
  | vector x n vals =>
    obtain ⟨ks, c1, c2, g, h1, h2, rfl⟩ := genDecl_vector h
    have i1 := genIvals_PInv (hI.remove x) h1
    have i2 := genIvals_noGlobal (NoGlobal.remove hI.ginv hn) h1
    obtain ⟨g1, g2⟩ := h2.g_eq
    have : ProgInv c2 (ss ++ vals.flatMap Ival.strings) ∧ NoGlobal c2 x := by
      cases h2 with
      | separate _ _ h3 _ =>
        subst h3
        exact ⟨i1.addData (x := x) hn rfl rfl, NoGlobal.data hn i2 (y := x) rfl⟩
      | inline _ _ _ h3 _ => subst h3; exact ⟨i1, i2⟩
    exact (this.1.add hn g2 g1 this.2).clear []

/-- the state between two declarations -/
inductive Between : Program → CState → CState → Prop where
  | nil {c : CState} : Between [] c c
  | cons {d : Decl} {p : Program} {c c1 c' : CState} : genDecl d c = .ok () c1 →
      Between p { c1 with ctx := [], functions := [], functionParams := [] } c' → Between (d :: p) c c'

theorem between_of_gen {p : Program} {c c' : CState} (h : genProg p c = .ok () c') : Between p c c' := by
  induction p generalizing c with
  | nil => simp [genProg] at h; subst h; exact .nil
  | cons d p ih =>
    simp only [genProg] at h
    obind h u c1 h1
    rw [show clearTopLevelContext = M.modify _ from rfl, M.bind_ok (M.modify_apply _ _)] at h
    exact .cons h1 (ih h)

theorem Between.inv {p : Program} {c c' : CState} {ss : List (List Nat)} (h : Between p c c') (hI : ProgInv c ss)
    (hn : ∀ d ∈ p, d.All NameOk) : ProgInv c' (ss ++ p.flatMap Decl.strings) := by
  induction h generalizing ss with
  | nil => simpa using hI
  | cons h1 _ ih =>
    have := ih (hI.decl (hn _ (by simp)) h1) (fun d hd => hn d (by simp [hd]))
    simpa using this

theorem Between.split {p q : Program} {c c' : CState} (h : Between (p ++ q) c c') : ∃ c1, Between p c c1 ∧ Between q c1 c' := by
  induction p generalizing c with
  | nil => exact ⟨c, .nil, h⟩
  | cons d p ih =>
    cases h with
    | cons h1 h2 =>
      obtain ⟨c1, a, b⟩ := ih h2
      exact ⟨c1, .cons h1 a, b⟩

/-! ### what later declarations leave alone -/

/-- the name of a variable declared by `d` -/
def varName : Decl → Option Name
  | .global x _ => some x
  | .vector x _ _ => some x
  | .func _ _ _ => none

/-- the name of a function defined by `d` -/
def funName : Decl → Option Name
  | .func f _ _ => some f
  | _ => none

theorem genIvals_grow {vs : List Ival} {c c' : CState} {ks : List Const} (h : genIvals vs c = .ok ks c') :
    c'.funcs = c.funcs ∧ ∃ gs, c'.globals = c.globals ++ gs := by
  induction vs generalizing c ks with
  | nil => simp [genIvals] at h; obtain ⟨_, rfl⟩ := h; exact ⟨rfl, [], by simp⟩
  | cons v vs ih =>
    simp only [genIvals] at h
    obind h k c1 h1
    obind h ks' c2 h2
    simp at h; obtain ⟨_, rfl⟩ := h
    obtain ⟨i1, gs, i2⟩ := ih h2
    cases v with
    | int v => simp [genIval] at h1; obtain ⟨_, rfl⟩ := h1; exact ⟨i1, gs, i2⟩
    | str s =>
      simp only [genIval] at h1
      obind h1 g c3 h3
      simp at h1; obtain ⟨_, rfl⟩ := h1
      cases h3
      exact ⟨i1, _ :: gs, by rw [i2]; simp [newGlobalDef]; rfl⟩

theorem mem_eraseP_of_ne {α : Type} {p : α → Bool} {l : List α} {a : α} (h : a ∈ l) (hp : p a = false) : a ∈ l.eraseP p := by
  induction l with
  | nil => cases h
  | cons b l ih =>
    rw [List.mem_cons] at h
    cases hb : p b with
    | true =>
      rw [List.eraseP_cons_of_pos hb]
      rcases h with rfl | h
      · rw [hb] at hp; cases hp
      · exact h
    | false =>
      rw [List.eraseP_cons_of_neg (by simp [hb])]
      rcases h with rfl | h
      · simp
      · simp [ih h]

/-- a global survives declarations of other variables -/
theorem genDecl_keepsG {d : Decl} {c c' : CState} {g : GlobalDef} (hc : c.functions = []) (hn : d.All NameOk)
    (h : genDecl d c = .ok () c') (hg : g ∈ c.globals) (hd : ∀ x, varName d = some x → g.sym ≠ globalName x) : g ∈ c'.globals := by
  cases d with
  | func f ps b =>
    obtain ⟨bs, r, rfl⟩ := genDecl_func hc h
    obtain ⟨gs, h1, _⟩ := r.gr hn.2.1 hn.2.2
    show g ∈ r.c3.globals
    rw [h1, show (entered (defFunc f ps) r.c1).globals = c.globals by rw [r.c1_eq]; rfl]
    simp [hg]
  | global x vals =>
    obtain ⟨ks, c1, h1, rfl⟩ := genDecl_global h
    obtain ⟨_, gs, h2⟩ := genIvals_grow h1
    have : g ∈ (removeGlobalByName c x).globals := mem_eraseP_of_ne hg (by simpa using hd x rfl)
    simp [newGlobalDef, h2, this]
  | vector x n vals =>
    obtain ⟨ks, c1, c2, g', h1, h3, rfl⟩ := genDecl_vector h
    obtain ⟨_, gs, h2⟩ := genIvals_grow h1
    have : g ∈ (removeGlobalByName c x).globals := mem_eraseP_of_ne hg (by simpa using hd x rfl)
    have : g ∈ c2.globals := by
      cases h3 with
      | separate _ _ h3 _ => subst h3; simp [newGlobalDef, h2, this]
      | inline _ _ _ h3 _ => subst h3; simp [h2, this]
    simp [newGlobalDef, this]

/-- a function survives definitions of other functions -/
theorem genDecl_keepsF {d : Decl} {c c' : CState} {F : Func} (hc : c.functions = []) (hn : d.All NameOk)
    (h : genDecl d c = .ok () c') (hF : F ∈ c.funcs) (hd : ∀ x, funName d = some x → F.sym ≠ globalName x) : F ∈ c'.funcs := by
  cases d with
  | func f ps b =>
    obtain ⟨bs, r, rfl⟩ := genDecl_func hc h
    obtain ⟨fs, h1, _, _⟩ := r.funcs hn.2.1 hn.2.2
    have hs := r.curSym hn.2.1 hn.2.2
    show F ∈ r.c3.funcs.map _
    rw [List.mem_map]
    refine ⟨F, ?_, ?_⟩
    · rw [h1]
      have := mem_eraseP_of_ne (p := fun g => decide (g.sym = globalName f)) hF (by simpa using hd f rfl)
      simp [this]
    · rw [hs, if_neg (hd f rfl)]
  | global x vals =>
    obtain ⟨ks, c1, h1, rfl⟩ := genDecl_global h
    obtain ⟨h2, _⟩ := genIvals_grow h1
    show F ∈ c1.funcs
    rw [h2]; exact hF
  | vector x n vals =>
    obtain ⟨ks, c1, c2, g', h1, h3, rfl⟩ := genDecl_vector h
    obtain ⟨h2, _⟩ := genIvals_grow h1
    have : F ∈ c2.funcs := by
      cases h3 with
      | separate _ _ h3 _ => subst h3; show F ∈ c1.funcs; rw [h2]; exact hF
      | inline _ _ _ h3 _ => subst h3; rw [h2]; exact hF
    exact this

theorem Between.keepsG {p : Program} {c c' : CState} (h : Between p c c') (hc : c.functions = []) (hn : ∀ d ∈ p, d.All NameOk)
    {g : GlobalDef} (hg : g ∈ c.globals) (hd : ∀ d ∈ p, ∀ x, varName d = some x → g.sym ≠ globalName x) : g ∈ c'.globals := by
  induction h with
  | nil => exact hg
  | cons h1 _ ih =>
    refine ih rfl (fun d hd => hn d (by simp [hd])) ?_ (fun d m => hd d (by simp [m]))
    have := genDecl_keepsG hc (hn _ List.mem_cons_self) h1 hg (hd _ List.mem_cons_self)
    exact this

theorem Between.keepsF {p : Program} {c c' : CState} (h : Between p c c') (hc : c.functions = []) (hn : ∀ d ∈ p, d.All NameOk)
    {F : Func} (hF : F ∈ c.funcs) (hd : ∀ d ∈ p, ∀ x, funName d = some x → F.sym ≠ globalName x) : F ∈ c'.funcs := by
  induction h with
  | nil => exact hF
  | cons h1 _ ih =>
    refine ih rfl (fun d hd => hn d (by simp [hd])) ?_ (fun d m => hd d (by simp [m]))
    have := genDecl_keepsF hc (hn _ List.mem_cons_self) h1 hF (hd _ List.mem_cons_self)
    exact this

/-- an accepted text, its tree, and how the module came about -/
theorem compile_between {chars : List Char} {t : Tail} {m : Module} (h : compileText chars t = .ok m) :
    ∃ p c, Reads true chars p ∧ Between p newCompiler c ∧ m = ⟨c.globals, c.funcs⟩ ∧ (∀ d ∈ p, d.All NameOk) ∧
      ProgInv c (p.flatMap Decl.strings) := by
  obtain ⟨p, c, h1, _, h2, h3⟩ := compileText_sound h
  have hb := between_of_gen h2
  have hn := reads_names h1
  exact ⟨p, c, h1, hb, h3, hn, by simpa using hb.inv ProgInv.init hn⟩

/-- a state between two declarations -/
theorem Between.mid {p : Program} {c : CState} (h : Between p newCompiler c) (hn : ∀ d ∈ p, d.All NameOk) :
    ProgInv c (p.flatMap Decl.strings) := by simpa using h.inv ProgInv.init hn

end Blang
