import Verif.Props.Image
import Verif.Props.Module
/-
Exact forms of C25 and C64: when a symbol is defined twice.
-/
namespace Blang.Props
open Blang Blang.Spec

/-- the symbol of a `.data` block -/
def IsData (g : GlobalDef) : Prop := ∃ x, g.sym = globalName x ++ dataSuffix

theorem isStr_not_data {g : GlobalDef} (h : IsStr g) : ¬ IsData g := by
  obtain ⟨_, n, e⟩ := h
  rintro ⟨x, e'⟩
  exact data_ne_str x n (e'.symm.trans e)

theorem filter_eraseP {α : Type} {p q : α → Bool} (h : ∀ a, q a = true → p a = false) :
    ∀ l : List α, (l.eraseP q).filter p = l.filter p
  | [] => rfl
  | a :: l => by
    rw [List.eraseP_cons]
    cases hq : q a with
    | true => simp [h a hq]
    | false =>
      simp only [cond_false, List.filter_cons, filter_eraseP h l]

open Classical in
/-- the `.data` blocks, in order -/
noncomputable def dataSyms (gs : List GlobalDef) : List Name := (gs.filter fun g => decide (IsData g)).map GlobalDef.sym

theorem dataSyms_append (gs hs : List GlobalDef) : dataSyms (gs ++ hs) = dataSyms gs ++ dataSyms hs := by simp [dataSyms]

theorem dataSyms_none {gs : List GlobalDef} (h : ∀ g ∈ gs, ¬ IsData g) : dataSyms gs = [] := by
  unfold dataSyms
  rw [List.filter_eq_nil_iff.2 (fun g hg => by simpa using h g hg)]
  rfl

theorem dataSyms_remove (c : CState) {y : Name} (hy : NameOk y) : dataSyms (removeGlobalByName c y).globals = dataSyms c.globals := by
  unfold dataSyms removeGlobalByName
  refine congrArg _ (filter_eraseP ?_ _)
  intro g hg
  simp only [decide_eq_true_eq] at hg
  simp only [decide_eq_false_iff_not]
  rintro ⟨x, e⟩
  exact globalName_ne_data hy x (hg.symm.trans e)

theorem genIvals_nil {vs : List Ival} {c c' : CState} {ks : List Const} (h : genIvals vs c = .ok ks c') : ks = [] ↔ vs = [] := by
  cases vs with
  | nil => simp [genIvals] at h; simp [h.1.symm]
  | cons v vs =>
    simp only [genIvals] at h
    obind h k c1 h1
    obind h ks' c2 h2
    simp at h; simp [← h.1]

theorem decl_dataSyms {d : Decl} {c c1 : CState} {ss : List (List Nat)} (hI : ProgInv c ss) (hd : d.All NameOk) (h1 : genDecl d c = .ok () c1) :
    dataSyms c1.globals = dataSyms c.globals ++ (d.block?.toList).map fun x => globalName x ++ dataSuffix := by
  have notName : ∀ {y : Name}, NameOk y → ∀ {g : GlobalDef}, g.sym = globalName y → dataSyms [g] = [] := by
    intro y hy g e
    refine dataSyms_none ?_
    intro g' hg'
    simp at hg'; subst hg'
    rintro ⟨x, e'⟩
    exact globalName_ne_data hy x (e.symm.trans e')
  cases d with
  | global y vals =>
    obtain ⟨ks, c2, k1, e⟩ := genDecl_global h1
    obtain ⟨gs, e1, e2⟩ := genIvals_strs k1
    subst e
    show dataSyms (c2.globals ++ [_]) = _
    rw [dataSyms_append, notName hd rfl, e1, dataSyms_append, dataSyms_none (fun g hg => isStr_not_data (e2 g hg)), dataSyms_remove c hd]
    simp [Decl.block?]
  | vector y n vals =>
    obtain ⟨ks, c2, c3, g', k1, k3, e⟩ := genDecl_vector h1
    obtain ⟨gs, e1, e2⟩ := genIvals_strs k1
    obtain ⟨s1, _⟩ := k3.g_eq
    have hnil := genIvals_nil k1
    have h2 : dataSyms c2.globals = dataSyms c.globals := by
      rw [e1, dataSyms_append, dataSyms_none (fun g hg => isStr_not_data (e2 g hg)), dataSyms_remove c hd, List.append_nil]
    subst e
    show dataSyms (c3.globals ++ [g']) = _
    rw [dataSyms_append, notName hd s1, List.append_nil]
    cases k3 with
    | separate hk hsz h3 _ =>
      subst h3
      have hv := hnil.1 hk
      subst hv hk
      show dataSyms (c2.globals ++ [_]) = _
      have hn : 1 < n.toInt := by
        split at hsz
        · simp at hsz
        · exact hsz
      have hdat : IsData ⟨globalName y ++ dataSuffix, .zero (if n = 0 then BitVec.ofNat 64 ([] : List Const).length else n).toNat, false⟩ := ⟨y, rfl⟩
      rw [dataSyms_append, h2]
      refine congrArg _ ?_
      have hf : dataSyms [⟨globalName y ++ dataSuffix, .zero (if n = 0 then BitVec.ofNat 64 ([] : List Const).length else n).toNat, false⟩] = [globalName y ++ dataSuffix] := by
        unfold dataSyms
        rw [List.filter_cons, if_pos (by simpa using hdat)]
        rfl
      rw [hf]
      simp [Decl.block?, hn]
    | inline m hm hne h3 _ =>
      subst h3
      have hb : (Decl.vector y n vals).block? = none := by
        cases vals with
        | cons v vs => rfl
        | nil =>
          have hk := hnil.2 rfl
          subst hk
          simp only [Decl.block?]
          rw [if_neg]
          intro hn
          refine hne ⟨rfl, ?_⟩
          have n0 : n ≠ 0 := by rintro rfl; simp at hn
          simp only [if_neg n0] at hm
          rw [hm, if_neg (fun h => n0 h.1)]
          exact hn
      rw [h2, hb]; simp
  | func f ps b =>
    obtain ⟨bs, r, e⟩ := genDecl_func hI.functions h1
    obtain ⟨gs, e1, e2, _⟩ := r.gr hd.2.1 hd.2.2
    subst e
    show dataSyms r.c3.globals = _
    have e0 : (entered (defFunc f ps) r.c1).globals = c.globals := by rw [r.c1_eq]; rfl
    rw [e1, e0, dataSyms_append, dataSyms_none (gs := gs), List.append_nil]
    · simp [Decl.block?]
    · intro g hg
      rcases e2 g hg with h | ⟨y, hy, rfl⟩
      · exact isStr_not_data h
      · rintro ⟨x, e'⟩
        exact globalName_ne_data hy x e'

theorem between_dataSyms {p : Program} {c c' : CState} (h : Between p c c') : ∀ {ss : List (List Nat)}, ProgInv c ss → (∀ d ∈ p, d.All NameOk) →
    dataSyms c'.globals = dataSyms c.globals ++ (p.filterMap Decl.block?).map fun x => globalName x ++ dataSuffix := by
  induction h with
  | nil => intro _ _ _; simp
  | @cons d p c c1 c' h1 h2 ih =>
    intro ss hI hn
    rw [ih (hI.decl (hn d (by simp)) h1) (fun d h => hn d (by simp [h]))]
    show dataSyms c1.globals ++ _ = _
    rw [decl_dataSyms hI (hn d (by simp)) h1, List.append_assoc, ← List.map_append]
    congr 2
    cases hb : d.block? with
    | none => simp [hb]
    | some x => simp [hb]

/-- C25, exactly: no two globals, and no global and function, of the module have the same symbol if and only if no name
is both a variable and a function of the program (`Env.vars`: defined as variable or vector or mentioned in an `extrn`;
`Env.funs`: defined or used as function) and no two vectors with blocks of their own have the same name. -/
theorem C25_exact {chars : List Char} {t : Tail} {m : Module} (h : compileText chars t = .ok m) :
    ∃ p, TreeOf chars p m ∧
      ((m.globals.map (·.sym) ++ m.funcs.map (·.sym)).Nodup ↔
        (∀ x, x ∈ p.place.env.vars → x ∉ p.place.env.funs) ∧ (p.filterMap Decl.block?).Nodup) := by
  have hpart := @C25_globals_partial _ _ _ h
  obtain ⟨p, hT, _⟩ := accepted_tree h
  refine ⟨p, hT, ?_⟩
  obtain ⟨c, hb, rfl⟩ := tree_between hT
  have hn := reads_names hT.1
  have hI := hb.mid hn
  have hK := (hb.knows KnowsTop.init hn).knows
  have hD := between_dataSyms hb ProgInv.init hn
  rw [show dataSyms newCompiler.globals = [] from dataSyms_none (by simp [newCompiler]), List.nil_append] at hD
  have hblocks : (p.filterMap Decl.block?).Nodup ↔ (dataSyms c.globals).Nodup := by
    rw [hD, List.nodup_iff_pairwise_ne, List.nodup_iff_pairwise_ne, List.pairwise_map]
    refine ⟨fun h => h.imp fun ne e => ne (data_inj e), fun h => h.imp fun ne e => ne (by rw [e])⟩
  have hglob : (c.globals.map GlobalDef.sym).Nodup ↔ (dataSyms c.globals).Nodup := by
    unfold dataSyms
    rw [List.nodup_iff_pairwise_ne, List.nodup_iff_pairwise_ne, List.pairwise_map, List.pairwise_map, List.pairwise_filter]
    refine ⟨fun h => h.imp fun ne _ _ => ne, fun h => ?_⟩
    rw [List.pairwise_iff_getElem] at h ⊢
    intro i j hi hj hij e
    have hne : i ≠ j := by omega
    obtain ⟨x, _, hx⟩ := hpart (List.getElem?_eq_getElem hi) (List.getElem?_eq_getElem hj) hne e
    exact h i j hi hj hij (by simpa using ⟨x, hx⟩) (by simpa using ⟨x, e.symm.trans hx⟩) e
  have hcross : (∀ a ∈ c.globals.map GlobalDef.sym, ∀ b ∈ c.funcs.map Func.sym, a ≠ b) ↔ ∀ x, x ∈ p.place.env.vars → x ∉ p.place.env.funs := by
    have names : ∀ x, x ∈ p.place.env.vars → NameOk x := by
      intro x hx
      rcases (place_vars p Env.empty x).1 hx with ⟨d, hd, h⟩ | h
      · have := hn d hd
        rcases h with h | h
        · cases d with
          | global y vs => cases h; exact this
          | vector y n vs => cases h; exact this
          | func f ps b => cases h
        · cases d with
          | func f ps b => exact extrns_ok _ this.2.2 x h
          | global y vs => cases h
          | vector y n vs => cases h
      · cases h
    constructor
    · intro h x hv hf
      have hx := names x hv
      exact h _ ((hK.vars x hx).1 hv) _ ((hK.funs x hx).1 hf) rfl
    · rintro h a ha b hb' rfl
      obtain ⟨F, hF, hFs⟩ := List.mem_map.1 hb'
      obtain ⟨g, hg, hgs⟩ := List.mem_map.1 ha
      rcases hI.gsym g hg with hp | ⟨x, hx, hs | hs⟩
      · have : g ∈ c.globals.filter (·.priv) := by rw [List.mem_filter]; exact ⟨hg, hp⟩
        rw [hI.str.1, List.mem_mapIdx] at this
        obtain ⟨i, _, hi⟩ := this
        have hi : g.sym = strSym i := by rw [← hi]; rfl
        rcases hI.fsym F hF with ⟨y, hy, e⟩ | e | e
        · exact globalName_ne_str y i (e.symm.trans (hFs.trans (hgs.symm.trans hi)))
        · exact str_ne_va i |>.1 (hi.symm.trans (hgs.trans (hFs.symm.trans e)))
        · exact str_ne_va i |>.2 (hi.symm.trans (hgs.trans (hFs.symm.trans e)))
      · rw [← hgs, hs] at ha hb'
        exact h x ((hK.vars x hx).2 ha) ((hK.funs x hx).2 hb')
      · rcases hI.fsym F hF with ⟨y, hy, e⟩ | e | e
        · exact globalName_ne_data hy x (e.symm.trans (hFs.trans (hgs.symm.trans hs)))
        · exact (data_ne_va x).1 (hs.symm.trans (hgs.trans (hFs.symm.trans e)))
        · exact (data_ne_va x).2 (hs.symm.trans (hgs.trans (hFs.symm.trans e)))
  show (c.globals.map GlobalDef.sym ++ c.funcs.map Func.sym).Nodup ↔ _
  rw [List.nodup_append, hglob, hblocks, ← hcross]
  constructor
  · rintro ⟨h1, _, h3⟩; exact ⟨h3, h1⟩
  · rintro ⟨h1, h2⟩; exact ⟨h2, hI.nodup, h1⟩

/-- both sides hold: variables, vectors of both shapes, declared again, functions -/
example : (match compileText "v[5]; w[3] 1,2; w[2] 7; x 1; x 2; f(a){extrn x, v; return(g(x));} f(){}".toList .eof with
      | .ok m => decide (m.globals.map (·.sym) ++ m.funcs.map (·.sym)).Nodup
      | .error _ => false) = true := by decide +kernel

/-- both sides fail: `x` is first a function, then a variable -/
example : (match compileText "main(){x();} x;".toList .eof with
      | .ok m => decide (m.globals.map (·.sym) ++ m.funcs.map (·.sym)).Nodup
      | .error _ => true) = false ∧ "x".toList ∈ (Program.place [.func "main".toList [] (.expr (.callName "x".toList [])), .global "x".toList []]).env.vars ∧
    "x".toList ∈ (Program.place [.func "main".toList [] (.expr (.callName "x".toList [])), .global "x".toList []]).env.funs := by decide +kernel

/-- C64, exactly: the modules of two files define a common symbol if and only if some name is defined or declared `extrn`
in both. -/
theorem C64_exact {text1 text2 : List Char} {t1 t2 : Tail} {m1 m2 : Module} (h1 : compileText text1 t1 = .ok m1)
    (h2 : compileText text2 t2 = .ok m2) :
    ∃ p1 p2, TreeOf text1 p1 m1 ∧ TreeOf text2 p2 m2 ∧
      ((∃ s, Module.DefinesSym m1 s ∧ Module.DefinesSym m2 s) ↔
        ∃ x, (∃ d ∈ p1, x ∈ d.defines ∨ x ∈ d.extrns) ∧ ∃ d ∈ p2, x ∈ d.defines ∨ x ∈ d.extrns) := by
  obtain ⟨p1, a1, a2, a3⟩ := C64_symbols h1
  obtain ⟨p2, b1, b2, b3⟩ := C64_symbols h2
  refine ⟨p1, p2, a1, b1, ?_, ?_⟩
  · rintro ⟨s, s1, s2⟩
    obtain ⟨x, hx, e1⟩ := a3 s s1
    obtain ⟨y, hy, e2⟩ := b3 s s2
    rcases e1 with e1 | ⟨e1, n, vs, d1⟩ <;> rcases e2 with e2 | ⟨e2, n', vs', d2⟩
    · have := globalName_inj (e1.symm.trans e2)
      subst this
      rw [e1] at s1 s2
      exact ⟨x, (a2 x hx).1 s1, (b2 x hx).1 s2⟩
    · exact absurd (e1.symm.trans e2) (globalName_ne_data hx y)
    · exact absurd (e2.symm.trans e1) (globalName_ne_data hy x)
    · have := data_inj (e1.symm.trans e2)
      subst this
      exact ⟨x, ⟨_, d1, .inl (by simp [Decl.defines])⟩, ⟨_, d2, .inl (by simp [Decl.defines])⟩⟩
  · rintro ⟨x, hx1, hx2⟩
    have hx : NameOk x := by
      obtain ⟨d, hd, h⟩ := hx1
      have := reads_names a1.1 d hd
      cases d with
      | global y vs => simp [Decl.defines, Decl.extrns] at h; subst h; exact this
      | vector y n vs => simp [Decl.defines, Decl.extrns] at h; subst h; exact this
      | func f ps b =>
        simp only [Decl.defines, Decl.extrns, List.mem_singleton] at h
        rcases h with rfl | h
        · exact this.1
        · exact extrns_ok _ this.2.2 x h
    exact ⟨symbolOf x, (a2 x hx).2 hx1, (b2 x hx).2 hx2⟩

end Blang.Props
