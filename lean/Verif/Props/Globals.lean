import Verif.Props.Module
/-
Properties C28, C29: variables and vectors outside functions.
-/
namespace Blang.Props
open Blang Blang.Spec

/-! ### string constants keep their place -/

theorem sole_of_count {gs : List GlobalDef} {g : GlobalDef} (hg : g ∈ gs)
    (hl : (gs.filter (fun g' => g'.sym = g.sym)).length ≤ 1) : Sole gs g := by
  unfold Sole
  have hm : g ∈ gs.filter (fun g' => g'.sym = g.sym) := List.mem_filter.2 ⟨hg, by simp⟩
  match hf : gs.filter (fun g' => g'.sym = g.sym) with
  | [] => rw [hf] at hm; cases hm
  | [x] => rw [hf] at hm; simp at hm; subst hm; exact hf
  | x :: y :: l => rw [hf] at hl; simp at hl

/-- a string constant is the only global of its name -/
theorem sole_str {c : CState} {ss : List (List Nat)} (hI : ProgInv c ss) {g : GlobalDef} (hg : g ∈ c.globals)
    (hp : g.priv = true) : Sole c.globals g := by
  obtain ⟨s1, _⟩ := hI.str
  have hstr : ∀ g ∈ c.globals, g.priv = true → ∃ n, g.sym = strSym n := by
    intro g hg hp
    have : g ∈ c.globals.filter (·.priv) := by rw [List.mem_filter]; exact ⟨hg, hp⟩
    rw [s1, List.mem_mapIdx] at this
    obtain ⟨i, _, hi⟩ := this
    exact ⟨i, by rw [← hi]; rfl⟩
  obtain ⟨n, hn⟩ := hstr g hg hp
  refine sole_of_count hg ?_
  have h1 : c.globals.filter (fun g' => decide (g'.sym = g.sym)) = (c.globals.filter (·.priv)).filter (fun g' => decide (g'.sym = g.sym)) := by
    rw [List.filter_filter]
    apply List.filter_congr
    intro g' hg'
    by_cases he : g'.sym = g.sym
    · have hp' : g'.priv = true := by
        rcases hI.gsym g' hg' with h | ⟨x, hx, h | h⟩
        · exact h
        · exact absurd (h.symm.trans (he.trans hn)) (globalName_ne_str x n)
        · exact absurd (h.symm.trans (he.trans hn)) (data_ne_str x n)
      simp [he, hp']
    · simp [he]
  have nd : ((c.globals.filter (·.priv)).map GlobalDef.sym).Nodup := by
    rw [s1, List.nodup_iff_pairwise_ne, List.pairwise_iff_getElem]
    intro a b ha hb hab
    simp [strConst]
    intro e
    exact absurd (strSym_inj e) (by omega)
  rw [h1]
  revert nd
  generalize c.globals.filter (·.priv) = gs
  intro nd
  induction gs with
  | nil => simp
  | cons x gs ih =>
    simp only [List.map_cons, List.nodup_cons] at nd
    simp only [List.filter_cons]
    split
    · rename_i hx
      simp only [decide_eq_true_eq] at hx
      have : gs.filter (fun g' => decide (g'.sym = g.sym)) = [] := by
        rw [List.filter_eq_nil_iff]
        intro y hy hye
        simp only [decide_eq_true_eq] at hye
        exact nd.1 (hx.trans hye.symm ▸ List.mem_map_of_mem hy)
      simp [this]
    · exact ih nd.2

/-- the string constants among the new globals -/
inductive Vals (gs : List GlobalDef) : List Ival → List Const → Prop where
  | nil : Vals gs [] []
  | int {v : Word} {vs : List Ival} {ks : List Const} : Vals gs vs ks → Vals gs (.int v :: vs) (.int v :: ks)
  | str {s : List Nat} {i : Nat} {vs : List Ival} {ks : List Const} : strConst s i ∈ gs → Vals gs vs ks →
      Vals gs (.str s :: vs) (.addr (strConst s i).sym (strConst s i).init.ty 0 :: ks)

theorem Vals.mono {gs gs' : List GlobalDef} {vs : List Ival} {ks : List Const} (h : Vals gs vs ks)
    (hm : ∀ g ∈ gs, g.priv = true → g ∈ gs') : Vals gs' vs ks := by
  induction h with
  | nil => exact .nil
  | int _ ih => exact .int ih
  | str h _ ih => exact .str (hm _ h rfl) ih

theorem genIvals_vals {vs : List Ival} {c c' : CState} {ks : List Const} (h : genIvals vs c = .ok ks c') :
    Vals c'.globals vs ks := by
  induction vs generalizing c ks with
  | nil => simp [genIvals] at h; obtain ⟨rfl, _⟩ := h; exact .nil
  | cons v vs ih =>
    simp only [genIvals] at h
    obind h k c1 h1
    obind h ks' c2 h2
    simp at h; obtain ⟨rfl, rfl⟩ := h
    cases v with
    | int v => simp [genIval] at h1; obtain ⟨rfl, _⟩ := h1; exact .int (ih h2)
    | str s =>
      simp only [genIval] at h1
      obind h1 g c3 h3
      simp at h1; obtain ⟨rfl, rfl⟩ := h1
      cases h3
      obtain ⟨_, gs, hg⟩ := genIvals_grow h2
      refine Vals.str (s := s) (i := c.stringID) ?_ (ih h2)
      rw [hg]
      simp [newGlobalDef, strConst]

theorem Vals.have {c : CState} {ss : List (List Nat)} (hI : ProgInv c ss) {vs : List Ival} {ks : List Const}
    (h : Vals c.globals vs ks) : HaveValues c.globals vs ks := by
  induction h with
  | nil => exact .nil
  | int _ ih => exact .cons .int ih
  | @str s i _ _ h _ ih =>
    refine .cons (.str (sole_str hI h rfl) rfl fun ha => ?_) ih
    show GInit.bytes _ = _
    rw [stringBytes_bytes ha]

/-! ### globals and `.data` blocks that survive -/

theorem gname_isStr {gs : List GlobalDef} (h : ∀ g ∈ gs, IsStr g) (x : Name) :
    gs.filter (fun g => g.sym = globalName x ++ dataSuffix) = [] := by
  rw [List.filter_eq_nil_iff]
  intro g hg
  obtain ⟨_, n, hn⟩ := h g hg
  simp only [decide_eq_true_eq, hn]
  exact fun e => data_ne_str x n e.symm

theorem genIvals_strs {vs : List Ival} {c c' : CState} {ks : List Const} (h : genIvals vs c = .ok ks c') :
    ∃ gs, c'.globals = c.globals ++ gs ∧ ∀ g ∈ gs, IsStr g := by
  induction vs generalizing c ks with
  | nil => simp [genIvals] at h; obtain ⟨_, rfl⟩ := h; exact ⟨[], by simp, by simp⟩
  | cons v vs ih =>
    simp only [genIvals] at h
    obind h k c1 h1
    obind h ks' c2 h2
    simp at h; obtain ⟨_, rfl⟩ := h
    obtain ⟨gs, i1, i2⟩ := ih h2
    cases v with
    | int v => simp [genIval] at h1; obtain ⟨_, rfl⟩ := h1; exact ⟨gs, i1, i2⟩
    | str s =>
      simp only [genIval] at h1
      obind h1 g c3 h3
      simp at h1; obtain ⟨_, rfl⟩ := h1
      cases h3
      refine ⟨strConst s c.stringID :: gs, by rw [i1]; simp [newGlobalDef, strConst], ?_⟩
      intro g hg
      rw [List.mem_cons] at hg
      rcases hg with rfl | hg
      · exact ⟨rfl, _, rfl⟩
      · exact i2 g hg

/-- the `.data` blocks of `x` -/
def datas (x : Name) (c : CState) : List GlobalDef := c.globals.filter (fun g => g.sym = globalName x ++ dataSuffix)

theorem datas_remove {c : CState} {x y : Name} (hy : NameOk y) : datas x (removeGlobalByName c y) = datas x c := by
  unfold datas removeGlobalByName
  dsimp only
  generalize c.globals = gs
  induction gs with
  | nil => rfl
  | cons g gs ih =>
    by_cases hs : g.sym = globalName y
    · rw [List.eraseP_cons_of_pos (by simpa using hs)]
      simp only [List.filter_cons, hs]
      rw [if_neg]
      simpa using globalName_ne_data hy x
    · rw [List.eraseP_cons_of_neg (by simpa using hs)]
      simp only [List.filter_cons, ih]

theorem datas_new {c : CState} {x y : Name} (hy : NameOk y) {g : GlobalDef} (hg : g.sym = globalName y) :
    datas x (newGlobalDef c g) = datas x c := by
  unfold datas newGlobalDef
  simp [hg]
  exact globalName_ne_data hy x

theorem datas_ivals {x : Name} {vs : List Ival} {c c' : CState} {ks : List Const} (h : genIvals vs c = .ok ks c') :
    datas x c' = datas x c := by
  obtain ⟨gs, h1, h2⟩ := genIvals_strs h
  unfold datas
  rw [h1, List.filter_append, gname_isStr h2]; simp

theorem genDecl_datas {d : Decl} {c c' : CState} {x : Name} (hc : c.functions = []) (hn : d.All NameOk)
    (h : genDecl d c = .ok () c') (hd : varName d ≠ some x) : datas x c' = datas x c := by
  cases d with
  | func f ps b =>
    obtain ⟨bs, r, rfl⟩ := genDecl_func hc h
    obtain ⟨gs, h1, h2, _⟩ := r.gr hn.2.1 hn.2.2
    show datas x r.c3 = _
    unfold datas
    rw [h1, show (entered (defFunc f ps) r.c1).globals = c.globals by rw [r.c1_eq]; rfl, List.filter_append]
    have : gs.filter (fun g => decide (g.sym = globalName x ++ dataSuffix)) = [] := by
      rw [List.filter_eq_nil_iff]
      intro g hg
      rcases h2 g hg with ⟨_, n, hn⟩ | ⟨y, hy, rfl⟩
      · simp only [decide_eq_true_eq, hn]; exact fun e => data_ne_str x n e.symm
      · exact fun e => globalName_ne_data hy x (of_decide_eq_true e)
    rw [this]; simp
  | global y vals =>
    obtain ⟨ks, c1, h1, rfl⟩ := genDecl_global h
    have : datas x (newGlobalDef c1 ⟨globalName y, valsInit ks, false⟩) = datas x c := by
      rw [datas_new hn rfl, datas_ivals h1, datas_remove hn]
    exact this
  | vector y n vals =>
    obtain ⟨ks, c1, c2, g, h1, h2, rfl⟩ := genDecl_vector h
    have e1 : datas x (newGlobalDef c2 g) = datas x c2 := datas_new hn h2.g_eq.1
    have e2 : datas x c2 = datas x c1 := by
      cases h2 with
      | separate _ _ h3 _ =>
        subst h3
        unfold datas newGlobalDef
        simp
        exact fun e => hd (by rw [globalName_inj e]; rfl)
      | inline _ _ _ h3 _ => rw [h3]
    have : datas x (newGlobalDef c2 g) = datas x c := by
      rw [e1, e2, datas_ivals h1, datas_remove hn]
    exact this

theorem between_datas {p : Program} {c c' : CState} {x : Name} (h : Between p c c') (hc : c.functions = [])
    (hn : ∀ d ∈ p, d.All NameOk) (hd : ∀ d ∈ p, varName d ≠ some x) : datas x c' = datas x c := by
  induction h with
  | nil => rfl
  | cons h1 _ ih =>
    rw [ih rfl (fun d hd => hn d (by simp [hd])) (fun d m => hd d (by simp [m]))]
    have := genDecl_datas hc (hn _ List.mem_cons_self) h1 (hd _ List.mem_cons_self)
    exact this

theorem between_keepsStr {p : Program} {c c' : CState} (h : Between p c c') {ss : List (List Nat)} (hI : ProgInv c ss)
    (hn : ∀ d ∈ p, d.All NameOk) {g : GlobalDef} (hg : g ∈ c.globals) (hp : g.priv = true) : g ∈ c'.globals := by
  refine h.keepsG hI.functions hn hg ?_
  intro d hd x hx e
  have : g ∈ c.globals.filter (·.priv) := by rw [List.mem_filter]; exact ⟨hg, hp⟩
  rw [hI.str.1, List.mem_mapIdx] at this
  obtain ⟨i, _, hi⟩ := this
  rw [← hi] at e
  exact globalName_ne_str x i e.symm

/-! ## C28 -/

theorem scalar_layout {p : Program} {c : CState} (h2 : Between p newCompiler c) (hn : ∀ d ∈ p, d.All NameOk)
    (hI : ProgInv c (p.flatMap Decl.strings)) : ∀ pre x vals post, p = pre ++ .global x vals :: post → (∀ d ∈ post, d.var? ≠ some x) →
      ∃ g, Sole c.globals g ∧ g.sym = symbolOf x ∧ g.priv = false ∧
        ∃ ks, wordsOf g.init = some ks ∧ (vals = [] → ks = [.int 0]) ∧ (vals ≠ [] → HaveValues c.globals vals ks) := by
  intro pre x vals post hp hlast
  subst hp
  obtain ⟨c0, b1, b2⟩ := h2.split
  have i0 := b1.mid fun d hd => hn d (by simp [hd])
  cases b2 with
  | @cons _ _ _ c1 _ hd hpost =>
    have hnd : NameOk x := hn (.global x vals) (by simp)
    have i1 := i0.decl (d := .global x vals) hnd hd
    have hnp : ∀ d ∈ post, d.All NameOk := fun d hd => hn d (by simp [hd])
    obtain ⟨ks, c2, k1, rfl⟩ := genDecl_global hd
    have hmem : (⟨globalName x, valsInit ks, false⟩ : GlobalDef) ∈ c.globals := by
      refine hpost.keepsG rfl hnp ?_ ?_
      · simp [newGlobalDef]
      · intro d hd y hy e
        have := globalName_inj e
        subst this
        exact hlast d hd (by rw [var?_eq]; exact hy)
    have hv : Vals c.globals vals ks := by
      refine (genIvals_vals k1).mono fun g hg hp => ?_
      refine between_keepsStr hpost i1 hnp ?_ hp
      simp [newGlobalDef, hg]
    refine ⟨_, sole_of_count hmem (hI.ginv x hnd), rfl, rfl, ?_⟩
    cases hv with
    | nil => exact ⟨_, rfl, fun _ => rfl, fun h => absurd rfl h⟩
    | int hv' =>
      rename_i v vs ks
      refine ⟨.int v :: ks, ?_, (by simp), fun _ => Vals.have hI (.int hv')⟩
      cases ks with
      | nil => rfl
      | cons k ks => simp [valsInit, wordsOf]
    | str hs hv' =>
      rename_i s i vs ks
      refine ⟨.addr (strConst s i).sym (strConst s i).init.ty 0 :: ks, ?_, (by simp), fun _ => Vals.have hI (.str hs hv')⟩
      cases ks with
      | nil => rfl
      | cons k ks => simp [valsInit, wordsOf]

/-- C28. The last declaration `x v1, ..., vn;` of a variable `x` is emitted as the only global of the
symbol of `x`; its words are the values in order, or a single 0 if there are none. -/
theorem C28_scalars {chars : List Char} {t : Tail} {m : Module} (h : compileText chars t = .ok m) :
    ∃ p, Reads true chars p ∧ ∀ pre x vals post, p = pre ++ .global x vals :: post → (∀ d ∈ post, d.var? ≠ some x) →
      ∃ g, Sole m.globals g ∧ g.sym = symbolOf x ∧ g.priv = false ∧
        ∃ ks, wordsOf g.init = some ks ∧ (vals = [] → ks = [.int 0]) ∧ (vals ≠ [] → HaveValues m.globals vals ks) := by
  obtain ⟨p, c, h1, h2, rfl, hn, hI⟩ := compile_between h
  exact ⟨p, h1, scalar_layout h2 hn hI⟩

/-- a redeclared variable, and one with several values -/
example : (match compileText "x 1; y -2, 'a', \"s\"; x; main(){}".toList .eof with
    | .ok m => m.globals.map fun g => (String.ofList g.sym, wordsOf g.init)
    | .error _ => []) =
    [(".str.0", none), ("b.y", some [.int (-2), .int 97, .addr ".str.0".toList (.bytes 2) 0]), ("b.x", some [.int 0])] := by
  decide +kernel

/-! ## C29 -/

/-- number of words of `x[n] v1, ..., vk;` -/
def vecWords (n : Word) (k : Nat) : Nat := max (max n.toNat k) 1

theorem HaveValues.length {gs : List GlobalDef} {vs : List Ival} {ks : List Const} (h : HaveValues gs vs ks) : ks.length = vs.length := by
  induction h with
  | nil => rfl
  | cons _ _ ih => simp [ih]

theorem vector_layout {p : Program} {c : CState} (h2 : Between p newCompiler c) (hn : ∀ d ∈ p, d.All NameOk)
    (hI : ProgInv c (p.flatMap Decl.strings)) : ∀ pre x n vals post, p = pre ++ .vector x n vals :: post →
      (∀ d ∈ pre ++ post, d.var? ≠ some x) → n.toNat < 2 ^ 63 → vals.length < 2 ^ 63 →
      ∃ g k rest, Sole c.globals g ∧ g.sym = symbolOf x ∧ g.priv = false ∧ wordsOf g.init = some (k :: rest) ∧
        ∃ ks, HaveValues c.globals vals ks ∧
          PointsTo c.globals k ((ks ++ List.replicate (vecSize n vals.length - vals.length) (Const.int 0)).take (vecSize n vals.length)) := by
  intro pre x n vals post hp hlast hn63 hk63
  subst hp
  obtain ⟨c0, b1, b2⟩ := h2.split
  have hnpre : ∀ d ∈ pre, d.All NameOk := fun d hd => hn d (by simp [hd])
  have i0 := b1.mid hnpre
  cases b2 with
  | @cons _ _ _ c1 _ hd hpost =>
    have hnd : NameOk x := hn (.vector x n vals) (by simp)
    have i1 := i0.decl (d := .vector x n vals) hnd hd
    have hnp : ∀ d ∈ post, d.All NameOk := fun d hd => hn d (by simp [hd])
    obtain ⟨ks, c2, c3, g, k1, k2, rfl⟩ := genDecl_vector hd
    have hgs : ∀ g' ∈ c2.globals, g' ∈ c3.globals := by
      intro g' hg'
      cases k2 with
      | separate _ _ h3 _ => subst h3; simp [newGlobalDef, hg']
      | inline _ _ _ h3 _ => subst h3; exact hg'
    have hpostx : ∀ d ∈ post, ∀ y, varName d = some y → globalName x ≠ globalName y := by
      intro d hd y hy e
      have := globalName_inj e
      subst this
      exact hlast d (by simp [hd]) (by rw [var?_eq]; exact hy)
    have hmem : g ∈ c.globals := by
      refine hpost.keepsG rfl hnp ?_ ?_
      · simp [newGlobalDef]
      · intro d hd y hy; rw [k2.g_eq.1]; exact hpostx d hd y hy
    have hv : Vals c.globals vals ks := by
      refine (genIvals_vals k1).mono fun g hg hp => ?_
      refine between_keepsStr hpost i1 hnp ?_ hp
      simp [newGlobalDef, hgs g hg]
    have hlen : ks.length = vals.length := by
      have : ∀ {gs vs ks}, Vals gs vs ks → ks.length = vs.length := by
        intro gs vs ks h
        induction h with
        | nil => rfl
        | int _ ih => simp [ih]
        | str _ _ ih => simp [ih]
      exact this hv
    have hsole : Sole c.globals g := sole_of_count hmem (by rw [k2.g_eq.1]; exact hI.ginv x hnd)
    -- the size as a number
    generalize hsz : (if n = 0 then BitVec.ofNat 64 ks.length else n) = size at k2
    have hsz' : size.toNat = if n = 0 then vals.length else n.toNat := by
      subst hsz
      by_cases h0 : n = 0
      · subst h0; simp [hlen]; omega
      · rw [if_neg h0, if_neg h0]
    have hlt : size.toNat < 2 ^ 63 := by rw [hsz']; split <;> omega
    have hint : ∀ w : Word, w.toNat < 2 ^ 63 → w.toInt = w.toNat := by
      intro w hw; rw [BitVec.toInt_eq_toNat_cond]; rw [if_pos (by omega)]
    cases k2 with
    | separate e1 e2 e3 e4 =>
      subst e1
      cases hv
      rw [hint _ hlt] at e2
      refine ⟨g, .addr (globalName x ++ dataSuffix) (.arr size.toNat) 0, [], hsole, by rw [e4]; rfl, by rw [e4], by rw [e4]; rfl,
        [], .nil, ?_⟩
      refine ⟨⟨globalName x ++ dataSuffix, .zero size.toNat, false⟩, ?_, rfl, 0, _, rfl, rfl, ?_⟩
      · have d0 : datas x c0 = [] := by
          rw [between_datas (x := x) b1 rfl hnpre fun d hd => by rw [← var?_eq]; exact hlast d (by simp [hd])]
          rfl
        have d1 : datas x c = [⟨globalName x ++ dataSuffix, .zero size.toNat, false⟩] := by
          rw [between_datas (x := x) hpost rfl hnp fun d hd => by rw [← var?_eq]; exact hlast d (by simp [hd])]
          show datas x (newGlobalDef c3 g) = _
          rw [datas_new hnd (by rw [e4]), e3]
          have : datas x c2 = [] := by rw [datas_ivals k1, datas_remove hnd, d0]
          unfold datas at this ⊢
          simp only [newGlobalDef, List.filter_append, this]
          simp
        exact d1
      · have : ([] : List Ival).length = 0 := rfl
        rw [this] at hsz'
        have hv1 : vecSize n 0 = size.toNat := by
          unfold vecSize
          by_cases h0 : n = 0
          · rw [if_pos h0] at hsz'; omega
          · rw [if_neg h0] at hsz' ⊢; exact hsz'.symm
        simp only [List.nil_append, List.drop_zero, this, hv1]
        simp
    | inline w e1 e2 e3 e4 =>
      have hw : w.toNat = vecSize n vals.length := by
        rw [e1]
        unfold vecSize
        by_cases hn0 : n = 0
        · rw [if_pos hn0] at hsz' ⊢
          by_cases h0 : size = 0 ∧ ks = []
          · rw [if_pos h0]
            have : ks.length = 0 := by rw [h0.2]; rfl
            show 1 = _
            omega
          · rw [if_neg h0, hsz']
            have : ¬ vals.length = 0 := by
              intro hl
              exact h0 ⟨BitVec.eq_of_toNat_eq (by rw [hsz', hl]; rfl), List.length_eq_zero_iff.1 (by omega)⟩
            omega
        · rw [if_neg hn0] at hsz' ⊢
          have : ¬ (size = 0 ∧ ks = []) := by
            rintro ⟨h, _⟩
            rw [h] at hsz'
            exact hn0 (BitVec.eq_of_toNat_eq (by simpa using hsz'.symm))
          rw [if_neg this, hsz']
      have hw63 : w.toNat < 2 ^ 63 := by rw [hw]; unfold vecSize; split <;> omega
      have hw1 : (w + 1).toNat = w.toNat + 1 := by
        rw [BitVec.toNat_add]
        show (w.toNat + 1) % 2 ^ 64 = _
        omega
      rw [hint _ hw63, hw1] at e4
      have hall : wordsOf g.init = some (.addr (globalName x) (.arr (w.toNat + 1)) 1 ::
          (List.range w.toNat).map fun i => ks.getD i (.int 0)) := by
        rw [e4]; simp [wordsOf]
      refine ⟨g, _, _, hsole, by rw [e4]; rfl, by rw [e4], hall, ks, Vals.have hI hv, g, hsole, by rw [e4], 1, _, ?_, hall, ?_⟩
      · rw [e4]; rfl
      · rw [List.drop_one, List.tail_cons]
        rw [← hw, ← hlen]
        apply List.ext_getElem
        · simp; omega
        · intro i h1 h2
          simp only [List.length_map, List.length_range] at h2
          simp only [List.getElem_map, List.getElem_range, List.getElem_take]
          by_cases hi : i < ks.length
          · rw [List.getElem_append_left hi]; simp [hi]
          · rw [List.getElem_append_right (by omega)]; simp [hi]

/-- C29, what the compiler does in all cases: the only declaration of a vector `x[n] v1, ..., vk;` gives a cell
that holds the address of `n` words, or of `k` (at least one) if no size or 0 is written: as many of the values as there is
room for, in order, and 0 for the rest.  Sizes ≥ 2^63 are excluded (no machine has that memory); a vector declared twice is excluded
because it leaves two blocks of the same name (C25). -/
theorem C29_layout {chars : List Char} {t : Tail} {m : Module} (h : compileText chars t = .ok m) :
    ∃ p, Reads true chars p ∧ ∀ pre x n vals post, p = pre ++ .vector x n vals :: post →
      (∀ d ∈ pre ++ post, d.var? ≠ some x) → n.toNat < 2 ^ 63 → vals.length < 2 ^ 63 →
      ∃ g k rest, Sole m.globals g ∧ g.sym = symbolOf x ∧ g.priv = false ∧ wordsOf g.init = some (k :: rest) ∧
        ∃ ks, HaveValues m.globals vals ks ∧
          PointsTo m.globals k ((ks ++ List.replicate (vecSize n vals.length - vals.length) (Const.int 0)).take (vecSize n vals.length)) := by
  obtain ⟨p, c, h1, h2, rfl, hn, hI⟩ := compile_between h
  exact ⟨p, h1, vector_layout h2 hn hI⟩

/-- C29. The only declaration of a vector `x[n] v1, ..., vk;` gives a cell that holds the address of
`max n k` words (at least one): the values in order, and 0 for the rest.
Missing: when a size is written and there are more values than that, the excess values are dropped
(`C29_layout`, `C29_excess_counterexample`), so the theorem assumes `k ≤ n` if a size is written. -/
theorem C29_vectors_partial {chars : List Char} {t : Tail} {m : Module} (h : compileText chars t = .ok m) :
    ∃ p, Reads true chars p ∧ ∀ pre x n vals post, p = pre ++ .vector x n vals :: post →
      (∀ d ∈ pre ++ post, d.var? ≠ some x) → (n = 0 ∨ vals.length ≤ n.toNat) → n.toNat < 2 ^ 63 → vals.length < 2 ^ 63 →
      ∃ g k rest, Sole m.globals g ∧ g.sym = symbolOf x ∧ g.priv = false ∧ wordsOf g.init = some (k :: rest) ∧
        ∃ ks, HaveValues m.globals vals ks ∧
          PointsTo m.globals k (ks ++ List.replicate (vecWords n vals.length - vals.length) (.int 0)) := by
  obtain ⟨p, h1, h2⟩ := C29_layout h
  refine ⟨p, h1, fun pre x n vals post hp hlast hfit hn63 hk63 => ?_⟩
  obtain ⟨g, k, rest, a1, a2, a3, a4, ks, a5, a6⟩ := h2 pre x n vals post hp hlast hn63 hk63
  refine ⟨g, k, rest, a1, a2, a3, a4, ks, a5, ?_⟩
  have hv : vecSize n vals.length = vecWords n vals.length := by
    unfold vecSize vecWords
    by_cases h0 : n = 0
    · subst h0; rw [if_pos rfl]
      show max vals.length 1 = max (max 0 vals.length) 1
      omega
    · have : n.toNat ≠ 0 := fun e => h0 (BitVec.eq_of_toNat_eq e)
      rw [if_neg h0]
      rcases hfit with e | e
      · exact absurd e h0
      · omega
  have hl := HaveValues.length a5
  rw [hv, List.take_of_length_le] at a6
  · exact a6
  · simp [hl, vecWords]; omega

/-- a vector with values and a larger size; one with a size only; one with values only; an empty one -/
example : (match compileText "v[3] 7, 8; u[2]; w[] 1, 2; z[];".toList .eof with
    | .ok m => m.globals.map fun g => (String.ofList g.sym, wordsOf g.init)
    | .error _ => []) =
    [("b.v", some [.addr "b.v".toList (.arr 4) 1, .int 7, .int 8, .int 0]),
     ("b.u.data", some [.int 0, .int 0]),
     ("b.u", some [.addr "b.u.data".toList (.arr 2) 0]),
     ("b.w", some [.addr "b.w".toList (.arr 3) 1, .int 1, .int 2]),
     ("b.z", some [.addr "b.z".toList (.arr 2) 1, .int 0])] := by
  decide +kernel

/-- C29 is false when a size is written and more values are given: the excess values are lost. -/
theorem C29_excess_counterexample :
    (match compileText "v[1] 1, 2, 3;".toList .eof with
      | .ok m => m.globals.map fun g => (String.ofList g.sym, wordsOf g.init)
      | .error _ => []) = [("b.v", some [.addr "b.v".toList (.arr 2) 1, .int 1])] := by decide +kernel

end Blang.Props
