import Verif.Proofs.ProgMain
import Verif.Spec.Module
/-
Properties C06, C24-C29: what the emitted module contains.
All theorems are about `compileText`, the model of the whole front end, and every text.
-/
namespace Blang.Props
open Blang Blang.Spec

theorem symbolOf_eq (x : Ident) : symbolOf x = globalName x := rfl

/-! ## C06, C27: string constants -/

theorem utf8_ascii {vs : List Nat} (h : ∀ v ∈ vs, v < 128) : utf8 (vs.map Char.ofNat) = vs.map Char.ofNat := by
  induction vs with
  | nil => rfl
  | cons v vs ih =>
    have hv := h v (by simp)
    have := ih fun x hx => h x (by simp [hx])
    simp only [utf8, List.map_cons, List.flatMap_cons] at this ⊢
    rw [this]
    simp [utf8Char, charOfNat_toNat (show v < 0xd800 by omega), hv]

theorem stringBytes_ascii {vs : List Nat} (h : ∀ v ∈ vs, v < 128) : stringBytes (vs.map Char.ofNat) = cString vs := by
  unfold stringBytes cString
  rw [utf8_ascii h, List.map_map]
  congr 1
  apply List.map_congr_left
  intro v hv
  simp only [Function.comp]
  rw [charOfNat_toNat (show v < 0xd800 by have := h v hv; omega)]

theorem stringBytes_bytes {vs : List Nat} (h : ∀ v ∈ vs, v < 256) : stringBytes (vs.map Char.ofNat) = cString (vs.flatMap utf8Code) := by
  have key : ∀ v < 256, (utf8Char (Char.ofNat v)).map (fun c => BitVec.ofNat 8 c.toNat) = (utf8Code v).map (BitVec.ofNat 8) := by
    intro v hv
    have e := charOfNat_toNat (show v < 0xd800 by omega)
    unfold utf8Char utf8Code
    rw [e]
    by_cases h1 : v < 128
    · simp [h1, e]
    · rw [if_neg h1, if_neg h1]
      have h2 : 192 + v / 64 % 32 = 192 + v / 64 := by omega
      rw [h2]
      simp only [List.map_cons, List.map_nil]
      rw [charOfNat_toNat (show 192 + v / 64 < 0xd800 by omega), charOfNat_toNat (show 128 + v % 64 < 0xd800 by omega)]
  unfold stringBytes cString utf8
  congr 1
  induction vs with
  | nil => rfl
  | cons v vs ih =>
    simp only [List.map_cons, List.flatMap_cons, List.map_append]
    rw [key v (h v (by simp)), ih fun x hx => h x (by simp [hx])]

/-- C06, what the compiler does in all cases: the private constants of the module are exactly the string literals of the program,
in order; each one holds its characters, those of 128 and above (read as code points U+0080 to U+00FF) in UTF-8, and a final 0. -/
theorem C06_bytes {chars : List Char} {t : Tail} {m : Module} (h : compileText chars t = .ok m) :
    ∃ p, Reads true chars p ∧
      (m.globals.filter (·.priv)).length = (p.flatMap Decl.strings).length ∧
      ∀ (i : Nat) (vs : List Nat), (p.flatMap Decl.strings)[i]? = some vs → (∀ v ∈ vs, v < 256) →
        ∃ g : GlobalDef, (m.globals.filter (·.priv))[i]? = some g ∧ g.init = .bytes (cString (vs.flatMap utf8Code)) := by
  obtain ⟨p, c, h1, h2, rfl, hn, hI⟩ := compile_between h
  obtain ⟨s1, s2⟩ := hI.str
  refine ⟨p, h1, by simp only [s1]; simp, ?_⟩
  intro i vs hi hv
  refine ⟨strConst vs i, ?_, ?_⟩
  · simp only [s1, List.getElem?_mapIdx, hi]; rfl
  · simp only [strConst, stringBytes_bytes hv]

/-- a literal with a byte of 128 or more: the hypotheses of `C06_bytes` are met -/
example : (match compileText ("main(){f(\"a".toList ++ [Char.ofNat 0xE9] ++ "\");}".toList) .eof with
      | .ok m => (m.globals.filter (·.priv)).map (·.init)
      | .error _ => []) = [.bytes (cString ([97, 0xE9].flatMap utf8Code))] := by decide +kernel

/-- C06. The private constants of the module are exactly the string literals of the program, in
order; each one whose characters are all ASCII holds exactly these characters and a final 0.
(The values `vs` of a literal are related to its text by `Spec.Items`, see `Spec.Lexes.str`.)
Missing: for characters ≥ 128 the property is false, see `C06_latin1_counterexample`. -/
theorem C06_strings_partial {chars : List Char} {t : Tail} {m : Module} (h : compileText chars t = .ok m) :
    ∃ p, Reads true chars p ∧
      (m.globals.filter (·.priv)).length = (p.flatMap Decl.strings).length ∧
      ∀ (i : Nat) (vs : List Nat), (p.flatMap Decl.strings)[i]? = some vs → (∀ v ∈ vs, v < 128) →
        ∃ g : GlobalDef, (m.globals.filter (·.priv))[i]? = some g ∧ g.init = .bytes (cString vs) := by
  obtain ⟨p, c, h1, h2, rfl, hn, hI⟩ := compile_between h
  obtain ⟨s1, s2⟩ := hI.str
  refine ⟨p, h1, by simp only [s1]; simp, ?_⟩
  intro i vs hi hv
  refine ⟨strConst vs i, ?_, ?_⟩
  · simp only [s1, List.getElem?_mapIdx, hi]; rfl
  · simp only [strConst, stringBytes_ascii hv]

/-- the literals of a concrete program: the hypotheses of C06 are met -/
example : (match compileText "main(){printf(\"a*n\"); f(\"\");}".toList .eof with
    | .ok m => (m.globals.filter (·.priv)).map (·.init)
    | .error _ => []) = [.bytes [97, 10, 0], .bytes [0]] := by decide +kernel

/-- C06 is false for characters ≥ 128: the byte 0xE9 in a literal is emitted as two bytes. -/
theorem C06_latin1_counterexample :
    (match compileText ("main(){f(\"".toList ++ [Char.ofNat 0xE9] ++ "\");}".toList) .eof with
      | .ok m => (m.globals.filter (·.priv)).map (·.init)
      | .error _ => []) = [.bytes [0xC3, 0xA9, 0]] := by decide +kernel

/-- C27. String constants have names that no other object of the module has. -/
theorem C27_own_constant {chars : List Char} {t : Tail} {m : Module} (h : compileText chars t = .ok m)
    {i : Nat} {g : GlobalDef} (hi : m.globals[i]? = some g) (hp : g.priv = true) :
    (∀ j g', m.globals[j]? = some g' → g'.sym = g.sym → j = i) ∧ (∀ f ∈ m.funcs, f.sym ≠ g.sym) := by
  obtain ⟨p, c, h1, h2, rfl, hn, hI⟩ := compile_between h
  obtain ⟨s1, s2⟩ := hI.str
  have hstr : ∀ g ∈ c.globals, g.priv = true → ∃ n, g.sym = strSym n := by
    intro g hg hp
    have : g ∈ c.globals.filter (·.priv) := by rw [List.mem_filter]; exact ⟨hg, hp⟩
    rw [s1, List.mem_mapIdx] at this
    obtain ⟨i, _, hi⟩ := this
    exact ⟨i, by rw [← hi]; rfl⟩
  obtain ⟨n, hn'⟩ := hstr g (List.mem_of_getElem? hi) hp
  constructor
  · intro j g' hj he
    have hp' : g'.priv = true := by
      rcases hI.gsym g' (List.mem_of_getElem? hj) with h | ⟨x, hx, h | h⟩
      · exact h
      · exact absurd (h.symm.trans (he.trans hn')) (globalName_ne_str x n)
      · exact absurd (h.symm.trans (he.trans hn')) (data_ne_str x n)
    -- names of private globals are pairwise different
    have nd : ((c.globals.filter (·.priv)).map GlobalDef.sym).Nodup := by
      rw [s1]
      rw [List.nodup_iff_pairwise_ne, List.pairwise_iff_getElem]
      intro a b ha hb hab
      simp [strConst]
      intro e
      exact absurd (strSym_inj e) (by omega)
    have key : ∀ (gs : List GlobalDef) (i j : Nat) (a b : GlobalDef), ((gs.filter (·.priv)).map GlobalDef.sym).Nodup →
        gs[i]? = some a → gs[j]? = some b → a.priv = true → b.priv = true → b.sym = a.sym → j = i := by
      intro gs
      induction gs with
      | nil => intro i j a b _ h; simp at h
      | cons x gs ih =>
        intro i j a b nd ha hb pa pb e
        have tailnd : ((gs.filter (·.priv)).map GlobalDef.sym).Nodup := by
          simp only [List.filter_cons] at nd
          split at nd
          · exact (List.nodup_cons.1 nd).2
          · exact nd
        have hmem : ∀ {k : Nat} {y : GlobalDef}, gs[k]? = some y → y.priv = true → y.sym ∈ (gs.filter (·.priv)).map GlobalDef.sym := by
          intro k y hk py
          exact List.mem_map_of_mem (List.mem_filter.2 ⟨List.mem_of_getElem? hk, py⟩)
        cases i with
        | zero =>
          simp at ha; subst ha
          cases j with
          | zero => rfl
          | succ j =>
            simp at hb
            simp only [List.filter_cons, pa, if_true, List.map_cons, List.nodup_cons] at nd
            exact absurd (e ▸ hmem hb pb) nd.1
        | succ i =>
          simp at ha
          cases j with
          | zero =>
            simp at hb; subst hb
            simp only [List.filter_cons, pb, if_true, List.map_cons, List.nodup_cons] at nd
            exact absurd (e ▸ hmem ha pa) nd.1
          | succ j => simp at hb; rw [ih i j a b tailnd ha hb pa pb e]
    exact key _ _ _ _ _ nd hi hj hp hp' he
  · intro f hf he
    rcases hI.fsym f hf with ⟨x, _, h⟩ | h | h
    · exact globalName_ne_str x n (h.symm.trans (he.trans hn'))
    · exact (str_ne_va n).1 (hn'.symm.trans (he.symm.trans h))
    · exact (str_ne_va n).2 (hn'.symm.trans (he.symm.trans h))

/-! ## C26: symbols -/

/-- C26. Distinct B names have distinct symbols. -/
theorem C26_injective {x y : Ident} (h : symbolOf x = symbolOf y) : x = y := globalName_inj h

/-- C26. The symbol of every name but `main` begins with `b.`. -/
theorem C26_prefix {x : Ident} (h : x ≠ "main".toList) : symbolOf x = "b.".toList ++ x := by
  exact if_neg h

/-- C26. Every function of the module has the symbol of a B name or is one of two LLVM intrinsics. -/
theorem C26_functions {chars : List Char} {t : Tail} {m : Module} (h : compileText chars t = .ok m) :
    ∀ f ∈ m.funcs, (∃ x, NameOk x ∧ f.sym = symbolOf x) ∨
      (f.blocks = [] ∧ (f.sym = "llvm.va_start".toList ∨ f.sym = "llvm.va_end".toList)) := by
  obtain ⟨p, c, h1, h2, rfl, hn, hI⟩ := compile_between h
  intro f hf
  rcases hI.fsym f hf with h | h
  · exact .inl h
  · refine .inr ⟨?_, h⟩
    have hb : ∀ {p : Program} {c c' : CState}, Between p c c' → c.functions = [] → (∀ d ∈ p, d.All NameOk) →
        (∀ f ∈ c.funcs, (∃ x, NameOk x ∧ f.sym = globalName x) ∨ f.blocks = []) →
        (∀ f ∈ c'.funcs, (∃ x, NameOk x ∧ f.sym = globalName x) ∨ f.blocks = []) := by
      intro p c c' hb
      induction hb with
      | nil => exact fun _ _ h => h
      | @cons d p c c1 c' hd _ ih =>
        intro hc hn hf
        refine ih rfl (fun d hd => hn d (by simp [hd])) ?_
        have hnd := hn d (by simp)
        cases d with
        | func f ps b =>
          obtain ⟨bs, r, rfl⟩ := genDecl_func hc hd
          obtain ⟨fs, k1, k2, _⟩ := r.funcs hnd.2.1 hnd.2.2
          intro F hF
          replace hF : F ∈ r.c3.funcs.map _ := hF
          rw [List.mem_map] at hF
          obtain ⟨F', hF', rfl⟩ := hF
          by_cases hs : F'.sym = r.c3.curSym
          · rw [if_pos hs]
            exact .inl ⟨f, hnd.1, by show F'.sym = _; rw [hs, r.curSym hnd.2.1 hnd.2.2]⟩
          · rw [if_neg hs]
            rw [k1, List.append_assoc, List.mem_append, List.mem_append] at hF'
            rcases hF' with h | h | h
            · exact hf _ (List.mem_of_mem_eraseP h)
            · simp at h; subst h; exact .inl ⟨f, hnd.1, rfl⟩
            · exact .inr (k2 _ h).blocks
        | global x vals =>
          obtain ⟨ks, c1, h1, rfl⟩ := genDecl_global hd
          obtain ⟨h2, _⟩ := genIvals_grow h1
          show ∀ f ∈ c1.funcs, _
          rw [h2]; exact hf
        | vector x n vals =>
          obtain ⟨ks, c1, c2, g', h1, h3, rfl⟩ := genDecl_vector hd
          obtain ⟨h2, _⟩ := genIvals_grow h1
          have : c2.funcs = c1.funcs := by
            cases h3 with
            | separate _ _ h3 _ => subst h3; rfl
            | inline _ _ _ h3 _ => subst h3; rfl
          show ∀ f ∈ c2.funcs, _
          rw [this, h2]; exact hf
    rcases hb h2 rfl hn (by simp [newCompiler]) f hf with ⟨x, _, hx⟩ | h'
    · rcases h with h | h
      · exact absurd (hx.symm.trans h) (globalName_ne_va x).1
      · exact absurd (hx.symm.trans h) (globalName_ne_va x).2
    · exact h'

/-- C26. Every global of the module is a string constant `.str.n`, or has the symbol of a B name, or
that symbol followed by `.data`. -/
theorem C26_globals {chars : List Char} {t : Tail} {m : Module} (h : compileText chars t = .ok m) :
    ∀ g ∈ m.globals, (g.priv = true ∧ ".str.".toList <+: g.sym) ∨
      ∃ x, NameOk x ∧ (g.sym = symbolOf x ∨ g.sym = symbolOf x ++ ".data".toList) := by
  obtain ⟨p, c, h1, h2, rfl, hn, hI⟩ := compile_between h
  intro g hg
  rcases hI.gsym g hg with h | h
  · left
    refine ⟨h, ?_⟩
    have : g ∈ c.globals.filter (·.priv) := by rw [List.mem_filter]; exact ⟨hg, h⟩
    rw [hI.str.1, List.mem_mapIdx] at this
    obtain ⟨i, _, hi⟩ := this
    exact ⟨natDec i, by rw [← hi]; rfl⟩
  · exact .inr h

/-! ## C24: functions -/

theorem fun?_eq (d : Decl) : d.fun? = funName d := by cases d <;> rfl
theorem var?_eq (d : Decl) : d.var? = varName d := by cases d <;> rfl

/-- C24. No two functions of the module have the same symbol. -/
theorem C24_functions_distinct {chars : List Char} {t : Tail} {m : Module} (h : compileText chars t = .ok m) :
    (m.funcs.map (·.sym)).Nodup := by
  obtain ⟨p, c, h1, h2, rfl, hn, hI⟩ := compile_between h
  exact hI.nodup

/-- C24. A definition that is not followed by another one of the same name is emitted: the only
function of that symbol has its first parameter, and its blocks are the code generated for the body
of this definition (`FuncRun`: declare, store the parameters, generate the body, close the last
block). -/
theorem C24_last_definition {chars : List Char} {t : Tail} {m : Module} (h : compileText chars t = .ok m) :
    ∃ p, Reads true chars p ∧ ∀ pre f ps b post, p = pre ++ .func f ps b :: post → (∀ d ∈ post, d.fun? ≠ some f) →
      ∃ F ∈ m.funcs, F.sym = symbolOf f ∧ F.params = ps.take 1 ∧ F.variadic = decide (ps ≠ []) ∧
        (∀ F' ∈ m.funcs, F'.sym = symbolOf f → F' = F) ∧
        ∃ c, c.ctx = [] ∧ c.functions = [] ∧ Nonempty (FuncRun f ps b c F.blocks) := by
  obtain ⟨p, c, h1, h2, rfl, hn, hI⟩ := compile_between h
  refine ⟨p, h1, ?_⟩
  intro pre f ps b post hp hlast
  subst hp
  obtain ⟨c0, b1, b2⟩ := h2.split
  have i0 := b1.mid fun d hd => hn d (by simp [hd])
  cases b2 with
  | @cons _ _ _ c1 _ hd hpost =>
    have hnd := hn (.func f ps b) (by simp)
    obtain ⟨bs, r, rfl⟩ := genDecl_func i0.functions hd
    obtain ⟨fs, k1, k2, k3⟩ := r.funcs hnd.2.1 hnd.2.2
    have hs := r.curSym hnd.2.1 hnd.2.2
    have hin : ({ defFunc f ps with blocks := bs } : Func) ∈ c.funcs := by
      refine hpost.keepsF rfl (fun d hd => hn d (by simp [hd])) ?_ ?_
      · show _ ∈ r.c3.funcs.map _
        rw [List.mem_map]
        refine ⟨defFunc f ps, by rw [k1]; simp, ?_⟩
        rw [hs]; exact if_pos rfl
      · intro d hd x hx e
        have e' : globalName f = globalName x := e
        have := globalName_inj e'
        subst this
        exact hlast d hd (by rw [fun?_eq]; exact hx)
    refine ⟨_, hin, rfl, rfl, rfl, ?_, c0, i0.ctx, i0.functions, ⟨r⟩⟩
    intro F' hF' he
    have inj : ∀ (fs : List Func), (fs.map Func.sym).Nodup → ∀ a ∈ fs, ∀ b ∈ fs, a.sym = b.sym → a = b := by
      intro fs
      induction fs with
      | nil => simp
      | cons x fs ih =>
        intro nd a ha b hb e
        simp only [List.map_cons, List.nodup_cons] at nd
        rw [List.mem_cons] at ha hb
        rcases ha with rfl | ha <;> rcases hb with rfl | hb
        · rfl
        · exact absurd (e ▸ List.mem_map_of_mem hb) nd.1
        · exact absurd (e ▸ List.mem_map_of_mem ha) nd.1
        · exact ih nd.2 a ha b hb e
    exact inj c.funcs hI.nodup _ hF' _ hin he

/-- two definitions and a call before them: one function, the second definition -/
example : (match compileText "main(){f(1);} f(a){return(a);} f(b){return(2);}".toList .eof with
    | .ok m => m.funcs.map fun f => (f.sym, f.params)
    | .error _ => []) = [("main".toList, []), ("b.f".toList, ["b".toList])] := by decide +kernel

/-! ## C25: symbols are defined once -/

/-- C25. Two globals of the module with the same symbol are the `.data` blocks of a vector.
Missing: such duplicates exist, and so do clashes of a variable with a function, see the
counterexamples. -/
theorem C25_globals_partial {chars : List Char} {t : Tail} {m : Module} (h : compileText chars t = .ok m)
    {i j : Nat} {g g' : GlobalDef} (hi : m.globals[i]? = some g) (hj : m.globals[j]? = some g') (hij : i ≠ j)
    (he : g.sym = g'.sym) : ∃ x, NameOk x ∧ g.sym = symbolOf x ++ ".data".toList := by
  have h27 := fun hp => (C27_own_constant h hi hp).1 j g' hj he.symm
  obtain ⟨p, c, h1, h2, rfl, hn, hI⟩ := compile_between h
  rcases hI.gsym g (List.mem_of_getElem? hi) with hp | ⟨x, hx, hs | hs⟩
  · exact absurd (h27 hp).symm hij
  · exfalso
    have key : ∀ (gs : List GlobalDef) (i j : Nat), i < j → gs[i]? = some g → gs[j]? = some g' →
        2 ≤ (gs.filter (fun g => g.sym = globalName x)).length := by
      have hg : decide (g.sym = globalName x) = true := by simpa using hs
      have hg' : decide (g'.sym = globalName x) = true := by simpa using he.symm.trans hs
      intro gs
      induction gs with
      | nil => intro i j _ h; simp at h
      | cons y gs ih =>
        intro i j hij hi hj
        cases j with
        | zero => omega
        | succ j =>
          simp at hj
          cases i with
          | succ i =>
            simp at hi
            have := ih i j (by omega) hi hj
            simp only [List.filter_cons]
            split
            · simp; omega
            · exact this
          | zero =>
            simp at hi; subst hi
            simp only [List.filter_cons, hg, if_true, List.length_cons]
            have : g' ∈ gs.filter (fun g => decide (g.sym = globalName x)) :=
              List.mem_filter.2 ⟨List.mem_of_getElem? hj, hg'⟩
            have := List.length_pos_of_mem this
            omega
    have hle := hI.ginv x hx
    rcases Nat.lt_or_gt_of_ne hij with hlt | hlt
    · have := key c.globals _ _ hlt hi hj; omega
    · have key' : 2 ≤ (c.globals.filter (fun g => g.sym = globalName x)).length := by
        have hg : decide (g.sym = globalName x) = true := by simpa using hs
        have hg' : decide (g'.sym = globalName x) = true := by simpa using he.symm.trans hs
        have gen : ∀ (gs : List GlobalDef) (i j : Nat), j < i → gs[i]? = some g → gs[j]? = some g' →
            2 ≤ (gs.filter (fun g => g.sym = globalName x)).length := by
          intro gs
          induction gs with
          | nil => intro i j _ h; simp at h
          | cons y gs ih =>
            intro i j hij hi hj
            cases i with
            | zero => omega
            | succ i =>
              simp at hi
              cases j with
              | succ j =>
                simp at hj
                have := ih i j (by omega) hi hj
                simp only [List.filter_cons]
                split
                · simp; omega
                · exact this
              | zero =>
                simp at hj; subst hj
                simp only [List.filter_cons, hg', if_true, List.length_cons]
                have : g ∈ gs.filter (fun g => decide (g.sym = globalName x)) :=
                  List.mem_filter.2 ⟨List.mem_of_getElem? hi, hg⟩
                have := List.length_pos_of_mem this
                omega
        exact gen c.globals _ _ hlt hi hj
      omega
  · exact ⟨x, hx, hs⟩

/-- C25 is false: a vector declared twice leaves two blocks of the same name. -/
theorem C25_vector_twice_counterexample :
    (match compileText "v[5]; v[5];".toList .eof with
      | .ok m => m.globals.map (·.sym)
      | .error _ => []) = ["b.v.data".toList, "b.v.data".toList, "b.v".toList] := by decide +kernel

/-- C25 is false: a variable and a function of the same name are both emitted. -/
theorem C25_variable_and_function_counterexample :
    (match compileText "f; f(){}".toList .eof with
      | .ok m => m.globals.map (·.sym) ++ m.funcs.map (·.sym)
      | .error _ => []) = ["b.f".toList, "b.f".toList] := by decide +kernel

end Blang.Props
