import Verif.Spec.Image
import Verif.Props.Globals
import Verif.Props.Files
import Verif.Props.Exact
/-
Property C67: what variables contain when the program starts.
-/
namespace Blang.Props
open Blang Blang.Spec

theorem Sole.mem {gs : List GlobalDef} {g : GlobalDef} (h : Sole gs g) : g ∈ gs := by
  have : g ∈ gs.filter (fun g' => g'.sym = g.sym) := by rw [h]; simp
  exact (List.mem_filter.1 this).1

theorem holds_of_value {m : Module} {addr : List Char → Word} {mem : Mem} (hd : Module.DataIn m addr mem) {v : Ival} {k : Const}
    (h : HasValue m.globals v k) : v.Holds mem (Const.value addr k) := by
  cases h with
  | int => rfl
  | str hs _ hb =>
    intro hv
    have := (hd _ (Sole.mem hs)).1 _ (hb hv)
    simpa [Const.value] using this

theorem HaveValues.get {gs : List GlobalDef} {vs : List Ival} {ks : List Const} (h : HaveValues gs vs ks) :
    ∀ i (h1 : i < vs.length) (h2 : i < ks.length), HasValue gs vs[i] ks[i] := by
  induction h with
  | nil => intro i h1; simp at h1
  | cons h _ ih =>
    intro i h1 h2
    cases i with
    | zero => exact h
    | succ i => exact ih i (by simpa using h1) (by simpa using h2)

theorem genDecl_zero {d : Decl} {c c' : CState} {x : Name} (hc : c.functions = []) (hx : NameOk x) (hn : d.All NameOk)
    (h : genDecl d c = .ok () c') (hd : varName d ≠ some x) {g : GlobalDef} (hg : g ∈ c'.globals) (hs : g.sym = globalName x) :
    g ∈ c.globals ∨ g = gzero x := by
  have notStr : ∀ gs : List GlobalDef, (∀ g ∈ gs, IsStr g) → g ∉ gs := by
    intro gs hgs hm
    obtain ⟨_, n, e⟩ := hgs g hm
    exact globalName_ne_str x n (hs.symm.trans e)
  cases d with
  | func f ps b =>
    obtain ⟨bs, r, rfl⟩ := genDecl_func hc h
    obtain ⟨gs, h1, h2, _⟩ := r.gr hn.2.1 hn.2.2
    have hg : g ∈ r.c3.globals := hg
    rw [h1, show (entered (defFunc f ps) r.c1).globals = c.globals by rw [r.c1_eq]; rfl, List.mem_append] at hg
    rcases hg with hg | hg
    · exact .inl hg
    · rcases h2 g hg with ⟨_, n, e⟩ | ⟨y, hy, rfl⟩
      · exact absurd (hs.symm.trans e) (globalName_ne_str x n)
      · have : y = x := globalName_inj hs
        exact .inr (by rw [this])
  | global y vals =>
    obtain ⟨ks, c1, h1, rfl⟩ := genDecl_global h
    obtain ⟨gs, e1, e2⟩ := genIvals_strs h1
    simp only [newGlobalDef, e1, List.mem_append, List.mem_singleton] at hg
    rcases hg with (hg | hg) | rfl
    · exact .inl (List.mem_of_mem_eraseP hg)
    · exact absurd hg (notStr gs e2)
    · exact absurd (by rw [globalName_inj hs]; rfl) hd
  | vector y n vals =>
    obtain ⟨ks, c1, c2, g', h1, h3, rfl⟩ := genDecl_vector h
    obtain ⟨gs, e1, e2⟩ := genIvals_strs h1
    have hg' : g ∈ c2.globals ∨ g = g' := by simpa [newGlobalDef] using hg
    rcases hg' with hg | rfl
    · have : g ∈ c1.globals := by
        cases h3 with
        | separate _ _ h3 _ =>
          subst h3
          simp only [newGlobalDef, List.mem_append, List.mem_singleton] at hg
          rcases hg with hg | rfl
          · exact hg
          · exact absurd hs.symm (globalName_ne_data hx y)
        | inline _ _ _ h3 _ => rw [← h3]; exact hg
      rw [e1, List.mem_append] at this
      rcases this with hg | hg
      · exact .inl (List.mem_of_mem_eraseP hg)
      · exact absurd hg (notStr gs e2)
    · exact absurd (by rw [globalName_inj (h3.g_eq.1.symm.trans hs)]; rfl) hd

theorem between_zero {p : Program} {c c' : CState} {x : Name} (h : Between p c c') (hc : c.functions = []) (hx : NameOk x)
    (hn : ∀ d ∈ p, d.All NameOk) (hd : ∀ d ∈ p, varName d ≠ some x) {g : GlobalDef} (hg : g ∈ c'.globals) (hs : g.sym = globalName x) :
    g ∈ c.globals ∨ g = gzero x := by
  induction h with
  | nil => exact .inl hg
  | cons h1 _ ih =>
    rcases ih rfl (fun d hd => hn d (by simp [hd])) (fun d m => hd d (by simp [m])) hg with h | h
    · exact genDecl_zero hc hx (hn _ List.mem_cons_self) h1 (hd _ List.mem_cons_self) h hs
    · exact .inr h

theorem extrns_ok (s : St) (h : s.All NameOk) : ∀ x ∈ s.extrns, NameOk x := by
  induction s <;> simp_all [St.All, St.extrns] <;> grind

theorem words_zero {mem : Mem} {a : Word} {v : Word} {vs : List Word} (h : WordsAt mem a (v :: vs)) : loadW mem a = v := by
  have := h 0 (by simp)
  simpa using this

theorem init_of {p : Program} {c : CState} (hb : Between p newCompiler c) (hn : ∀ d ∈ p, d.All NameOk)
    (hI : ProgInv c (p.flatMap Decl.strings)) (hK : ∀ x, NameOk x → (∃ d ∈ p, x ∈ d.extrns) → globalName x ∈ c.globals.map GlobalDef.sym)
    (hE : ∀ x, (∃ d ∈ p, x ∈ d.extrns) → NameOk x)
    {M : IRMachine} {mem : Mem} (hd : Module.DataIn ⟨c.globals, c.funcs⟩ M.addr mem) : p.Initial M.toB mem where
  scalar := by
    intro pre x vals post hp hlast
    obtain ⟨g, h1, h2, h3, ks, k1, k2, k3⟩ := scalar_layout hb hn hI pre x vals post hp hlast
    have hw := (hd g (Sole.mem h1)).2 _ k1
    rw [h2] at hw
    refine ⟨?_, fun h0 => ?_⟩
    · intro i hi
      have hne : vals ≠ [] := by rintro rfl; simp at hi
      have hv := k3 hne
      have hl := HaveValues.length hv
      have := hw i (by simp; omega)
      show Ival.Holds mem (loadW mem (M.addr (symbolOf x) + 8 * BitVec.ofNat 64 i)) vals[i]
      rw [this, List.getElem_map]
      exact holds_of_value hd (HaveValues.get hv i hi (by omega))
    · rw [k2 h0] at hw
      exact words_zero hw
  vector := by
    intro pre x n vals post hp hlast hn63 hk63
    obtain ⟨g, k, rest, h1, h2, h3, k1, ks, k2, g', p1, p2, i, all, p3, p4, p5⟩ := vector_layout hb hn hI pre x n vals post hp hlast hn63 hk63
    have hw := (hd g (Sole.mem h1)).2 _ k1
    rw [h2] at hw
    have hx : loadW mem (M.toB.global x) = M.addr g'.sym + 8 * BitVec.ofNat 64 i := by
      have : loadW mem (M.addr (symbolOf x)) = Const.value M.addr k := words_zero hw
      show loadW mem (M.addr (symbolOf x)) = _
      rw [this, p3]
      show _ + BitVec.ofNat 64 (elemSize g'.init.ty * i) = _
      have : elemSize g'.init.ty = 8 := by
        cases hi : g'.init with
        | bytes bs => rw [hi] at p4; cases p4
        | word k => rfl
        | arr n ks => rfl
        | zero n => rfl
      rw [this, BitVec.ofNat_mul]; rfl
    have hw' := (hd g' (Sole.mem p1)).2 _ p4
    have hl := HaveValues.length k2
    have key : ∀ j k, (((ks ++ List.replicate (vecSize n vals.length - vals.length) (Const.int 0)).take (vecSize n vals.length))[j]? = some k) →
        loadW mem (loadW mem (M.toB.global x) + 8 * BitVec.ofNat 64 j) = Const.value M.addr k := by
      intro j k hk
      rw [p5, List.getElem?_drop] at hk
      obtain ⟨hlt, hk⟩ := List.getElem?_eq_some_iff.1 hk
      have := hw' (i + j) (by simpa using hlt)
      rw [List.getElem_map, hk] at this
      rw [hx, ← this, BitVec.ofNat_add, BitVec.mul_add, BitVec.add_assoc]
    refine ⟨?_, ?_⟩
    · intro j hj
      simp only [List.length_take] at hj
      rw [key j ks[j] ?_, List.getElem_take]
      · exact holds_of_value hd (HaveValues.get k2 j (by omega) (by omega))
      · rw [List.getElem?_take, if_pos (by omega), List.getElem?_append_left (by omega)]
        simp
    · intro j h1 h2
      rw [key j (.int 0) ?_]
      · rfl
      · rw [List.getElem?_take, if_pos h2, List.getElem?_append_right (by omega), List.getElem?_replicate, if_pos (by omega)]
  mentioned := by
    intro x hx hno
    have hok := hE x hx
    obtain ⟨g, g1, g2⟩ := List.mem_map.1 (hK x hok hx)
    rcases between_zero hb rfl hok hn (fun d hd => by rw [← var?_eq]; exact hno d hd) g1 g2 with h | rfl
    · cases h
    · have := (hd _ g1).2 _ rfl
      exact words_zero this
  literal := by
    intro n vs hv hlt
    have hm : strConst vs n ∈ c.globals := by
      have : strConst vs n ∈ c.globals.filter (·.priv) := by
        rw [hI.str.1, List.mem_mapIdx]
        obtain ⟨h1, h2⟩ := List.getElem?_eq_some_iff.1 hv
        exact ⟨n, h1, by rw [h2]⟩
      exact (List.mem_filter.1 this).1
    exact (hd _ hm).1 _ (by simp only [strConst, stringBytes_bytes hlt])

theorem initial_of_tree {text : List Char} {p : Program} {m : Module} (hT : TreeOf text p m) {M : IRMachine} {mem : Mem}
    (hd : Module.DataIn m M.addr mem) : p.Initial M.toB mem := by
  obtain ⟨c, hb, rfl⟩ := tree_between hT
  have hn := reads_names hT.1
  have hI := hb.mid hn
  have hK := hb.knows KnowsTop.init hn
  refine init_of hb hn hI (fun x hx he => ?_) ?_ hd
  · obtain ⟨d, hd, h⟩ := he
    exact (hK.knows.vars x hx).1 ((place_vars p Env.empty x).2 (.inl ⟨d, hd, .inr h⟩))
  · rintro x ⟨d, hd, hx⟩
    cases d with
    | func f ps b => exact extrns_ok b (hn _ hd).2.2 x hx
    | global _ _ => cases hx
    | vector _ _ _ => cases hx

/-- C67. When the system has loaded the module, memory is as the program says: every variable, vector and
string holds its initial value. -/
theorem C67_initial {chars : List Char} {t : Tail} {m : Module} (h : compileText chars t = .ok m) :
    ∃ p, TreeOf chars p m ∧ ∀ (M : IRMachine) mem, Module.DataIn m M.addr mem → p.Initial M.toB mem := by
  obtain ⟨p, hT, _⟩ := accepted_tree h
  exact ⟨p, hT, fun M mem hd => initial_of_tree hT hd⟩

/-- C67. The whole program: `_start` (runtime/start.c) calls `main` without arguments when the data of the module is in
memory, and ends the process with the result.  If `main` does not go wrong from there, its results are those that the
program prescribes, starting from variables that have their initial values. -/
theorem C67_exit_status {text : List Char} {p : Program} {m : Module} (h : TreeOf text p m) (ht : p.Tame) {M : IRMachine}
    {X : Calls M.World} (hl : Loaded m M X) {ps : List Ident} {body : St} (hf : Decl.func "main".toList ps body ∈ p)
    {σ : Store M.World} (hd : Module.DataIn m M.addr σ.mem) :
    p.Initial M.toB σ.mem ∧ (¬ p.Wrong M.toB X "main".toList [] σ → ∀ code σ',
      Module.Returns m M X (M.addr "main".toList) [] σ code σ' ↔ p.Returns M.toB X (M.toB.global "main".toList) [] σ code σ') :=
  ⟨initial_of_tree h hd, fun hw code σ' => C65_exact_results h ht hl hf hw code σ'⟩

/-! ### every module can be loaded -/

/-- the bytes of a word, the least significant first -/
def wordBytes (v : Word) : List Byte := (List.range 8).map fun i => BitVec.ofNat 8 (v.toNat / 2 ^ (8 * i))

/-- the words of a global -/
def words (i : GInit) : List Const := (wordsOf i).getD []

/-- what is put into memory for a global -/
def image (addr : List Char → Word) : GInit → List Byte
  | .bytes bs => bs
  | i => (words i).flatMap fun k => wordBytes (Const.value addr k)

/-- the number of bytes of a global -/
def gsize : GInit → Nat
  | .bytes bs => bs.length
  | i => 8 * (words i).length

/-- the number of bytes of the globals -/
def total (gs : List GlobalDef) : Nat := (gs.map fun g => gsize g.init).sum

/-- globals one after the other from `base` -/
def placeAt : List GlobalDef → Nat → (List Char → Word) → List Char → Word
  | [], _, addr0, s => addr0 s
  | g :: gs, base, addr0, s => if g.sym = s then BitVec.ofNat 64 base else placeAt gs (base + gsize g.init) addr0 s

theorem placeAt_other (gs : List GlobalDef) : ∀ base addr0 s, s ∉ gs.map GlobalDef.sym → placeAt gs base addr0 s = addr0 s := by
  induction gs with
  | nil => intros; rfl
  | cons g gs ih =>
    intro base addr0 s hs
    simp only [List.map_cons, List.mem_cons, not_or] at hs
    rw [placeAt, if_neg (Ne.symm hs.1), ih _ _ _ hs.2]

theorem placeAt_mid (pre : List GlobalDef) (g : GlobalDef) (post : List GlobalDef) : ∀ base addr0,
    ((pre ++ g :: post).map GlobalDef.sym).Nodup → placeAt (pre ++ g :: post) base addr0 g.sym = BitVec.ofNat 64 (base + total pre) := by
  induction pre with
  | nil => intro base addr0 _; simp [placeAt, total]
  | cons x pre ih =>
    intro base addr0 hn
    simp only [List.cons_append, List.map_cons, List.nodup_cons] at hn
    have : x.sym ≠ g.sym := fun e => hn.1 (by rw [e]; simp)
    rw [List.cons_append, placeAt, if_neg this, ih _ _ hn.2]
    simp [total, Nat.add_assoc]

theorem flatMap_length {α β : Type} (f : α → List β) (n : Nat) (h : ∀ a, (f a).length = n) (l : List α) : (l.flatMap f).length = n * l.length := by
  induction l with
  | nil => simp
  | cons a l ih => rw [List.flatMap_cons, List.length_append, ih, h, List.length_cons, Nat.mul_succ, Nat.add_comm]

theorem image_length (addr : List Char → Word) (i : GInit) : (image addr i).length = gsize i := by
  cases i with
  | bytes bs => rfl
  | _ => exact flatMap_length _ 8 (by intro; simp [wordBytes]) _

theorem images_length (addr : List Char → Word) (gs : List GlobalDef) : (gs.flatMap fun g => image addr g.init).length = total gs := by
  induction gs with
  | nil => rfl
  | cons g gs ih => rw [List.flatMap_cons, List.length_append, ih, image_length]; simp [total]

theorem loadW_bytes {mem : Mem} {a v : Word} (h : BytesAt mem a (wordBytes v)) : loadW mem a = v := by
  rw [← loadW_storeW mem a v]
  have : ∀ j : Nat, j < 8 → mem (a + BitVec.ofNat 64 j) = storeW mem a v (a + BitVec.ofNat 64 j) := by
    intro j hj
    rw [h j (by simpa [wordBytes] using hj)]
    simp only [wordBytes, List.getElem_map, List.getElem_range, storeW]
    have e : (a + BitVec.ofNat 64 j - a).toNat = j := by
      rw [BitVec.add_comm, BitVec.add_sub_cancel]
      simp; omega
    rw [e, if_pos hj]
  unfold loadW
  have h0 := this 0 (by omega)
  simp only [BitVec.add_zero] at h0
  have h0 : mem a = storeW mem a v a := by simpa using h0
  rw [← h0, ← show _ = storeW mem a v (a + 1) from this 1 (by omega), ← show _ = storeW mem a v (a + 2) from this 2 (by omega),
    ← show _ = storeW mem a v (a + 3) from this 3 (by omega), ← show _ = storeW mem a v (a + 4) from this 4 (by omega),
    ← show _ = storeW mem a v (a + 5) from this 5 (by omega), ← show _ = storeW mem a v (a + 6) from this 6 (by omega),
    ← show _ = storeW mem a v (a + 7) from this 7 (by omega)]
  rfl

theorem wordsAt_bytes {mem : Mem} {a : Word} {vs : List Word} (h : BytesAt mem a (vs.flatMap wordBytes)) : WordsAt mem a vs := by
  intro i hi
  apply loadW_bytes
  intro j hj
  have hj8 : j < 8 := by simpa [wordBytes] using hj
  have hlen : ∀ v, (wordBytes v).length = 8 := by intro; simp [wordBytes]
  have := h (8 * i + j) (by rw [flatMap_length _ 8 hlen]; omega)
  have e : (vs.flatMap wordBytes)[8 * i + j]? = (wordBytes vs[i])[j]? := by
    clear this h
    induction vs generalizing i with
    | nil => simp at hi
    | cons v vs ih =>
      rw [List.flatMap_cons]
      cases i with
      | zero => rw [List.getElem?_append_left (by rw [hlen]; omega)]; simp
      | succ i =>
        rw [List.getElem?_append_right (by rw [hlen]; omega), hlen, show 8 * (i + 1) + j - 8 = 8 * i + j by omega]
        exact ih i (by simpa using hi) (by simpa using hj)
  rw [List.getElem?_eq_getElem (by rw [flatMap_length _ 8 hlen]; omega), List.getElem?_eq_getElem hj] at e
  rw [← Option.some.inj e, ← this, BitVec.add_assoc, BitVec.ofNat_add, BitVec.ofNat_mul]
  rfl

/-- C67. The hypothesis is satisfiable: every module whose variables have different names and fit into memory (from the
address `base` on) can be loaded; the addresses of functions are not affected. -/
theorem C67_loadable (m : Module) (base : Nat) (addr0 : List Char → Word) (hn : (m.globals.map GlobalDef.sym).Nodup)
    (hs : base + total m.globals ≤ 2 ^ 64) :
    ∃ addr mem, Module.DataIn m addr mem ∧ ∀ s, s ∉ m.globals.map GlobalDef.sym → addr s = addr0 s := by
  let addr := placeAt m.globals base addr0
  let all := m.globals.flatMap fun g => image addr g.init
  refine ⟨addr, fun a => all[a.toNat - base]?.getD 0, ?_, fun s h => placeAt_other _ _ _ _ h⟩
  have key : ∀ g ∈ m.globals, BytesAt (fun a => all[a.toNat - base]?.getD 0) (addr g.sym) (image addr g.init) := by
    intro g hg
    obtain ⟨pre, post, e⟩ := List.append_of_mem hg
    have ha : addr g.sym = BitVec.ofNat 64 (base + total pre) := by
      show placeAt m.globals base addr0 g.sym = _
      rw [e] at hn ⊢
      exact placeAt_mid pre g post base addr0 hn
    have hall : all = (pre.flatMap fun g => image addr g.init) ++ (image addr g.init ++ post.flatMap fun g => image addr g.init) := by
      show (m.globals.flatMap fun g => image addr g.init) = _
      rw [e]; simp
    have htot : total m.globals = total pre + (gsize g.init + total post) := by rw [e]; simp [total]
    intro i hi
    have hi' := hi
    rw [image_length] at hi'
    dsimp only
    have hnat : (addr g.sym + BitVec.ofNat 64 i).toNat - base = total pre + i := by
      rw [ha, ← BitVec.ofNat_add, BitVec.toNat_ofNat, Nat.mod_eq_of_lt (by omega)]
      omega
    rw [hnat, hall, List.getElem?_append_right (by rw [images_length]; omega), images_length, Nat.add_sub_cancel_left,
      List.getElem?_append_left hi, List.getElem?_eq_getElem hi]
    rfl
  intro g hg
  refine ⟨fun bs hb => ?_, fun ks hk => ?_⟩
  · have := key g hg
    rw [hb] at this
    exact this
  · have := key g hg
    refine wordsAt_bytes ?_
    have e : image addr g.init = (ks.map (Const.value addr)).flatMap wordBytes := by
      rw [List.flatMap_map]
      cases hi : g.init with
      | bytes bs => rw [hi] at hk; cases hk
      | _ => rw [← hi]; unfold image; rw [hi] at hk ⊢; simp only [words, hk, Option.getD_some]
    rw [← e]
    exact this

/-- scalars, a vector with a string and unused words, a vector with a size only, a redeclared variable, an `extrn` -/
def imageDemo : List Char := "x 5, -1; v[3] 7, \"ab\"; u[2]; y; y 9; main(){extrn x, z; return(x+z);}".toList

example : ∃ m, compileText imageDemo .eof = .ok m ∧ (∃ addr mem, Module.DataIn m addr mem) ∧ m.globals.length = 7 := by
  have key : (match compileText imageDemo .eof with
      | .ok m => decide ((m.globals.map GlobalDef.sym).Nodup ∧ 8 + total m.globals ≤ 2 ^ 64 ∧ m.globals.length = 7)
      | .error _ => false) = true := by decide +kernel
  revert key
  cases compileText imageDemo .eof with
  | error _ => intro h; cases h
  | ok m =>
    intro h
    have h := of_decide_eq_true h
    obtain ⟨addr, mem, h1, _⟩ := C67_loadable m 8 (fun _ => 0) h.1 h.2.1
    exact ⟨m, rfl, ⟨addr, mem, h1⟩, h.2.2⟩

end Blang.Props
