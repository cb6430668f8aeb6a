import Verif.Proofs.Files
import Verif.Proofs.Join
import Verif.Proofs.Owns
import Verif.Props.Semantics
import Verif.Props.SamplesEndless
/-
Properties C63, C64: a program may be spread over several files.

The vocabulary is in Verif/Spec/Files.lean.
-/
namespace Blang.Props
open Blang Blang.Spec

/-- C63. The files are compiled separately and linked.  If the program that consists of all files
prescribes that a function ends with a result and a store, then this is what calling it in the linked modules
does, and they have no other outcome.  `lits` is where the string literals are, numbered through all files. -/
theorem C63_linked {fs : List File} (h : ∀ F ∈ fs, TreeOf F.text F.tree F.code) (ht : ∀ F ∈ fs, F.tree.Tame) {M : IRMachine}
    {X : Calls M.World} {lits : List Char → Word} (hL : LitsAt lits 0 fs) {n : Nat} {f : Ident} {args : List Word} {σ σ' : Store M.World}
    {v : Word} (hr : (wholeProgram fs).Reaches (M.file lits).toB X n f args σ (.done v σ')) :
    LinkedDoes fs M X f args σ v (.back M.leave σ σ') := by
  have hb : ∀ F ∈ fs, ∃ c, Between F.tree newCompiler c ∧ F.code = ⟨c.globals, c.funcs⟩ := fun F hF => tree_between (h F hF)
  have hn : ∀ F ∈ fs, ∀ d ∈ F.tree, d.All NameOk := fun F hF => reads_names (h F hF).1
  obtain ⟨ps, body, P, h1, h2, h3⟩ := hr
  have hc : (wholeProgram fs).Call (M.file lits).toB X (n + 1) (M.addr (symbolOf f)) args σ v (.back M.leave σ σ') :=
    .inr ⟨f, ps, body, P, h1, (file_addr M lits f).symm, h2, σ', h3, rfl⟩
  have h4 := files_sim hb hn ht hL (n + 1) _ _ _ _ _ hc
  refine ⟨⟨n + 1, h4⟩, ?_⟩
  intro hl k v1 σ1 h5
  have hd := linkedCall_det hl (fun F hF => by
    obtain ⟨c, hB, e⟩ := hb F hF
    rw [e]
    exact (hB.mid (hn F hF)).nodup) (max (n + 1) k)
  exact hd _ _ _ _ _ _ _ (linkedCall_le (Nat.le_max_right (n + 1) k) h5) (linkedCall_le (Nat.le_max_left (n + 1) k) h4)

/-- the files in one text, one after the other -/
def oneText (fs : List File) : List Char := fs.flatMap fun F => F.text ++ ['\n']

theorem oneText_careful : ∀ {fs : List File}, (∀ F ∈ fs, Careful prec F.text F.tree) → Careful prec (oneText fs) (wholeProgram fs)
  | [], _ => ⟨[], ⟨[], [], rfl, .nil, .nil⟩, .nil⟩
  | F :: fs, h => by
    have := careful_join (h F (by simp)) (oneText_careful (fs := fs) fun G hG => h G (by simp [hG]))
    have e : oneText (F :: fs) = F.text ++ '\n' :: oneText fs := by simp [oneText]
    rw [e]; exact this

theorem oneText_reads : ∀ {fs : List File}, (∀ F ∈ fs, Reads true F.text F.tree) → Reads true (oneText fs) (wholeProgram fs)
  | [], _ => ⟨[], .nil (lay := []) (rest := []) .nil, .nil⟩
  | F :: fs, h => by
    have := reads_join (h F (by simp)) (oneText_reads (fs := fs) fun G hG => h G (by simp [hG]))
    have e : oneText (F :: fs) = F.text ++ '\n' :: oneText fs := by simp [oneText]
    rw [e]; exact this

/-- C63. The declarations of the files are read the same in one text as in separate files. -/
theorem C63_one_text {fs : List File} (h : ∀ F ∈ fs, TreeOf F.text F.tree F.code) : Reads true (oneText fs) (wholeProgram fs) :=
  oneText_reads fun F hF => (h F hF).1

/-- C63. Whether the program is compiled in one piece or file by file makes no difference: if the one text
and the files (laid out as the compiler tolerates) are accepted, then whatever the program prescribes is done by
both.  (The string constants of the one module are at `lits`.) -/
theorem C63_same {fs : List File} (h : ∀ F ∈ fs, Careful prec F.text F.tree ∧ F.tree.Tame ∧ compileText F.text .eof = .ok F.code)
    {m : Module} (hm : compileText (oneText fs) .eof = .ok m) (ht : (wholeProgram fs).Tame)
    {M : IRMachine} {X : Calls M.World} {lits : List Char → Word} (hL : LitsAt lits 0 fs) {n : Nat} {f : Ident} {args : List Word}
    {σ σ' : Store M.World} {v : Word} (hr : (wholeProgram fs).Reaches (M.file lits).toB X n f args σ (.done v σ')) :
    Module.Does m (M.file lits) X f args σ v (.back M.leave σ σ') ∧ LinkedDoes fs M X f args σ v (.back M.leave σ σ') := by
  have h1 := ((careful_iff (oneText_careful fun F hF => (h F hF).1) m).1 hm).1
  refine ⟨tree_implements h1 ht (M.file lits) X n f args σ v σ' hr, ?_⟩
  exact C63_linked (fun F hF => ((careful_iff (h F hF).1 F.code).1 (h F hF).2.2).1) (fun F hF => (h F hF).2.1) hL hr

/-! ### a sample -/

/-- string constants can always be numbered through -/
theorem lits_from (lits : List Char → Word) (k : Nat) : ∃ l : List Char → Word, ∀ n, l (strSym n) = lits (strSym (k + n)) := by
  classical
  refine ⟨fun s => if h : ∃ n, s = strSym n then lits (strSym (k + h.choose)) else 0, fun n => ?_⟩
  have h : ∃ i, strSym n = strSym i := ⟨n, rfl⟩
  show (if h : ∃ i, strSym n = strSym i then lits (strSym (k + h.choose)) else 0) = _
  rw [dif_pos h, ← strSym_inj h.choose_spec]

def fileText1 : List Char := List.flatten ["main() {\n".toList, "  return (f(2) + ext(\"hi\"));\n".toList, "}".toList]
def fileText2 : List Char := List.flatten ["n;\n".toList, "f(x) {\n".toList, "  extrn n;\n".toList, "  n = ext(\"lo\"); return (x + n);\n".toList, "}".toList]
def fileProg1 : Program := (refParse prec fileText1).getD []
def fileProg2 : Program := (refParse prec fileText2).getD []

/-- the functions of the modules have different addresses, none of which is that of `ext` -/
def apartCheck (m1 m2 : Module) : Bool :=
  loadedCheck m1 && loadedCheck m2 &&
  m1.funcs.all fun f => f.blocks.isEmpty || m2.funcs.all fun g => g.blocks.isEmpty || simM.addr f.sym != simM.addr g.sym

/-- `main` of the whole program ends -/
def mainCheck (p : Program) : Bool :=
  match definesI "main".toList [] p with
  | none => false
  | some (ps, body, P) => decide (ps.length ≤ 0) &&
    (runI (simM.file simM.addr).toB (callI p (simM.file simM.addr).toB simExt 40 2) P body 60
      (.entry (simM.file simM.addr).toB P ps body [] simS)).isSome

def fileChecks : Bool :=
  (refParse prec fileText1).isSome && (refParse prec fileText2).isSome &&
  decide fileProg1.Tame && decide fileProg2.Tame && decide fileProg1.Clear && decide fileProg2.Clear &&
  decide (Program.Scoped Env.empty fileProg1 ∧ ∀ d ∈ fileProg1, d.CasesOk) &&
  decide (Program.Scoped Env.empty fileProg2 ∧ ∀ d ∈ fileProg2, d.CasesOk) &&
  decide (Program.Scoped Env.empty (fileProg1 ++ fileProg2) ∧ ∀ d ∈ fileProg1 ++ fileProg2, d.CasesOk) &&
  decide (Program.Clear (fileProg1 ++ fileProg2)) && decide (Program.Tame (fileProg1 ++ fileProg2)) &&
  mainCheck (fileProg1 ++ fileProg2) &&
  (match compileText fileText1 .eof, compileText fileText2 .eof with | .ok m1, .ok m2 => apartCheck m1 m2 | _, _ => false) &&
  decide ((fileProg1.flatMap Decl.strings).length = 1 ∧ (fileProg2.flatMap Decl.strings).length = 1)

set_option maxRecDepth 20000 in
theorem file_checks : fileChecks = true := by decide +kernel

theorem fileProg1_eq : fileProg1 = (refParse prec fileText1).getD [] := rfl
theorem fileProg2_eq : fileProg2 = (refParse prec fileText2).getD [] := rfl

theorem file_facts {t1 t2 : List Char} {p1 p2 : Program} (e1 : p1 = (refParse prec t1).getD []) (e2 : p2 = (refParse prec t2).getD [])
    (h1 : (refParse prec t1).isSome = true) (h2 : (refParse prec t2).isSome = true)
    (c1 : p1.Clear) (c2 : p2.Clear) (s1 : Program.Scoped Env.empty p1 ∧ ∀ d ∈ p1, d.CasesOk)
    (s2 : Program.Scoped Env.empty p2 ∧ ∀ d ∈ p2, d.CasesOk)
    (s3 : Program.Scoped Env.empty (p1 ++ p2) ∧ ∀ d ∈ p1 ++ p2, d.CasesOk) (c3 : Program.Clear (p1 ++ p2)) (t1' : p1.Tame) (t2' : p2.Tame)
    (hr : mainCheck (p1 ++ p2) = true)
    (ha : (match compileText t1 .eof, compileText t2 .eof with | .ok m1, .ok m2 => apartCheck m1 m2 | _, _ => false) = true)
    (hs : (p1.flatMap Decl.strings).length = 1 ∧ (p2.flatMap Decl.strings).length = 1) :
    ∃ (F1 F2 : File) (m : Module) (v : Word) (σ' : Store simM.World), F1.text = t1 ∧ F2.text = t2 ∧
      (∀ F ∈ [F1, F2], Careful prec F.text F.tree ∧ F.tree.Tame ∧ compileText F.text .eof = .ok F.code) ∧
      compileText (oneText [F1, F2]) .eof = .ok m ∧ wholeProgram [F1, F2] = p1 ++ p2 ∧ LitsAt simM.addr 0 [F1, F2] ∧
      LoadedFiles [F1, F2] simM simX ∧
      (wholeProgram [F1, F2]).Reaches (simM.file simM.addr).toB simX 2 "main".toList [] simS (.done v σ') := by
  have k1 : Careful prec t1 p1 := by rw [e1]; exact careful_getD h1
  have k2 : Careful prec t2 p2 := by rw [e2]; exact careful_getD h2
  obtain ⟨m1, r1, _⟩ := careful_module k1 c1 s1
  obtain ⟨m2, r2, _⟩ := careful_module k2 c2 s2
  rw [r1, r2] at ha
  simp only [apartCheck, Bool.and_eq_true] at ha
  obtain ⟨⟨a1, a2⟩, a3⟩ := ha
  have l1 := loadedCheck_sound a1
  have l2 := loadedCheck_sound a2
  simp only [List.all_eq_true, Bool.or_eq_true, List.isEmpty_iff, bne_iff_ne] at a3
  obtain ⟨ls, hls⟩ := lits_from simM.addr 1
  let F1 : File := ⟨t1, p1, m1, simM.addr⟩
  let F2 : File := ⟨t2, p2, m2, ls⟩
  have hw : wholeProgram [F1, F2] = p1 ++ p2 := by simp [wholeProgram, F1, F2]
  have hall : ∀ F ∈ [F1, F2], Careful prec F.text F.tree ∧ F.tree.Tame ∧ compileText F.text .eof = .ok F.code := by
    intro F hF
    simp only [List.mem_cons, List.not_mem_nil, or_false] at hF
    rcases hF with rfl | rfl
    · exact ⟨k1, t1', r1⟩
    · exact ⟨k2, t2', r2⟩
  have hone := oneText_careful fun F hF => (hall F hF).1
  rw [hw] at hone
  obtain ⟨m, r, _⟩ := careful_module hone c3 s3
  have hlit : LitsAt simM.addr 0 [F1, F2] := by
    refine ⟨fun n => by rw [Nat.zero_add], fun n => ?_, trivial⟩
    show ls (strSym n) = simM.addr (strSym (0 + (p1.flatMap Decl.strings).length + n))
    rw [hs.1]; exact hls n
  have hload : LoadedFiles [F1, F2] simM simX := by
    refine ⟨l1.functional, ?_, ?_⟩
    · intro F hF
      simp only [List.mem_cons, List.not_mem_nil, or_false] at hF
      rcases hF with rfl | rfl
      · exact l1.external
      · exact l2.external
    · intro F hF G hG f hf g hg b1 b2 e
      simp only [List.mem_cons, List.not_mem_nil, or_false] at hF hG
      rcases hF with rfl | rfl <;> rcases hG with rfl | rfl
      · exact ⟨rfl, l1.apart f hf g hg b1 b2 e⟩
      · exact absurd e (((a3 f hf).resolve_left b1 g hg).resolve_left b2)
      · exact absurd e.symm (((a3 g hg).resolve_left b2 f hf).resolve_left b1)
      · exact ⟨rfl, l2.apart f hf g hg b1 b2 e⟩
  unfold mainCheck at hr
  split at hr
  case h_1 => cases hr
  case h_2 ps body P hd =>
    simp only [Bool.and_eq_true, decide_eq_true_eq] at hr
    obtain ⟨hl, hr⟩ := hr
    obtain ⟨⟨v, σ'⟩, hr⟩ := Option.isSome_iff_exists.1 hr
    have hdef : Program.Defines (p1 ++ p2) "main".toList ps body P := (definesI_sound (p1 ++ p2) []).1 hd
    have hc := callI_sound (p := p1 ++ p2) (M := (simM.file simM.addr).toB) (X := simX) (xs := simExt) simExt_sound (k := 40) 2
    refine ⟨F1, F2, m, v, σ', rfl, rfl, hall, r, hw, hlit, hload, ?_⟩
    rw [hw]
    exact ⟨ps, body, P, hdef, hl, runI_sound hc 60 hr⟩

attribute [irreducible] fileText1 fileText2 fileProg1 fileProg2

/-- C63: two files that meet the hypotheses; both contain a string literal and `main` of the first calls a
function of the second -/
example : ∃ (F1 F2 : File) (m : Module) (v : Word) (σ' : Store simM.World), F1.text = fileText1 ∧ F2.text = fileText2 ∧
    (∀ F ∈ [F1, F2], Careful prec F.text F.tree ∧ F.tree.Tame ∧ compileText F.text .eof = .ok F.code) ∧
    compileText (oneText [F1, F2]) .eof = .ok m ∧ (wholeProgram [F1, F2]).Tame ∧
    LitsAt simM.addr 0 [F1, F2] ∧ LoadedFiles [F1, F2] simM simX ∧
    (wholeProgram [F1, F2]).Reaches (simM.file simM.addr).toB simX 2 "main".toList [] simS (.done v σ') := by
  have h := file_checks
  simp only [fileChecks, Bool.and_eq_true, decide_eq_true_eq] at h
  obtain ⟨⟨⟨⟨⟨⟨⟨⟨⟨⟨⟨⟨⟨h1, h2⟩, h3⟩, h4⟩, h5⟩, h6⟩, h7⟩, h8⟩, h9⟩, h10⟩, h11⟩, h12⟩, h13⟩, h14⟩ := h
  obtain ⟨F1, F2, m, v, σ', a1, a2, a3, a4, a5, a6, a7, a8⟩ := file_facts fileProg1_eq fileProg2_eq h1 h2 h5 h6 h7 h8 h9 h10 h3 h4 h12 h13 h14
  exact ⟨F1, F2, m, v, σ', a1, a2, a3, a4, a5 ▸ h11, a6, a7, a8⟩

/-! ## C64 -/

theorem after_vars (s : St) : ∀ (E : Env) (x : Ident), x ∈ (E.after s).vars ↔ x ∈ s.extrns ∨ x ∈ E.vars := by
  have fold : ∀ (xs : List Ident) (E : Env) (x : Ident), x ∈ (xs.foldl Env.afterExtrn E).vars ↔ x ∈ xs ∨ x ∈ E.vars := by
    intro xs
    induction xs with
    | nil => intro E x; simp
    | cons y xs ih => intro E x; rw [List.foldl_cons, ih]; simp only [Env.afterExtrn, List.mem_cons]; grind
  induction s with
  | ret e => intro E x; cases e <;> simp [Env.after, St.extrns, Env.afterEx]
  | extrn xs => intro E x; simp [Env.after, St.extrns, fold xs E]
  | seq s t ih1 ih2 => intro E x; simp only [Env.after, St.extrns, ih2, ih1, List.mem_append]; grind
  | ifElse c s t ih1 ih2 => intro E x; simp only [Env.after, St.extrns, ih2, ih1, List.mem_append, Env.afterEx]; grind
  | ifThen c s ih | «while» c s ih | switch c s ih => intro E x; simp only [Env.after, St.extrns, ih, Env.afterEx]
  | case v s ih | label v s ih => intro E x; simp only [Env.after, St.extrns, ih]
  | _ => intro E x; simp [Env.after, St.extrns, Env.afterEx]

theorem decl_vars (E : Env) (d : Decl) (x : Ident) : x ∈ (E.afterDecl d).vars ↔ d.var? = some x ∨ x ∈ d.extrns ∨ x ∈ E.vars := by
  cases d with
  | global y vs => simp [Env.afterDecl, Decl.var?, Decl.extrns]; grind
  | vector y n vs => simp [Env.afterDecl, Decl.var?, Decl.extrns]; grind
  | func f ps b => simp [Env.afterDecl, Decl.var?, Decl.extrns, after_vars, Env.enter]

theorem place_vars : ∀ (p : Program) (E : Env) (x : Ident),
    x ∈ (p.foldl Env.afterDecl E).vars ↔ (∃ d ∈ p, d.var? = some x ∨ x ∈ d.extrns) ∨ x ∈ E.vars
  | [], E, x => by simp
  | d :: p, E, x => by
    rw [List.foldl_cons, place_vars p, decl_vars]
    simp only [List.mem_cons, exists_eq_or_imp]
    grind

/-- the last definition of a function -/
theorem defines_exists {f : Ident} : ∀ (p : Program), (∃ ps b, Decl.func f ps b ∈ p) → ∃ ps b P, p.Defines f ps b P := by
  intro p
  suffices h : ∀ (p : Program), (∃ ps b, Decl.func f ps b ∈ p) →
      ∃ ps b pre post, p = pre ++ Decl.func f ps b :: post ∧ ∀ qs b', Decl.func f qs b' ∉ post by
    intro hp
    obtain ⟨ps, b, pre, post, e, hl⟩ := h p hp
    exact ⟨ps, b, _, pre, post, e, hl, rfl⟩
  intro p
  induction p with
  | nil => rintro ⟨_, _, h⟩; cases h
  | cons d p ih =>
    rintro ⟨ps, b, h⟩
    by_cases hp : ∃ ps b, Decl.func f ps b ∈ p
    · obtain ⟨ps, b, pre, post, rfl, hl⟩ := ih hp
      exact ⟨ps, b, d :: pre, post, rfl, hl⟩
    · rcases List.mem_cons.1 h with rfl | h
      · exact ⟨ps, b, [], p, rfl, fun qs b' hm => hp ⟨qs, b', hm⟩⟩
      · exact absurd ⟨ps, b, h⟩ hp

/-- C64. For the linker, the module of a file defines exactly the symbols of the names that the file defines or
declares `extrn`, and the blocks `b.x.data` of some of its vectors. -/
theorem C64_symbols {chars : List Char} {t : Tail} {m : Module} (h : compileText chars t = .ok m) :
    ∃ p, TreeOf chars p m ∧
      (∀ x, NameOk x → (Module.DefinesSym m (symbolOf x) ↔ ∃ d ∈ p, x ∈ d.defines ∨ x ∈ d.extrns)) ∧
      ∀ s, Module.DefinesSym m s → ∃ x, NameOk x ∧ (s = symbolOf x ∨ s = symbolOf x ++ ".data".toList ∧ ∃ n vs, Decl.vector x n vs ∈ p) := by
  obtain ⟨p, hT, _⟩ := accepted_tree h
  refine ⟨p, hT, ?_⟩
  obtain ⟨c, hb, rfl⟩ := tree_between hT
  have hn := reads_names hT.1
  have hI := hb.mid hn
  have hK := hb.knows KnowsTop.init hn
  have priv : ∀ g ∈ c.globals, g.priv = true → ∃ n, g.sym = strSym n := by
    intro g hg hp
    have : g ∈ c.globals.filter (·.priv) := by rw [List.mem_filter]; exact ⟨hg, hp⟩
    rw [hI.str.1, List.mem_mapIdx] at this
    obtain ⟨i, _, hi⟩ := this
    exact ⟨i, by rw [← hi]; rfl⟩
  refine ⟨fun x hx => ⟨?_, ?_⟩, ?_⟩
  · rintro (⟨g, g1, g2, g3⟩ | ⟨F, f1, f2, f3⟩)
    · have := (hK.knows.vars x hx).2 (List.mem_map.2 ⟨g, g1, g3⟩)
      rw [place_vars] at this
      rcases this with ⟨d, hd, h⟩ | h
      · refine ⟨d, hd, h.imp ?_ id⟩
        cases d <;> simp [Decl.var?, Decl.defines, eq_comm]
      · cases h
    · rcases hb.origin _ ProgInv.init hn f1 f2 with h | ⟨f, ps, b, hm, hs⟩
      · cases h
      · have e : f = x := globalName_inj (hs.sym.symm.trans f3)
        exact ⟨_, hm, .inl (by simp [Decl.defines, e])⟩
  · rintro ⟨d, hd, h⟩
    have var : d.var? = some x ∨ x ∈ d.extrns → Module.DefinesSym ⟨c.globals, c.funcs⟩ (symbolOf x) := by
      intro h
      have := (hK.knows.vars x hx).1 ((place_vars p Env.empty x).2 (.inl ⟨d, hd, h⟩))
      obtain ⟨g, g1, g2⟩ := List.mem_map.1 this
      refine .inl ⟨g, g1, ?_, g2⟩
      cases hp : g.priv with
      | false => rfl
      | true =>
        obtain ⟨n, e⟩ := priv g g1 hp
        exact absurd (g2.symm.trans e) (globalName_ne_str x n)
    rcases h with h | h
    · cases d with
      | global y vs => simp only [Decl.defines, List.mem_singleton] at h; exact var (.inl (by rw [h]; rfl))
      | vector y n vs => simp only [Decl.defines, List.mem_singleton] at h; exact var (.inl (by rw [h]; rfl))
      | func f ps b =>
        simp only [Decl.defines, List.mem_singleton] at h
        subst h
        obtain ⟨qs, b', P, hd⟩ := defines_exists p ⟨ps, b, hd⟩
        obtain ⟨E, c1, ss, F, _, _, ⟨r⟩, hF, hs, _, _, hnf⟩ := hb.defines hn hd
        exact .inr ⟨F, hF, r.ne hnf.2.1 hnf.2.2, hs⟩
    · exact var (.inr h)
  · rintro s (⟨g, g1, g2, g3⟩ | ⟨F, f1, f2, f3⟩)
    · rcases hI.gsym g g1 with hp | ⟨x, hx, hs | hs⟩
      · rw [g2] at hp; cases hp
      · exact ⟨x, hx, .inl (g3.symm.trans hs)⟩
      · refine ⟨x, hx, .inr ⟨g3.symm.trans hs, ?_⟩⟩
        rcases hb.data ProgInv.init hn x (List.mem_map.2 ⟨g, g1, hs⟩) with h | h
        · cases h
        · exact h
    · rcases hb.origin _ ProgInv.init hn f1 f2 with h | ⟨f, ps, b, hm, hs⟩
      · cases h
      · exact ⟨f, (hn _ hm).1, .inl (f3.symm.trans hs.sym)⟩

/-- C64, for files that share no variable: if no name is defined or declared `extrn` in both files, then no symbol
is defined by both modules.  Missing: files that share a variable, see the counterexample. -/
theorem C64_apart_partial {text1 text2 : List Char} {t1 t2 : Tail} {m1 m2 : Module} (h1 : compileText text1 t1 = .ok m1)
    (h2 : compileText text2 t2 = .ok m2) :
    ∃ p1 p2, TreeOf text1 p1 m1 ∧ TreeOf text2 p2 m2 ∧
      ((∀ x, (∃ d ∈ p1, x ∈ d.defines ∨ x ∈ d.extrns) → ¬ ∃ d ∈ p2, x ∈ d.defines ∨ x ∈ d.extrns) →
        ∀ s, Module.DefinesSym m1 s → ¬ Module.DefinesSym m2 s) := by
  obtain ⟨p1, a1, a2, a3⟩ := C64_symbols h1
  obtain ⟨p2, b1, b2, b3⟩ := C64_symbols h2
  refine ⟨p1, p2, a1, b1, fun hd s s1 s2 => ?_⟩
  obtain ⟨x, hx, e1⟩ := a3 s s1
  obtain ⟨y, hy, e2⟩ := b3 s s2
  rcases e1 with e1 | ⟨e1, n, vs, d1⟩ <;> rcases e2 with e2 | ⟨e2, n', vs', d2⟩
  · have := globalName_inj (e1.symm.trans e2)
    subst this
    rw [e1] at s1 s2
    exact hd x ((a2 x hx).1 s1) ((b2 x hx).1 s2)
  · exact globalName_ne_data hx y (e1.symm.trans e2)
  · exact globalName_ne_data hy x (e2.symm.trans e1)
  · have := data_inj (e1.symm.trans e2)
    subst this
    exact hd x ⟨_, d1, .inl (by simp [Decl.defines])⟩ ⟨_, d2, .inl (by simp [Decl.defines])⟩

/-- C64 is false: a file that merely declares `extrn x` defines the symbol of `x`, as does the file that
defines `x`. -/
theorem C64_extrn_counterexample :
    (match compileText "f(){extrn x; x=1;}".toList .eof, compileText "x 5; main(){f();}".toList .eof with
      | .ok m1, .ok m2 => decide (⟨"b.x".toList, .word (.int 0), false⟩ ∈ m1.globals) && decide (⟨"b.x".toList, .word (.int 5), false⟩ ∈ m2.globals)
      | _, _ => false) = true := by decide +kernel

/-- two files that share no variable -/
example : (match compileText "f(){extrn x; x=1; g();}".toList .eof, compileText "y 5; g(){extrn y; f();}".toList .eof with
      | .ok m1, .ok m2 => decide (m1.globals.map (·.sym) = ["b.x".toList] ∧ m2.globals.map (·.sym) = ["b.y".toList])
      | _, _ => false) = true := by decide +kernel

end Blang.Props
