import Verif.Proofs.Join
import Verif.Proofs.SameTree
import Verif.Proofs.RefParse
import Verif.Proofs.Decide
import Verif.Props.Module
import Verif.Props.Parsing
import Verif.Props.Process
import Verif.Props.Alike
/-
C98: what is written behind a program does not change what is emitted for it.
-/
namespace Blang.Props
open Blang Blang.Spec

/-! ### the static rules in larger surroundings -/

mutual
theorem wf_vars {E E' : Env} (hl : E'.locals = E.locals) (he : E'.exts = E.exts) : ∀ e : Ex, e.Wf E' ↔ e.Wf E
  | .num _ | .str _ | .var _ => by simp only [Ex.Wf]
  | .paren e | .not e | .neg e | .deref e => by simp only [Ex.Wf]; exact wf_vars hl he e
  | .post _ e | .pre _ e | .addr e => by simp only [Ex.Wf, wf_vars hl he e, lvalue_vars hl he e]
  | .index a i => by simp only [Ex.Wf, wf_vars hl he a, wf_vars hl he i]
  | .callName _ as => by simp only [Ex.Wf]; exact wfArgs_vars hl he as
  | .call f as => by simp only [Ex.Wf, wf_vars hl he f, wfArgs_vars hl he as]
  | .bin _ x y => by simp only [Ex.Wf, wf_vars hl he x, wf_vars hl he y]
  | .cond c t e => by simp only [Ex.Wf, wf_vars hl he c, wf_vars hl he t, wf_vars hl he e]
  | .assign _ x y => by simp only [Ex.Wf, wf_vars hl he x, wf_vars hl he y, lvalue_vars hl he x]

theorem wfArgs_vars {E E' : Env} (hl : E'.locals = E.locals) (he : E'.exts = E.exts) : ∀ es : List Ex, Ex.WfArgs E' es ↔ Ex.WfArgs E es
  | [] => by simp only [Ex.WfArgs]
  | e :: es => by simp only [Ex.WfArgs, wf_vars hl he e, wfArgs_vars hl he es]

theorem lvalue_vars {E E' : Env} (hl : E'.locals = E.locals) (he : E'.exts = E.exts) : ∀ e : Ex, e.Lvalue E' ↔ e.Lvalue E
  | .var x => by simp only [Ex.Lvalue, Env.Var, hl, he]
  | .num _ | .str _ | .paren _ | .not _ | .neg _ | .deref _ | .post _ _ | .pre _ _ | .addr _ | .index _ _ | .callName _ _ | .call _ _ | .bin _ _ _
  | .cond _ _ _ | .assign _ _ _ => by simp only [Ex.Lvalue]
end

mutual
theorem uses_vars {E E' : Env} (hl : E'.locals = E.locals) (he : E'.exts = E.exts) : ∀ e : Ex, e.uses E' = e.uses E
  | .num _ | .str _ => by simp only [Ex.uses]
  | .var x => by simp only [Ex.uses, Env.Var, hl, he]; congr
  | .paren e | .not e | .neg e | .deref e | .post _ e | .pre _ e | .addr e => by simp only [Ex.uses]; exact uses_vars hl he e
  | .index a i => by simp only [Ex.uses, uses_vars hl he a, uses_vars hl he i]
  | .callName _ as => by simp only [Ex.uses, he, usesArgs_vars hl he as]
  | .call f as => by simp only [Ex.uses, uses_vars hl he f, usesArgs_vars hl he as]
  | .bin _ x y | .assign _ x y => by simp only [Ex.uses, uses_vars hl he x, uses_vars hl he y]
  | .cond c t e => by simp only [Ex.uses, uses_vars hl he c, uses_vars hl he t, uses_vars hl he e]

theorem usesArgs_vars {E E' : Env} (hl : E'.locals = E.locals) (he : E'.exts = E.exts) : ∀ es : List Ex, Ex.usesArgs E' es = Ex.usesArgs E es
  | [] => by simp only [Ex.usesArgs]
  | e :: es => by simp only [Ex.usesArgs, uses_vars hl he e, usesArgs_vars hl he es]
end

/-- `E'` knows more than `E`, but no more functions among the names in `Z` -/
structure Grown (Z : Ident → Prop) (E E' : Env) : Prop where
  locals : E'.locals = E.locals
  exts : E'.exts = E.exts
  vars : ∀ x ∈ E.vars, x ∈ E'.vars
  funs : ∀ x, Z x → x ∈ E'.funs → x ∈ E.funs

theorem Grown.var {Z : Ident → Prop} {E E' : Env} (h : Grown Z E E') : E'.Var = E.Var := by
  funext x
  simp only [Env.Var, h.locals, h.exts]

theorem Grown.afterEx {Z : Ident → Prop} {E E' : Env} (h : Grown Z E E') (e : Ex) : Grown Z (E.afterEx e) (E'.afterEx e) := by
  refine ⟨h.locals, h.exts, h.vars, fun x hz hx => ?_⟩
  simp only [Env.afterEx, uses_vars h.locals h.exts e, List.mem_append] at hx ⊢
  exact hx.imp id (h.funs x hz)

theorem Grown.extrn {Z : Ident → Prop} : ∀ (xs : List Ident) {E E' : Env}, Grown Z E E' → Grown Z (xs.foldl Env.afterExtrn E) (xs.foldl Env.afterExtrn E')
  | [], _, _, h => h
  | x :: xs, _, _, h => Grown.extrn xs
    ⟨h.locals, by simp only [Env.afterExtrn, h.exts],
      fun y hy => by
        simp only [Env.afterExtrn, List.mem_cons] at hy ⊢
        exact hy.imp id (h.vars y), h.funs⟩

theorem Grown.after {Z : Ident → Prop} : ∀ (s : St) {E E' : Env}, Grown Z E E' → Grown Z (E.after s) (E'.after s)
  | .skip, _, _, h | .ret none, _, _, h | .goto _, _, _, h => h
  | .seq s t, _, _, h => Grown.after t (Grown.after s h)
  | .expr e, _, _, h | .ret (some e), _, _, h => h.afterEx e
  | .auto ds, _, _, h => ⟨by simp only [Env.after, h.locals], h.exts, h.vars, h.funs⟩
  | .extrn xs, _, _, h => Grown.extrn xs h
  | .ifThen c t, _, _, h => Grown.after t (h.afterEx c)
  | .ifElse c t e, _, _, h => Grown.after e (Grown.after t (h.afterEx c))
  | .while c b, _, _, h | .switch c b, _, _, h => Grown.after b (h.afterEx c)
  | .case _ s, _, _, h | .label _ s, _, _, h => Grown.after s h

theorem Grown.extrnOk {Z : Ident → Prop} : ∀ (xs : List Ident) {E E' : Env}, Grown Z E E' → (∀ x ∈ xs, Z x) → E.ExtrnOk xs → E'.ExtrnOk xs
  | [], _, _, _, _, _ => trivial
  | x :: xs, _, _, h, hz, hs =>
    ⟨hs.1.imp (h.vars x) fun k m => k (h.funs x (hz x (by simp)) m),
      Grown.extrnOk xs (Grown.extrn [x] h) (fun y hy => hz y (by simp [hy])) hs.2⟩

theorem Grown.scoped {Z : Ident → Prop} : ∀ (s : St) {E E' : Env}, Grown Z E E' → (∀ x ∈ s.extrns, Z x) → s.Scoped E → s.Scoped E'
  | .skip, _, _, _, _, _ | .ret none, _, _, _, _, _ | .goto _, _, _, _, _, _ => trivial
  | .seq s t, _, _, h, hz, hs =>
    ⟨h.scoped s (fun x hx => hz x (by simp [St.extrns, hx])) hs.1, (h.after s).scoped t (fun x hx => hz x (by simp [St.extrns, hx])) hs.2⟩
  | .expr e, _, _, h, _, hs | .ret (some e), _, _, h, _, hs => (wf_vars h.locals h.exts e).2 hs
  | .auto ds, _, _, h, _, hs => ⟨hs.1, by rw [h.locals]; exact hs.2⟩
  | .extrn xs, _, _, h, hz, hs => h.extrnOk xs hz hs
  | .ifThen c t, _, _, h, hz, hs => ⟨(wf_vars h.locals h.exts c).2 hs.1, (h.afterEx c).scoped t hz hs.2⟩
  | .ifElse c t e, _, _, h, hz, hs =>
    ⟨(wf_vars h.locals h.exts c).2 hs.1, (h.afterEx c).scoped t (fun x hx => hz x (by simp [St.extrns, hx])) hs.2.1,
      ((h.afterEx c).after t).scoped e (fun x hx => hz x (by simp [St.extrns, hx])) hs.2.2⟩
  | .while c b, _, _, h, hz, hs | .switch c b, _, _, h, hz, hs => ⟨(wf_vars h.locals h.exts c).2 hs.1, (h.afterEx c).scoped b hz hs.2⟩
  | .case _ s, _, _, h, hz, hs | .label _ s, _, _, h, hz, hs => h.scoped s hz hs

theorem Grown.enter {Z : Ident → Prop} {E E' : Env} (h : Grown Z E E') (f : Ident) (ps : List Ident) : Grown Z (E.enter f ps) (E'.enter f ps) := by
  refine ⟨rfl, rfl, h.vars, fun x hz hx => ?_⟩
  simp only [Env.enter, List.mem_cons] at hx ⊢
  exact hx.imp id (h.funs x hz)

theorem Grown.afterDecl {Z : Ident → Prop} {E E' : Env} (h : Grown Z E E') (d : Decl) : Grown Z (E.afterDecl d) (E'.afterDecl d) := by
  cases d with
  | global x _ | vector x _ _ =>
    refine ⟨rfl, rfl, fun y hy => ?_, h.funs⟩
    simp only [Env.afterDecl, List.mem_cons] at hy ⊢
    exact hy.imp id (h.vars y)
  | func f ps b =>
    have := (h.enter f ps).after b
    exact ⟨rfl, rfl, this.vars, this.funs⟩

/-- the names in the `extrn` statements of some declarations -/
def extrnNames (p : Program) : List Ident := p.flatMap fun | .func _ _ b => b.extrns | _ => []

theorem Grown.program {Z : Ident → Prop} : ∀ (q : Program) {E E' : Env}, Grown Z E E' → (∀ x ∈ extrnNames q, Z x) → Program.Scoped E q →
    Program.Scoped E' q
  | [], _, _, _, _, _ => trivial
  | d :: q, _, _, h, hz, hs => by
    refine ⟨?_, (h.afterDecl d).program q (fun x hx => hz x ?_) hs.2⟩
    · cases d with
      | global _ _ | vector _ _ _ => exact trivial
      | func f ps b => exact (h.enter f ps).scoped b (fun x hx => hz x (by simp [extrnNames, hx])) hs.1
    · simp only [extrnNames, List.flatMap_cons, List.mem_append] at hx ⊢
      exact .inr hx

theorem Grown.clearSt {Z : Ident → Prop} : ∀ (s : St) {E E' : Env}, Grown Z E E' → s.Clear E → s.Clear E'
  | .skip, _, _, _, _ | .ret none, _, _, _, _ | .goto _, _, _, _, _ | .auto _, _, _, _, _ | .extrn _, _, _, _, _ => trivial
  | .seq s t, _, _, h, hs => ⟨h.clearSt s hs.1, (h.after s).clearSt t hs.2⟩
  | .expr e, _, _, h, hs | .ret (some e), _, _, h, hs => by
    simp only [St.Clear] at hs ⊢
    rw [h.var]; exact hs
  | .ifThen c t, _, _, h, hs => ⟨by rw [h.var]; exact hs.1, (h.afterEx c).clearSt t hs.2⟩
  | .ifElse c t e, _, _, h, hs => ⟨by rw [h.var]; exact hs.1, (h.afterEx c).clearSt t hs.2.1, ((h.afterEx c).after t).clearSt e hs.2.2⟩
  | .while c b, _, _, h, hs | .switch c b, _, _, h, hs => ⟨by rw [h.var]; exact hs.1, (h.afterEx c).clearSt b hs.2⟩
  | .case _ s, _, _, h, hs | .label _ s, _, _, h, hs => by
    simp only [St.Clear] at hs ⊢
    exact h.clearSt s hs

theorem Grown.clear {Z : Ident → Prop} : ∀ (q : Program) {E E' : Env}, Grown Z E E' → Program.ClearIn E q → Program.ClearIn E' q
  | [], _, _, _, _ => trivial
  | d :: q, _, _, h, hs => by
    refine ⟨?_, (h.afterDecl d).clear q hs.2⟩
    cases d with
    | global _ _ | vector _ _ _ => exact trivial
    | func f ps b => exact (h.enter f ps).clearSt b hs.1

theorem scoped_append : ∀ (p q : Program) (E : Env), Program.Scoped E (p ++ q) ↔ Program.Scoped E p ∧ Program.Scoped (p.foldl Env.afterDecl E) q
  | [], q, E => by simp [Program.Scoped]
  | d :: p, q, E => by simp only [List.cons_append, Program.Scoped, scoped_append p q, List.foldl_cons, and_assoc]

theorem clear_append : ∀ (p q : Program) (E : Env), Program.ClearIn E (p ++ q) ↔ Program.ClearIn E p ∧ Program.ClearIn (p.foldl Env.afterDecl E) q
  | [], q, E => by simp [Program.ClearIn]
  | d :: p, q, E => by simp only [List.cons_append, Program.ClearIn, clear_append p q, List.foldl_cons, and_assoc]

theorem foldl_top : ∀ (p : Program) (E : Env), E.locals = [] → E.exts = [] → (p.foldl Env.afterDecl E).locals = [] ∧ (p.foldl Env.afterDecl E).exts = []
  | [], _, h1, h2 => ⟨h1, h2⟩
  | d :: p, E, _, _ => foldl_top p _ (by cases d <;> rfl) (by cases d <;> rfl)

/-! ### C98 -/

/-- Everything in `m` that the declarations `q` do not define anew is in `m'`, and nothing else in `m'` has the symbol of a function kept. -/
def KeptIn (m m' : Module) (q : Program) : Prop :=
  (∀ F ∈ m.funcs, (∀ d ∈ q, ∀ f, d.fun? = some f → F.sym ≠ symbolOf f) → F ∈ m'.funcs ∧ ∀ F' ∈ m'.funcs, F'.sym = F.sym → F' = F) ∧
  ∀ g ∈ m.globals, (∀ d ∈ q, ∀ x, d.var? = some x → g.sym ≠ symbolOf x) → g ∈ m'.globals

/-- C98. The module of a program with more declarations at the end contains the functions (their parameters and all their code) and the
variables and strings (with their initial values) of the module of the program without them, except those that the added declarations define anew. -/
theorem C98_kept {text text' : List Char} {p q : Program} {m m' : Module} (h : TreeOf text p m) (h' : TreeOf text' (p ++ q) m') : KeptIn m m' q := by
  have hn := reads_names h'.1
  obtain ⟨_, c, h1, rfl⟩ := h
  obtain ⟨c', hb', rfl⟩ := tree_between h'
  have hb := between_of_gen h1
  obtain ⟨c1, b1, b2⟩ := hb'.split
  have e : c1 = c := by
    have det : ∀ {p : Program} {a b d : CState}, Between p a b → Between p a d → b = d := by
      intro p a b d k1 k2
      induction k1 generalizing d with
      | nil => cases k2; rfl
      | cons g1 _ ih =>
        cases k2 with
        | cons g2 k2 =>
          rw [g1] at g2
          cases g2
          exact ih k2
    exact det b1 hb
  subst e
  have i1 := b1.mid fun d hd => hn d (by simp [hd])
  have i2 := hb'.mid hn
  have inj : ∀ (fs : List Func), (fs.map Func.sym).Nodup → ∀ a ∈ fs, ∀ b ∈ fs, a.sym = b.sym → a = b := by
    intro fs
    induction fs with
    | nil => simp
    | cons x fs ih =>
      intro nd a ha b hb e
      simp only [List.map_cons, List.nodup_cons] at nd
      rw [List.mem_cons] at ha hb
      rcases ha with rfl | ha <;> rcases hb with rfl | hb
      · rfl
      · exact absurd (e ▸ List.mem_map_of_mem hb) nd.1
      · exact absurd (e ▸ List.mem_map_of_mem ha) nd.1
      · exact ih nd.2 a ha b hb e
  refine ⟨fun F hF hd => ?_, fun g hg hd => ?_⟩
  · have hk : F ∈ c'.funcs := b2.keepsF i1.functions (fun d hd => hn d (by simp [hd])) hF fun d hdq x hx => hd d hdq x (by rw [fun?_eq]; exact hx)
    exact ⟨hk, fun F' hF' e => inj _ i2.nodup F' hF' F hk e⟩
  · exact b2.keepsG i1.functions (fun d hd => hn d (by simp [hd])) hg fun d hdq x hx => hd d hdq x (by rw [var?_eq]; exact hx)

/-- C98. Declarations in front of others are accepted on their own: if the text `a`, a line end and the text `b` together are accepted then so is `a`,
and its module is kept. -/
theorem C98_front {a b : List Char} {p q : Program} {m' : Module} (ha : Careful prec a p) (hb : Careful prec b q)
    (h : compileText (a ++ '\n' :: b) .eof = .ok m') : ∃ m, compileText a .eof = .ok m ∧ KeptIn m m' q := by
  have hj := careful_join ha hb
  obtain ⟨⟨h1, h2⟩, h3⟩ := (careful_accepted_iff hj).1 ⟨m', h⟩
  obtain ⟨m, hm⟩ := (careful_accepted_iff ha).2 ⟨⟨((scoped_append p q _).1 h1).1, fun d hd => h2 d (by simp [hd])⟩, ((clear_append p q _).1 h3).1⟩
  exact ⟨m, hm, C98_kept ((careful_iff ha m).1 hm).1 ((careful_iff hj m').1 h).1⟩

/-- C98. If both texts are accepted and no `extrn` of the second names something that the first defines or uses as a function, then the two together
are accepted, and the module of the first is kept. -/
theorem C98_together {a b : List Char} {p q : Program} {m r : Module} (ha : Careful prec a p) (hb : Careful prec b q)
    (h1 : compileText a .eof = .ok m) (h2 : compileText b .eof = .ok r) (hx : ∀ x ∈ extrnNames q, x ∉ p.place.env.funs) :
    ∃ m', compileText (a ++ '\n' :: b) .eof = .ok m' ∧ KeptIn m m' q := by
  have hj := careful_join ha hb
  obtain ⟨⟨k1, k2⟩, k3⟩ := (careful_accepted_iff ha).1 ⟨m, h1⟩
  obtain ⟨⟨l1, l2⟩, l3⟩ := (careful_accepted_iff hb).1 ⟨r, h2⟩
  obtain ⟨t1, t2⟩ := foldl_top p Env.empty rfl rfl
  have hg : Grown (fun x => x ∉ p.place.env.funs) Env.empty (p.foldl Env.afterDecl Env.empty) := by
    refine ⟨t1, t2, fun x hx => by simp [Env.empty] at hx, fun x hz hx => absurd hx hz⟩
  obtain ⟨m', hm'⟩ := (careful_accepted_iff hj).2 ⟨⟨(scoped_append p q _).2 ⟨k1, hg.program q hx l1⟩, fun d hd => by
    rcases List.mem_append.1 hd with hd | hd
    · exact k2 d hd
    · exact l2 d hd⟩, (clear_append p q _).2 ⟨k3, hg.clear q l3⟩⟩
  exact ⟨m', hm', C98_kept ((careful_iff ha m).1 h1).1 ((careful_iff hj m').1 hm').1⟩

/-! ### the same runs -/

/-- all code of `m` is in `m'` -/
def AllCode (m m' : Module) : Prop := ∀ F ∈ m.funcs, F.blocks ≠ [] → F ∈ m'.funcs

theorem AllCode.call {m m' : Module} (h : AllCode m m') {M : IRMachine} {X : Calls M.World} : ∀ (n : Nat) (a : Word) (vs : List Word)
    (σ : Store M.World) (v : Word) (σ' : Store M.World), Module.Call m M X n a vs σ v σ' → Module.Call m' M X n a vs σ v σ'
  | 0, _, _, _, _, _, k => k
  | n + 1, _, _, _, _, _, k => k.imp id fun ⟨F, h1, h2, h3, h4⟩ => ⟨F, h F h1 h2, h2, h3, codeRun_mono (h.call n) h4⟩

theorem AllCode.returns {m m' : Module} (h : AllCode m m') {M : IRMachine} {X : Calls M.World} (a : Word) (vs : List Word)
    (σ : Store M.World) (v : Word) (σ' : Store M.World) (k : Module.Returns m M X a vs σ v σ') : Module.Returns m' M X a vs σ v σ' :=
  k.imp fun _ => h.call _ _ _ _ _ _

theorem AllCode.makes {m m' : Module} (h : AllCode m m') {M : IRMachine} {X : Calls M.World} {b : Word} {ws : List Word} {σ : Store M.World}
    {a : Word} {vs : List Word} {σ' : Store M.World} (k : Module.Makes m M X b ws σ a vs σ') : Module.Makes m' M X b ws σ a vs σ' := by
  induction k with
  | own h1 h2 h3 h4 => exact .own (h _ h1 h2) h2 (steps_mono h.returns h3) h4
  | inner _ _ ih1 ih2 => exact .inner ih1 ih2

theorem allCode_of_tree {text text' : List Char} {p q : Program} {m m' : Module} (h : TreeOf text p m) (h' : TreeOf text' (p ++ q) m')
    (hq : ∀ d ∈ q, ∀ e ∈ p, ∀ f, d.fun? = some f → e.fun? ≠ some f) : AllCode m m' := by
  intro F hF hb
  obtain ⟨f, ps, b, hf, hs⟩ := (module_code h).2 F hF hb
  refine ((C98_kept h h').1 F hF fun d hd g hg e => hq d hd _ hf g hg ?_).1
  rw [hs] at e
  rw [C26_injective e]
  rfl

/-- C98. If the added declarations define no function anew, then whatever a function of the shorter program does in some store - the result and the
store in the end, and each call on the way - it does in the longer program, too. -/
theorem C98_runs {text text' : List Char} {p q : Program} {m m' : Module} (h : TreeOf text p m) (h' : TreeOf text' (p ++ q) m')
    (hq : ∀ d ∈ q, ∀ e ∈ p, ∀ f, d.fun? = some f → e.fun? ≠ some f) {M : IRMachine} {X : Calls M.World} (b : Word) (ws : List Word)
    (σ : Store M.World) :
    (∀ v σ', Module.Returns m M X b ws σ v σ' → Module.Returns m' M X b ws σ v σ') ∧
    ∀ a vs σ', Module.Makes m M X b ws σ a vs σ' → Module.Makes m' M X b ws σ a vs σ' :=
  have k := allCode_of_tree h h' hq
  ⟨fun _ _ => k.returns _ _ _ _ _, fun _ _ _ => k.makes⟩

/-- C98. So the process of the longer program comes to the same end as that of the shorter one, and to no other (both started in the same store). -/
theorem C98_process {text text' : List Char} {p q : Program} {m m' : Module} (h : TreeOf text p m) (h' : TreeOf text' (p ++ q) m')
    (hq : ∀ d ∈ q, ∀ e ∈ p, ∀ f, d.fun? = some f → e.fun? ≠ some f) (ht : (p ++ q).Tame) {C : Computer} (L : Library)
    (hk : Module.Links m' C.addr) {ps : List Ident} {body : St} (hf : Decl.func "main".toList ps body ∈ p ++ q) {σ : Store C.machine.World}
    (hw : ¬ (p ++ q).Wrong C.machine.toB (C.calls L.Runs) "main".toList [] σ) {status : Word} {σ' : Store C.machine.World}
    (he : Module.Ends m C.machine (C.calls L.Runs) σ status σ') (v : Word) (σ1 : Store C.machine.World) :
    Module.Ends m' C.machine (C.calls L.Runs) σ v σ1 ↔ v = status ∧ σ1 = σ' := by
  have k := allCode_of_tree h h' hq
  have he' : Module.Ends m' C.machine (C.calls L.Runs) σ status σ' :=
    he.imp (k.returns _ _ _ _ _) fun ⟨h1, vs, h2⟩ => ⟨h1, vs, k.makes h2⟩
  refine ⟨fun hv => C71_unique h' ht L hk hf hw hv he', ?_⟩
  rintro ⟨rfl, rfl⟩
  exact he'

/-! ### two texts -/

def frontText : List Char := "g 5;main(){extrn g,h;return(f(g,h,\"a\"));}".toList
def backText : List Char := "h 7;f(x,y){extrn g;g=x+y;return(g);}".toList

def frontProg : Program := [.global ['g'] [.int 5], .func ['m', 'a', 'i', 'n'] [] (.seq (.extrn [['g'], ['h']])
  (.seq (.ret (some (.callName ['f'] [.var ['g'], .var ['h'], .str [97]]))) .skip))]
def backProg : Program := [.global ['h'] [.int 7], .func ['f'] [['x'], ['y']] (.seq (.extrn [['g']])
  (.seq (.expr (.assign none (.var ['g']) (.bin .add (.var ['x']) (.var ['y'])))) (.seq (.ret (some (.var ['g']))) .skip)))]

set_option maxRecDepth 20000 in
theorem appended_checks : Program.isSame frontProg (refParse prec frontText) = true ∧ Program.isSame backProg (refParse prec backText) = true ∧
    (compileText frontText .eof).toOption.isSome = true ∧ (compileText backText .eof).toOption.isSome = true ∧
    (∀ x ∈ extrnNames backProg, x ∉ frontProg.place.env.funs) := by
  decide +kernel

/-- C98: the hypotheses of `C98_together` hold of the two texts, so that `main` and `g` are kept while `f` and `h` are defined anew. -/
example : ∃ m m', compileText frontText .eof = .ok m ∧ compileText (frontText ++ '\n' :: backText) .eof = .ok m' ∧ KeptIn m m' backProg := by
  obtain ⟨h1, h2, h3, h4, h5⟩ := appended_checks
  cases h : compileText frontText .eof with
  | error e => rw [h] at h3; cases h3
  | ok m =>
    cases k : compileText backText .eof with
    | error e => rw [k] at h4; cases h4
    | ok r =>
      obtain ⟨m', hm, hk⟩ := C98_together (refParse_sound (Program.eq_of_same h1)) (refParse_sound (Program.eq_of_same h2)) h k h5
      exact ⟨m, m', rfl, hm, hk⟩

/-- C98: the added declarations define no function anew. -/
example : ∀ d ∈ backProg, ∀ e ∈ frontProg, ∀ f, d.fun? = some f → e.fun? ≠ some f := by
  simp [backProg, frontProg, Decl.fun?]

/-- C98: without the condition on `extrn` two accepted texts need not be accepted together, and a definition behind the program replaces one in it. -/
theorem C98_extrn_counterexample : (emitted "x(){}").isSome = true ∧ (emitted "f(){extrn x;}").isSome = true ∧ emitted "x(){}\nf(){extrn x;}" = none ∧
    emitted "f(){return(1);}\nf(){return(2);}" = emitted "f(){return(2);}" ∧ emitted "f(){return(2);}" ≠ emitted "f(){return(1);}" := by
  decide +kernel

end Blang.Props
