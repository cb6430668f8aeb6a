import Verif.Proofs.Apart
import Verif.Props.Effective
import Verif.Props.Files
/-
Property C91: what the compiler makes of a parameter or `auto` variable that is called by its name.

`Program.apart` (Verif/Spec/Apart.lean) is the program in which such variables have names of their own, while the callees keep theirs;
`Program.effective` (Verif/Spec/Effective.lean) takes away the `return`s that another turn of control follows.  The module does exactly what
`p.effective.apart` prescribes.  So a callee always denotes the `extrn` variable or the function of its name.
-/
namespace Blang.Props
open Blang Blang.Spec Blang.Apart

/-! ### the renamed program is regular -/

mutual
theorem revar_callees (r : Ident → Ident) : ∀ e : Ex, (e.revar r).callees = e.callees
  | .num _ | .str _ | .var _ => by simp [Ex.revar, Ex.callees]
  | .paren e | .post _ e | .pre _ e | .not e | .neg e | .deref e | .addr e => by simp only [Ex.revar, Ex.callees]; exact revar_callees r e
  | .index a i => by simp only [Ex.revar, Ex.callees, revar_callees r a, revar_callees r i]
  | .callName f as => by simp only [Ex.revar, Ex.callees, revar_calleesArgs r as]
  | .call f as => by simp only [Ex.revar, Ex.callees, revar_callees r f, revar_calleesArgs r as]
  | .bin _ l m | .assign _ l m => by simp only [Ex.revar, Ex.callees, revar_callees r l, revar_callees r m]
  | .cond c t e => by simp only [Ex.revar, Ex.callees, revar_callees r c, revar_callees r t, revar_callees r e]
theorem revar_calleesArgs (r : Ident → Ident) : ∀ es : List Ex, Ex.calleesArgs (Ex.revarArgs r es) = Ex.calleesArgs es
  | [] => rfl
  | e :: es => by simp only [Ex.revarArgs, Ex.calleesArgs, revar_callees r e, revar_calleesArgs r es]
end

theorem revar_same (r : Ident → Ident) (s : St) : ∀ ls, (s.revar r ls).callees = s.callees ∧ (∀ k, (s.revar r ls).exit k = s.exit k) ∧
    (s.revar r ls).labels = s.labels ∧ (s.revar r ls).cases = s.cases ∧ ((s.revar r ls).Distinct ↔ s.Distinct) ∧
    (s.revar r ls).sizes = s.sizes ∧ (s.revar r ls).autos = s.autos.map r := by
  induction s with
  | skip => intro ls; simp [St.revar, St.callees, St.exit, St.labels, St.cases, St.Distinct, St.sizes, St.autos]
  | expr e => intro ls; simp [St.revar, St.callees, St.exit, St.labels, St.cases, St.Distinct, St.sizes, St.autos, revar_callees]
  | ret e => intro ls; cases e <;> simp [St.revar, St.callees, St.exit, St.labels, St.cases, St.Distinct, St.sizes, St.autos, revar_callees]
  | auto ds =>
    intro ls
    simp [St.revar, St.callees, St.exit, St.labels, St.cases, St.Distinct, St.sizes, St.autos, List.filterMap_map, Function.comp_def]
  | extrn xs => intro ls; simp [St.revar, St.callees, St.exit, St.labels, St.cases, St.Distinct, St.sizes, St.autos]
  | goto l => intro ls; simp [St.revar, St.callees, St.exit, St.labels, St.cases, St.Distinct, St.sizes, St.autos]
  | seq s t ih1 ih2 =>
    intro ls
    have h1 := ih1 ls
    have h2 := ih2 (s.autos ++ ls)
    have h3 : (t.revar r (s.autos ++ ls)).exit = t.exit := funext h2.2.1
    simp [St.revar, St.callees, St.exit, St.labels, St.cases, St.Distinct, St.sizes, St.autos, h1, h2, h3]
  | ifThen c t ih => intro ls; simp [St.revar, St.callees, St.exit, St.labels, St.cases, St.Distinct, St.sizes, St.autos, ih ls, revar_callees]
  | ifElse c t e ih1 ih2 =>
    intro ls
    simp [St.revar, St.callees, St.exit, St.labels, St.cases, St.Distinct, St.sizes, St.autos, ih1 ls, ih2 (t.autos ++ ls), revar_callees]
  | «while» c t ih => intro ls; simp [St.revar, St.callees, St.exit, St.labels, St.cases, St.Distinct, St.sizes, St.autos, ih ls, revar_callees]
  | switch c t ih => intro ls; simp [St.revar, St.callees, St.exit, St.labels, St.cases, St.Distinct, St.sizes, St.autos, ih ls, revar_callees]
  | case v s ih => intro ls; simp [St.revar, St.callees, St.exit, St.labels, St.cases, St.Distinct, St.sizes, St.autos, ih ls]
  | label l s ih => intro ls; simp [St.revar, St.callees, St.exit, St.labels, St.cases, St.Distinct, St.sizes, St.autos, ih ls]

theorem apart_regular {ps : List Ident} {b : St} (h : Orderly b) : Regular (ps.map (ownName ps b)) (b.revar (ownName ps b) ps) := by
  obtain ⟨h1, h2, h3, h4, h5, h6, h7⟩ := revar_same (ownName ps b) b ps
  have key : ∀ f ∈ b.callees, ∀ ys : List Ident, (∀ y ∈ ys, y ∈ namesIn ps b) → f ∉ ys.map (ownName ps b) := by
    intro f hf ys hy hm
    obtain ⟨y, h8, rfl⟩ := List.mem_map.1 hm
    by_cases hc : y ∈ b.callees
    · have := ownName_long (ps := ps) hc (ownName ps b y) (by simp [namesIn, hf])
      omega
    · rw [ownName, if_neg hc] at hf
      exact hc hf
  refine ⟨by rw [h2]; exact h.exit, by rw [h3]; exact h.labels, h5.2 h.cases, ?_, by rw [h6]; exact h.sizes⟩
  intro f hf
  rw [h1] at hf
  rw [h7]
  exact ⟨key f hf _ fun y hy => by simp [namesIn, hy], key f hf _ fun y hy => by simp [namesIn, hy]⟩

/-! ### names -/

mutual
theorem revar_all {P : Ident → Prop} {r : Ident → Ident} (hr : ∀ x, P x → P (r x)) : ∀ e : Ex, e.All P → (e.revar r).All P
  | .num _, _ | .str _, _ => trivial
  | .var x, h => hr x h
  | .paren e, h | .post _ e, h | .pre _ e, h | .not e, h | .neg e, h | .deref e, h | .addr e, h => by
    simp only [Ex.revar, Ex.All] at h ⊢; exact revar_all hr e h
  | .index a i, h => ⟨revar_all hr a h.1, revar_all hr i h.2⟩
  | .callName f as, h => ⟨h.1, revar_allArgs hr as h.2⟩
  | .call f as, h => ⟨revar_all hr f h.1, revar_allArgs hr as h.2⟩
  | .bin _ l m, h => ⟨revar_all hr l h.1, revar_all hr m h.2⟩
  | .assign _ l m, h => ⟨revar_all hr l h.1, revar_all hr m h.2⟩
  | .cond c t e, h => ⟨revar_all hr c h.1, revar_all hr t h.2.1, revar_all hr e h.2.2⟩
theorem revar_allArgs {P : Ident → Prop} {r : Ident → Ident} (hr : ∀ x, P x → P (r x)) : ∀ es : List Ex, Ex.AllArgs P es → Ex.AllArgs P (Ex.revarArgs r es)
  | [], _ => trivial
  | e :: es, h => ⟨revar_all hr e h.1, revar_allArgs hr es h.2⟩
end

theorem revar_allSt {P : Ident → Prop} {r : Ident → Ident} (hr : ∀ x, P x → P (r x)) : ∀ (s : St) (ls : List Ident), s.All P → (s.revar r ls).All P := by
  have ha : ∀ ls x, P x → P (among r ls x) := by
    intro ls x hx
    unfold among
    split
    · exact hr x hx
    · exact hx
  intro s
  induction s with
  | skip => intro ls h; trivial
  | expr e => intro ls h; exact revar_all (ha ls) e h
  | ret e =>
    intro ls h
    cases e with
    | none => trivial
    | some e => exact revar_all (ha ls) e h
  | auto ds =>
    intro ls h d hd
    obtain ⟨d', h1, rfl⟩ := List.mem_map.1 hd
    exact hr _ (h d' h1)
  | extrn xs => intro ls h; exact h
  | goto l => intro ls h; exact h
  | seq s t ih1 ih2 => intro ls h; exact ⟨ih1 _ h.1, ih2 _ h.2⟩
  | ifThen c t ih => intro ls h; exact ⟨revar_all (ha ls) c h.1, ih _ h.2⟩
  | ifElse c t e ih1 ih2 => intro ls h; exact ⟨revar_all (ha ls) c h.1, ih1 _ h.2.1, ih2 _ h.2.2⟩
  | «while» c t ih => intro ls h; exact ⟨revar_all (ha ls) c h.1, ih _ h.2⟩
  | switch c t ih => intro ls h; exact ⟨revar_all (ha ls) c h.1, ih _ h.2⟩
  | case v s ih => intro ls h; exact ih _ h
  | label l s ih => intro ls h; exact ⟨h.1, ih _ h.2⟩

theorem ownName_ok {ps : List Ident} {b : St} {x : Ident} (h : NameOk x) : NameOk (ownName ps b x) := by
  unfold ownName
  split
  · refine ⟨fun e => h.1 (List.append_eq_nil_iff.1 e).1, fun c hc => ?_⟩
    rcases List.mem_append.1 hc with hc | hc
    · exact h.2 c hc
    · rw [(List.mem_replicate.1 hc).2]
      exact .inr (.inr rfl)
  · exact h

theorem apart_names {p : Program} (h : ∀ d ∈ p, d.All NameOk) : ∀ d ∈ p.apart, d.All NameOk := by
  intro d hd
  obtain ⟨d', h1, rfl⟩ := List.mem_map.1 hd
  cases d' with
  | func f ps b =>
    have h2 := h _ h1
    refine ⟨h2.1, fun x hx => ?_, revar_allSt (fun x hx => ownName_ok hx) b ps h2.2.2⟩
    obtain ⟨y, h3, rfl⟩ := List.mem_map.1 hx
    exact ownName_ok (h2.2.1 y h3)
  | global x vs => exact h _ h1
  | vector x n vs => exact h _ h1

/-! ### twin modules do the same -/

theorem twin_of_strip {c c' : CState} (h : Base c c') : Module.Twin ⟨c.globals, c.funcs⟩ ⟨c'.globals, c'.funcs⟩ := by
  refine ⟨h.fields.2.2.1.symm, ?_⟩
  have := congrArg (List.map fun f : Func => (f.sym, f.params.length, f.variadic, f.blocks)) h.funcs
  simpa [List.map_map, Function.comp_def, strip] using this

theorem Twin.symm {m m' : Module} (h : Module.Twin m m') : Module.Twin m' m := ⟨h.1.symm, h.2.symm⟩

theorem Twin.mem {m m' : Module} (h : Module.Twin m m') {f : Func} (hf : f ∈ m.funcs) : ∃ g ∈ m'.funcs, g.sym = f.sym ∧ g.blocks = f.blocks := by
  have : (f.sym, f.params.length, f.variadic, f.blocks) ∈ m'.funcs.map (fun f => (f.sym, f.params.length, f.variadic, f.blocks)) := by
    rw [← h.2]; exact List.mem_map.2 ⟨f, hf, rfl⟩
  obtain ⟨g, h1, h2⟩ := List.mem_map.1 this
  simp only [Prod.mk.injEq] at h2
  exact ⟨g, h1, h2.1, h2.2.2.2⟩

theorem Twin.call {m m' : Module} (h : Module.Twin m m') {M : IRMachine} {X : Calls M.World} : ∀ n, Module.Call m M X n = Module.Call m' M X n
  | 0 => rfl
  | n + 1 => by
    have key : ∀ {m m' : Module}, Module.Twin m m' → Module.Call m M X n = Module.Call m' M X n → ∀ a args σ v σ',
        Module.Call m M X (n + 1) a args σ v σ' → Module.Call m' M X (n + 1) a args σ v σ' := by
      rintro m m' h ih a args σ v σ' (h1 | ⟨f, h1, h2, h3, h4⟩)
      · exact .inl h1
      · obtain ⟨g, g1, g2, g3⟩ := Twin.mem h h1
        refine .inr ⟨g, g1, by rw [g3]; exact h2, by rw [g2]; exact h3, ?_⟩
        rw [g3, ← ih]
        exact h4
    funext a args σ v σ'
    exact propext ⟨key h (Twin.call h n) a args σ v σ', key (Twin.symm h) (Twin.call h n).symm a args σ v σ'⟩

theorem Twin.returns {m m' : Module} (h : Module.Twin m m') {M : IRMachine} {X : Calls M.World} : Module.Returns m M X = Module.Returns m' M X := by
  funext a args σ v σ'
  unfold Module.Returns
  simp only [Twin.call h]

theorem Twin.makes {m m' : Module} (h : Module.Twin m m') {M : IRMachine} {X : Calls M.World} {b : Word} {args : List Word} {σ : Store M.World}
    {a : Word} {vs : List Word} {σ' : Store M.World} (hm : Module.Makes m M X b args σ a vs σ') : Module.Makes m' M X b args σ a vs σ' := by
  induction hm with
  | own h1 h2 h3 h4 =>
    obtain ⟨g, g1, g2, g3⟩ := Twin.mem h h1
    rw [← g2]
    rw [Twin.returns h, ← g3] at h3
    rw [← g3] at h4
    exact .own g1 (by rw [g3]; exact h2) h3 h4
  | inner _ _ ih1 ih2 => exact .inner ih1 ih2

theorem Twin.loaded {m m' : Module} (h : Module.Twin m m') {M : IRMachine} {X : Calls M.World} (hl : Loaded m M X) : Loaded m' M X := by
  refine ⟨hl.functional, fun f hf hb => ?_, fun f hf g hg h1 h2 => ?_⟩
  · obtain ⟨g, g1, g2, g3⟩ := Twin.mem (Twin.symm h) hf
    rw [← g2]
    exact hl.external g g1 (by rw [g3]; exact hb)
  · obtain ⟨f', f1, f2, f3⟩ := Twin.mem (Twin.symm h) hf
    obtain ⟨g', g1, g2, g3⟩ := Twin.mem (Twin.symm h) hg
    rw [← f2, ← g2]
    exact hl.apart f' f1 g' g1 (by rw [f3]; exact h1) (by rw [g3]; exact h2)

theorem Twin.does {m m' : Module} (h : Module.Twin m m') {M : IRMachine} {X : Calls M.World} {f : Ident} {args : List Word} {σ : Store M.World}
    {v : Word} {σ' : Store M.World} (hd : Module.Does m M X f args σ v σ') : Module.Does m' M X f args σ v σ' := by
  obtain ⟨⟨n, h1⟩, h2⟩ := hd
  refine ⟨⟨n, by rw [← Twin.call h]; exact h1⟩, fun hl k v1 σ1 h3 => ?_⟩
  rw [← Twin.call h] at h3
  exact h2 (Twin.loaded (Twin.symm h) hl) k v1 σ1 h3

/-! ### C91 -/

/-- the code of the renamed program -/
theorem apart_between {text : List Char} {p : Program} {m : Module} (h : TreeOf text p m) :
    ∃ c', Between p.effective.apart newCompiler c' ∧ Module.Twin ⟨c'.globals, c'.funcs⟩ m ∧
      ∃ c, Between p.effective newCompiler c ∧ Base c c' := by
  obtain ⟨_, c, h1, rfl⟩ := h
  rw [← genProg_effective] at h1
  obtain ⟨c', h2, h3⟩ := genProg_apart p.effective (c := newCompiler) (c' := newCompiler) ⟨⟨rfl, rfl⟩, rfl, rfl, rfl⟩ h1
  exact ⟨c', between_of_gen h2, Twin.symm (twin_of_strip h3), c, between_of_gen h1, h3⟩

/-- C91. Giving the parameters and `auto` variables that are called names of their own does not change the module, except for the names of
the parameters. -/
theorem C91_module {text text' : List Char} {p : Program} {m m' : Module} (h : TreeOf text p m) (h' : TreeOf text' p.effective.apart m') :
    Module.Twin m' m := by
  obtain ⟨_, c, h1, rfl⟩ := h
  obtain ⟨_, c', h2, rfl⟩ := h'
  rw [← genProg_effective] at h1
  obtain ⟨c1, h3, h4⟩ := genProg_apart p.effective (c := newCompiler) (c' := newCompiler) ⟨⟨rfl, rfl⟩, rfl, rfl, rfl⟩ h1
  rw [h3] at h2
  cases h2
  exact Twin.symm (twin_of_strip h4)

theorem extrns_all {P : Ident → Prop} : ∀ (s : St), s.All P → ∀ x ∈ s.extrns, P x := by
  intro s
  induction s with
  | extrn xs => intro h; exact h
  | seq s t ih1 ih2 =>
    intro h x hx
    rcases List.mem_append.1 hx with hx | hx
    · exact ih1 h.1 x hx
    · exact ih2 h.2 x hx
  | ifElse c s t ih1 ih2 =>
    intro h x hx
    rcases List.mem_append.1 hx with hx | hx
    · exact ih1 h.2.1 x hx
    · exact ih2 h.2.2 x hx
  | ifThen c s ih | «while» c s ih | switch c s ih => intro h; exact ih h.2
  | case v s ih => intro h; exact ih h
  | label l s ih => intro h; exact ih h.2
  | _ => intro _ x hx; cases hx

theorem vars_ok {p : Program} (hn : ∀ d ∈ p, d.All NameOk) : ∀ x ∈ p.place.env.vars, NameOk x := by
  intro x hx
  rcases (place_vars p Env.empty x).1 hx with ⟨d, hd, h⟩ | h
  · have := hn d hd
    cases d with
    | global y vs => rcases h with h | h <;> cases h; exact this
    | vector y n vs => rcases h with h | h <;> cases h; exact this
    | func f ps b =>
      rcases h with h | h
      · cases h
      · exact extrns_all b this.2.2 x h
  · cases h

/-- C91. The renamed program obeys the standing conditions if the program does, whatever names it calls. -/
theorem C91_tame {text : List Char} {p : Program} {m : Module} (h : TreeOf text p m) (ht : p.effective.Orderly) : p.effective.apart.Tame := by
  have hn := effective_names (reads_names h.1)
  obtain ⟨c', hb', _, c, hb, h1⟩ := apart_between h
  have hn' := apart_names hn
  constructor
  · intro f ps b hf
    obtain ⟨d, h2, h3⟩ := List.mem_map.1 hf
    cases d with
    | func f' ps' b' =>
      rw [Decl.apart] at h3
      cases h3
      exact apart_regular (ht.1 _ _ _ h2)
    | global x vs => cases h3
    | vector x n vs => cases h3
  · intro x hx hx'
    have hok := vars_ok hn' x hx
    have k' := (hb'.knows KnowsTop.init hn').knows
    have k := (hb.knows KnowsTop.init hn).knows
    have f1 : globalName x ∈ c'.globals.map GlobalDef.sym := (k'.vars x hok).1 hx
    have f2 : globalName x ∈ c'.funcs.map Func.sym := (k'.funs x hok).1 hx'
    rw [h1.fields.2.2.1] at f1
    have e : c'.funcs.map Func.sym = c.funcs.map Func.sym := by
      have := congrArg (List.map Func.sym) h1.funcs
      simp only [List.map_map, Function.comp_def, strip] at this
      exact this.symm
    rw [e] at f2
    exact ht.2 x ((k.vars x hok).2 f1) ((k.funs x hok).2 f2)

theorem func_apart {p : Program} {f : Ident} {ps : List Ident} {body : St} (hf : Decl.func f ps body ∈ p) :
    ∃ ps' body', Decl.func f ps' body' ∈ p.effective.apart :=
  ⟨_, _, List.mem_map.2 ⟨_, func_effective hf, rfl⟩⟩

mutual
theorem revar_id {r : Ident → Ident} (hr : ∀ x, r x = x) : ∀ e : Ex, e.revar r = e
  | .num _ | .str _ => rfl
  | .var x => by rw [Ex.revar, hr]
  | .paren e | .post _ e | .pre _ e | .not e | .neg e | .deref e | .addr e => by simp only [Ex.revar, revar_id hr e]
  | .index a i => by simp only [Ex.revar, revar_id hr a, revar_id hr i]
  | .callName f as => by simp only [Ex.revar, revar_idArgs hr as]
  | .call f as => by simp only [Ex.revar, revar_id hr f, revar_idArgs hr as]
  | .bin _ l m | .assign _ l m => by simp only [Ex.revar, revar_id hr l, revar_id hr m]
  | .cond c t e => by simp only [Ex.revar, revar_id hr c, revar_id hr t, revar_id hr e]
theorem revar_idArgs {r : Ident → Ident} (hr : ∀ x, r x = x) : ∀ es : List Ex, Ex.revarArgs r es = es
  | [] => rfl
  | e :: es => by simp only [Ex.revarArgs, revar_id hr e, revar_idArgs hr es]
end

theorem revar_idSt {r : Ident → Ident} (s : St) : ∀ ls, (∀ x ∈ ls, r x = x) → (∀ x ∈ s.autos, r x = x) → s.revar r ls = s := by
  have ha : ∀ ls, (∀ x ∈ ls, r x = x) → ∀ x, among r ls x = x := by
    intro ls h x
    unfold among
    split
    · exact h x ‹_›
    · rfl
  have happ : ∀ {s : St} {ls}, (∀ x ∈ ls, r x = x) → (∀ x ∈ s.autos, r x = x) → ∀ x ∈ s.autos ++ ls, r x = x := by
    intro s ls h h' x hx
    rcases List.mem_append.1 hx with hx | hx
    · exact h' x hx
    · exact h x hx
  induction s with
  | skip | extrn _ | goto _ => intro ls _ _; rfl
  | expr e => intro ls h _; rw [St.revar, revar_id (ha ls h)]
  | ret e =>
    intro ls h _
    cases e with
    | none => rfl
    | some e => rw [St.revar, revar_id (ha ls h)]
  | auto ds =>
    intro ls _ h
    rw [St.revar]
    congr 1
    rw [List.map_congr_left (g := id) fun d hd => ?_, List.map_id]
    rw [h d.1 (List.mem_map.2 ⟨d, hd, rfl⟩)]; rfl
  | seq s t ih1 ih2 =>
    intro ls h h'
    rw [St.autos] at h'
    have h1 : ∀ x ∈ s.autos, r x = x := fun x hx => h' x (by simp [hx])
    rw [St.revar, ih1 ls h h1, ih2 _ (happ h h1) fun x hx => h' x (by simp [hx])]
  | ifElse c s t ih1 ih2 =>
    intro ls h h'
    rw [St.autos] at h'
    have h1 : ∀ x ∈ s.autos, r x = x := fun x hx => h' x (by simp [hx])
    rw [St.revar, revar_id (ha ls h), ih1 ls h h1, ih2 _ (happ h h1) fun x hx => h' x (by simp [hx])]
  | ifThen c s ih | «while» c s ih | switch c s ih => intro ls h h'; rw [St.revar, revar_id (ha ls h), ih ls h h']
  | case v s ih | label v s ih => intro ls h h'; rw [St.revar, ih ls h h']

/-- C91. If no parameter or `auto` variable is called by its name and nothing follows a `return`, the renamed program is the program itself. -/
theorem C91_same {p : Program} (ht : p.Tame) : p.effective.apart = p := by
  rw [C16_effective_same ht]
  have h : ∀ d ∈ p, d.apart = d := by
    intro d hd
    cases d with
    | func f ps b =>
      have hr := (ht.1 f ps b hd).callees
      have h1 : ∀ x ∈ ps, ownName ps b x = x := fun x hx => by rw [ownName, if_neg fun hc => (hr x hc).1 hx]
      have h2 : ∀ x ∈ b.autos, ownName ps b x = x := fun x hx => by rw [ownName, if_neg fun hc => (hr x hc).2 hx]
      rw [Decl.apart, revar_idSt b ps h1 h2, List.map_congr_left h1, List.map_id']
    | global x vs => rfl
    | vector x n vs => rfl
  unfold Program.apart
  rw [List.map_congr_left h, List.map_id']

section
variable {text : List Char} {p : Program} {m : Module} (h : TreeOf text p m) (ht : p.effective.Orderly)
include h ht

/-- C91. If the renamed program prescribes that a function ends with a result and a store, then this is what calling it in the module
does, and the module has no other outcome. -/
theorem C91_flow : Implements m p.effective.apart := by
  intro M X n f args σ v σ1 hr
  obtain ⟨c', hb, htw, _⟩ := apart_between h
  exact Twin.does htw (implements_of hb (apart_names (effective_names (reads_names h.1))) (C91_tame h ht) M X n f args σ v σ1 hr)

/-- C91. A function returns in the module exactly what the renamed program prescribes, unless that goes wrong, ... -/
theorem C91_results {M : IRMachine} {X : Calls M.World} (hl : Loaded m M X) {f : Ident} {ps : List Ident} {body : St}
    (hf : Decl.func f ps body ∈ p) {args : List Word} {σ : Store M.World} (hw : ¬ p.effective.apart.Wrong M.toB X f args σ) (v : Word)
    (σ' : Store M.World) :
    Module.Returns m M X (M.addr (symbolOf f)) args σ v σ' ↔ p.effective.apart.Returns M.toB X (M.toB.global f) args σ v σ' := by
  have hn := apart_names (effective_names (reads_names h.1))
  have htm := C91_tame h ht
  obtain ⟨c', hb, htw, _⟩ := apart_between h
  rw [← Twin.returns htw]
  obtain ⟨ps1, b1, hf1⟩ := func_apart hf
  constructor
  · rintro ⟨n, hc⟩
    obtain ⟨ps', b', P, hd⟩ := defines_exists p.effective.apart ⟨ps1, b1, hf1⟩
    exact returns_only hb hn htm (Twin.loaded (Twin.symm htw) hl) n f args σ v σ' ps' b' P hd hw hc
  · exact returns_sim hb hn htm _ _ _ _ _

/-- C91. ... it makes exactly the calls that the renamed program prescribes, ... -/
theorem C91_calls {M : IRMachine} {X : Calls M.World} (hl : Loaded m M X) {f : Ident} {ps : List Ident} {body : St}
    (hf : Decl.func f ps body ∈ p) {args : List Word} {σ : Store M.World} (hw : ¬ p.effective.apart.Wrong M.toB X f args σ) (a : Word)
    (vs : List Word) (σ' : Store M.World) :
    Module.Makes m M X (M.addr (symbolOf f)) args σ a vs σ' ↔ p.effective.apart.Makes M.toB X f args σ a vs σ' := by
  have hn := apart_names (effective_names (reads_names h.1))
  have htm := C91_tame h ht
  obtain ⟨c', hb, htw, _⟩ := apart_between h
  obtain ⟨ps1, b1, hf1⟩ := func_apart hf
  exact ⟨fun hm => calls_only hb hn htm (Twin.loaded (Twin.symm htw) hl) hf1 hw a vs σ' (Twin.makes (Twin.symm htw) hm),
    fun hm => Twin.makes htw (calls_made hb hn htm hm)⟩

/-- C91. ... and the process comes to an end exactly as the renamed program prescribes. -/
theorem C91_process {C : Computer} (L : Library) (hk : Module.Links m C.addr) {ps : List Ident} {body : St}
    (hf : Decl.func "main".toList ps body ∈ p) {σ : Store C.machine.World}
    (hw : ¬ p.effective.apart.Wrong C.machine.toB (C.calls L.Runs) "main".toList [] σ) (status : Word) (σ' : Store C.machine.World) :
    Module.Ends m C.machine (C.calls L.Runs) σ status σ' ↔ p.effective.apart.Ends C.machine.toB (C.calls L.Runs) σ status σ' := by
  have hl : Loaded m C.machine (C.calls L.Runs) := loaded_of_links hk
  unfold Module.Ends Program.Ends
  rw [C91_results h ht hl hf hw]
  simp only [C91_calls h ht hl hf hw]

/-- C91. In particular, a call of a name that no `extrn` of the function mentioned before goes to the function of that name, of the program or
external, with the values of the arguments, evaluated from left to right: also where a parameter or `auto` variable has that name. -/
theorem C91_callee {M : IRMachine} {X : Calls M.World} {n : Nat} {P : Place} {f : Ident} {as : List Ex} {k : Cont} {ρ : Frame}
    {σ σ1 σ2 : Store M.World} {vs : List Word} {v : Word} (hx : f ∉ P.env.exts) (hl : f ∉ P.env.locals)
    (ha : Ex.EvalArgs M.toB (p.effective.apart.Call M.toB X n) P.env ρ as P.lits σ vs σ1)
    (hc : p.effective.apart.Call M.toB X n (M.addr (symbolOf f)) vs σ1 v σ2) :
    Module.ReturnsFrom m p.effective.apart M X n (.run P (.ret (some (.callName f as))) k ρ σ) v σ2 := by
  refine returnsFrom_of_step (C91_flow h ht) fun _ _ => .ret ⟨.val v, ⟨.val (M.addr (symbolOf f)), vs, σ1, v, ?_, ha, hc, rfl⟩, rfl⟩
  simp [nameRes, hl, hx]

end
end Blang.Props
