import Verif.Proofs.Scope
/-
Properties C13, C21, C22, C23: static rules.

The rules are in Verif/Spec/Scope.lean: `Program.Scoped` (names and lvalues), `CasesOk` (places of
`case`), and lists of the targets, `auto` names and `extrn` names of a statement.
-/
namespace Blang.Props
open Blang Blang.Spec

/-- `m` is the module generated from the tree `p` of the text. -/
def TreeOf (chars : List Char) (p : Program) (m : Module) : Prop :=
  Reads true chars p ∧ ∃ c, genProg p newCompiler = .ok () c ∧ m = ⟨c.globals, c.funcs⟩

theorem accepted_tree {chars : List Char} {t : Tail} {m : Module} (h : compileText chars t = .ok m) :
    ∃ p, TreeOf chars p m ∧ Program.Scoped Env.empty p ∧ ∀ d ∈ p, d.CasesOk := by
  obtain ⟨p, c, h1, h2, h3, h4⟩ := compileText_sound h
  exact ⟨p, ⟨h1, c, h3, h4⟩, (progWf_iff p _).1 ((genProg_accepts (reads_names h1) KnowsTop.init).1 ⟨c, h3⟩)⟩

/-! ### consequences of the rules -/

theorem foldl_extrn (xs : List Ident) : ∀ E : Env, (xs.foldl Env.afterExtrn E).locals = E.locals ∧
    ∀ x, x ∈ (xs.foldl Env.afterExtrn E).exts ↔ x ∈ xs ∨ x ∈ E.exts := by
  induction xs with
  | nil => intro E; simp
  | cons y ys ih =>
    intro E
    obtain ⟨h1, h2⟩ := ih (E.afterExtrn y)
    refine ⟨h1, fun x => ?_⟩
    simp only [List.foldl_cons, h2 x, Env.afterExtrn, List.mem_cons]
    grind

theorem after_locals (s : St) : ∀ (E : Env) (x : Ident), x ∈ (E.after s).locals ↔ x ∈ s.autos ∨ x ∈ E.locals := by
  induction s with
  | ret e => intro E x; cases e <;> simp [Env.after, St.autos, Env.afterEx]
  | extrn xs => intro E x; simp [Env.after, St.autos, (foldl_extrn xs E).1]
  | seq s t ih1 ih2 => intro E x; simp only [Env.after, St.autos, ih2, ih1, List.mem_append]; grind
  | ifElse c s t ih1 ih2 => intro E x; simp only [Env.after, St.autos, ih2, ih1, List.mem_append, Env.afterEx]; grind
  | auto ds => intro E x; simp [Env.after, St.autos]
  | ifThen c s ih | «while» c s ih | switch c s ih => intro E x; simp only [Env.after, St.autos, ih, Env.afterEx]
  | case v s ih | label v s ih => intro E x; simp only [Env.after, St.autos, ih]
  | _ => intro E x; simp [Env.after, St.autos, Env.afterEx]

theorem after_exts (s : St) : ∀ (E : Env) (x : Ident), x ∈ (E.after s).exts ↔ x ∈ s.extrns ∨ x ∈ E.exts := by
  induction s with
  | ret e => intro E x; cases e <;> simp [Env.after, St.extrns, Env.afterEx]
  | extrn xs => intro E x; simp [Env.after, St.extrns, (foldl_extrn xs E).2]
  | seq s t ih1 ih2 => intro E x; simp only [Env.after, St.extrns, ih2, ih1, List.mem_append]; grind
  | ifElse c s t ih1 ih2 => intro E x; simp only [Env.after, St.extrns, ih2, ih1, List.mem_append, Env.afterEx]; grind
  | ifThen c s ih | «while» c s ih | switch c s ih => intro E x; simp only [Env.after, St.extrns, ih, Env.afterEx]
  | case v s ih | label v s ih => intro E x; simp only [Env.after, St.extrns, ih]
  | _ => intro E x; simp [Env.after, St.extrns, Env.afterEx]

/-- a target of the right shape, with names from `vs` -/
def Target (vs : Ident → Prop) (e : Ex) : Prop :=
  (∃ x, e = .var x ∧ vs x) ∨ (∃ a i, e = .index a i) ∨ (∃ a, e = .deref a) ∨ (∃ d a, e = .pre d a)

theorem target_of_lvalue {E : Env} {e : Ex} (h : e.Lvalue E) : Target E.Var e := by
  cases e with
  | var x => exact .inl ⟨x, rfl, h⟩
  | index a i => exact .inr (.inl ⟨a, i, rfl⟩)
  | deref a => exact .inr (.inr (.inl ⟨a, rfl⟩))
  | pre d a => exact .inr (.inr (.inr ⟨d, a, rfl⟩))
  | _ => exact h.elim

theorem Target.mono {vs ws : Ident → Prop} {e : Ex} (h : Target vs e) (hv : ∀ x, vs x → ws x) : Target ws e := by
  rcases h with ⟨x, h1, h2⟩ | h
  · exact .inl ⟨x, h1, hv x h2⟩
  · exact .inr h

mutual
theorem ex_targets {E : Env} : ∀ {e : Ex}, e.Wf E → ∀ t ∈ e.targets, Target E.Var t
  | .num _, _ | .str _, _ | .var _, _ => by simp [Ex.targets]
  | .paren e, h | .not e, h | .neg e, h | .deref e, h => by
    simp only [Ex.targets, Ex.Wf] at *; exact ex_targets h
  | .post _ e, h | .pre _ e, h | .addr e, h => by
    simp only [Ex.targets, Ex.Wf] at *
    intro t ht
    rcases List.mem_cons.1 ht with rfl | ht
    · exact target_of_lvalue h.2
    · exact ex_targets h.1 t ht
  | .index a b, h | .bin _ a b, h => by
    simp only [Ex.targets, Ex.Wf] at *
    intro t ht
    rcases List.mem_append.1 ht with ht | ht
    · exact ex_targets h.1 t ht
    · exact ex_targets h.2 t ht
  | .callName _ as, h => by simp only [Ex.targets, Ex.Wf] at *; exact args_targets h
  | .call f as, h => by
    simp only [Ex.targets, Ex.Wf] at *
    intro t ht
    rcases List.mem_append.1 ht with ht | ht
    · exact ex_targets h.1 t ht
    · exact args_targets h.2 t ht
  | .cond a b c, h => by
    simp only [Ex.targets, Ex.Wf] at *
    intro t ht
    rcases List.mem_append.1 ht with ht | ht
    · rcases List.mem_append.1 ht with ht | ht
      · exact ex_targets h.1 t ht
      · exact ex_targets h.2.1 t ht
    · exact ex_targets h.2.2 t ht
  | .assign _ l r, h => by
    simp only [Ex.targets, Ex.Wf] at *
    intro t ht
    rcases List.mem_cons.1 ht with rfl | ht
    · exact target_of_lvalue h.2.1
    · rcases List.mem_append.1 ht with ht | ht
      · exact ex_targets h.1 t ht
      · exact ex_targets h.2.2 t ht

theorem args_targets {E : Env} : ∀ {es : List Ex}, Ex.WfArgs E es → ∀ t ∈ Ex.targetsArgs es, Target E.Var t
  | [], _ => by simp [Ex.targetsArgs]
  | e :: es, h => by
    simp only [Ex.targetsArgs, Ex.WfArgs] at *
    intro t ht
    rcases List.mem_append.1 ht with ht | ht
    · exact ex_targets h.1 t ht
    · exact args_targets h.2 t ht
end

/-- targets in a statement: variables declared in the function -/
theorem st_targets (s : St) : ∀ {E : Env}, s.Scoped E →
    ∀ t ∈ s.targets, Target (fun x => E.Var x ∨ x ∈ s.autos ∨ x ∈ s.extrns) t := by
  have exs : ∀ {E : Env} {e : Ex} {ws : Ident → Prop}, e.Wf E → ∀ t ∈ e.targets, Target (fun x => E.Var x ∨ ws x) t :=
    fun h t ht => (ex_targets h t ht).mono fun x hx => .inl hx
  have vex : ∀ {E : Env} {e : Ex} {x : Ident}, (E.afterEx e).Var x → E.Var x := fun h => h
  have vst : ∀ {E : Env} {s : St} {x : Ident}, (E.after s).Var x → E.Var x ∨ x ∈ s.autos ∨ x ∈ s.extrns := by
    intro E s x h
    rcases h with h | h
    · rcases (after_locals s E x).1 h with h | h
      · exact .inr (.inl h)
      · exact .inl (.inl h)
    · rcases (after_exts s E x).1 h with h | h
      · exact .inr (.inr h)
      · exact .inl (.inr h)
  induction s with
  | expr e => intro E h; simp only [St.targets, St.Scoped] at *; exact exs h
  | ret e =>
    intro E h
    cases e with
    | none => simp [St.targets]
    | some e => simp only [St.targets, St.Scoped] at *; exact exs h
  | seq s t ih1 ih2 =>
    intro E h e he
    simp only [St.targets, St.Scoped, List.mem_append, St.autos, St.extrns] at *
    rcases he with he | he
    · exact (ih1 h.1 e he).mono (by grind)
    · exact (ih2 h.2 e he).mono (fun x hx => by
        rcases hx with hx | hx
        · have := vst hx; grind
        · grind)
  | ifThen c s ih | «while» c s ih | switch c s ih =>
    intro E h e he
    simp only [St.targets, St.Scoped, List.mem_append, St.autos, St.extrns] at *
    rcases he with he | he
    · exact exs h.1 e he
    · exact (ih h.2 e he).mono (fun x hx => by
        rcases hx with hx | hx
        · exact .inl (vex hx)
        · exact .inr hx)
  | ifElse c s t ih1 ih2 =>
    intro E h e he
    simp only [St.targets, St.Scoped, List.mem_append, St.autos, St.extrns] at *
    rcases he with (he | he) | he
    · exact exs h.1 e he
    · exact (ih1 h.2.1 e he).mono (fun x hx => by
        rcases hx with hx | hx
        · exact .inl (vex hx)
        · grind)
    · exact (ih2 h.2.2 e he).mono (fun x hx => by
        rcases hx with hx | hx
        · have := vst hx
          rcases this with h | h
          · exact .inl (vex h)
          · grind
        · grind)
  | case v s ih | label v s ih =>
    intro E h e he
    simp only [St.targets, St.Scoped, St.autos, St.extrns] at *
    exact ih h e he
  | _ => intro E h; simp [St.targets]

/-- names declared by `auto` are new and different -/
theorem st_autos (s : St) : ∀ {E : Env}, s.Scoped E → s.autos.Nodup ∧ ∀ x ∈ s.autos, x ∉ E.locals := by
  induction s with
  | ret e => intro E h; cases e <;> simp [St.autos]
  | auto ds =>
    intro E h
    refine ⟨h.1, ?_⟩
    intro x hx
    simp only [St.autos, List.mem_map] at hx
    obtain ⟨d, h1, rfl⟩ := hx
    exact h.2 d h1
  | seq s t ih1 ih2 =>
    intro E h
    obtain ⟨a1, a2⟩ := ih1 h.1
    obtain ⟨b1, b2⟩ := ih2 h.2
    simp only [St.autos]
    refine ⟨List.nodup_append.2 ⟨a1, b1, ?_⟩, ?_⟩
    · intro x hx y hy e
      subst e
      exact b2 x hy ((after_locals s E x).2 (.inl hx))
    · intro x hx
      rcases List.mem_append.1 hx with hx | hx
      · exact a2 x hx
      · exact fun hl => b2 x hx ((after_locals s E x).2 (.inr hl))
  | ifThen c s ih | «while» c s ih | switch c s ih => intro E h; have := ih h.2; exact this
  | ifElse c s t ih1 ih2 =>
    intro E h
    obtain ⟨a1, a2⟩ := ih1 h.2.1
    obtain ⟨b1, b2⟩ := ih2 h.2.2
    simp only [St.autos]
    refine ⟨List.nodup_append.2 ⟨a1, b1, ?_⟩, ?_⟩
    · intro x hx y hy e
      subst e
      exact b2 x hy ((after_locals s _ x).2 (.inl hx))
    · intro x hx
      rcases List.mem_append.1 hx with hx | hx
      · exact a2 x hx
      · exact fun hl => b2 x hx ((after_locals s _ x).2 (.inr hl))
  | case v s ih | label v s ih => intro E h; exact ih h
  | _ => intro E h; simp [St.autos]

theorem scoped_func {p : Program} : ∀ {E : Env}, Program.Scoped E p → ∀ {f ps b}, Decl.func f ps b ∈ p →
    ∃ E' : Env, E'.locals = ps ∧ E'.exts = [] ∧ b.Scoped E' := by
  induction p with
  | nil => intro E _ f ps b h; simp at h
  | cons d p ih =>
    intro E h f ps b hm
    rcases List.mem_cons.1 hm with rfl | hm
    · exact ⟨E.enter f ps, rfl, rfl, h.1⟩
    · exact ih h.2 hm

/-! ## C13 -/

/-- C13. In an accepted program every operand of `=`, `=op`, `++`, `--` and `&` is an indexing, an
indirection, a prefix increment or decrement, or a name that the same function has as a parameter,
an `auto` variable or an `extrn` variable. -/
theorem C13_only_lvalues {chars : List Char} {t : Tail} {m : Module} (h : compileText chars t = .ok m) :
    ∃ p, TreeOf chars p m ∧ ∀ f ps b, Decl.func f ps b ∈ p → ∀ e ∈ b.targets,
      Target (fun x => x ∈ ps ∨ x ∈ b.autos ∨ x ∈ b.extrns) e := by
  obtain ⟨p, h1, h2, h3⟩ := accepted_tree h
  refine ⟨p, h1, fun f ps b hm e he => ?_⟩
  obtain ⟨E', k1, k2, k3⟩ := scoped_func h2 hm
  refine (st_targets b k3 e he).mono fun x hx => ?_
  rcases hx with (hx | hx) | hx
  · exact .inl (k1 ▸ hx)
  · rw [k2] at hx; simp at hx
  · exact .inr hx

/-- C13, C21, C22: a tree is accepted exactly when it obeys the rules: nothing else is rejected by
the code generator, and nothing that breaks a rule gets through. -/
theorem C13_trees_accepted_iff (p : Program) (hn : ∀ d ∈ p, d.All NameOk) :
    (∃ c, genProg p newCompiler = .ok () c) ↔ Program.Scoped Env.empty p ∧ ∀ d ∈ p, d.CasesOk :=
  (genProg_accepts hn KnowsTop.init).trans (progWf_iff p _)

def accepts (s : String) : Bool := match compileText s.toList .eof with | .ok _ => true | .error _ => false

example : accepts "f(a){ auto v[3]; extrn g; v[a] = &g; *v =+ 1; ++a; g++; ++--a; }" = true := by decide +kernel
example : accepts "f(a){ 1 = a; }" = false := by decide +kernel
example : accepts "f(a){ a++ = a; }" = false := by decide +kernel
example : accepts "f(a){ (a) = a; }" = false := by decide +kernel
example : accepts "f(a){ f = a; }" = false := by decide +kernel
example : accepts "f(a){ &f(a); }" = false := by decide +kernel

/-! ## C21 -/

/-- C21. In an accepted program every `case` lies in the body of a `switch` with no `if` or `while`
in between. -/
theorem C21_case_places {chars : List Char} {t : Tail} {m : Module} (h : compileText chars t = .ok m) :
    ∃ p, TreeOf chars p m ∧ ∀ f ps b, Decl.func f ps b ∈ p → b.CasesOk false := by
  obtain ⟨p, h1, h2, h3⟩ := accepted_tree h
  exact ⟨p, h1, fun f ps b hm => h3 _ hm⟩

/-- C21. A tree that obeys the other rules is accepted exactly when its `case`s are well placed. -/
theorem C21_case_iff (p : Program) (hn : ∀ d ∈ p, d.All NameOk) (hs : Program.Scoped Env.empty p) :
    (∃ c, genProg p newCompiler = .ok () c) ↔ ∀ f ps b, Decl.func f ps b ∈ p → b.CasesOk false := by
  rw [C13_trees_accepted_iff p hn]
  constructor
  · intro h f ps b hm; exact h.2 _ hm
  · intro h
    refine ⟨hs, fun d hd => ?_⟩
    cases d with
    | func f ps b => exact h f ps b hd
    | _ => trivial

example : accepts "f(a){ switch(a) { case 1: f(2); { x: case 2: f(3); } } }" = true := by decide +kernel
example : accepts "f(a){ case 1: f(2); }" = false := by decide +kernel
example : accepts "f(a){ switch(a) { if (a) case 1: f(2); } }" = false := by decide +kernel
example : accepts "f(a){ switch(a) { while (a) { case 1: f(2); } } }" = false := by decide +kernel

/-! ## C22 -/

/-- C22. In an accepted program the `auto` names of a function, wherever they stand in it, are
pairwise different and different from its parameters. -/
theorem C22_autos {chars : List Char} {t : Tail} {m : Module} (h : compileText chars t = .ok m) :
    ∃ p, TreeOf chars p m ∧ ∀ f ps b, Decl.func f ps b ∈ p → b.autos.Nodup ∧ ∀ x ∈ b.autos, x ∉ ps := by
  obtain ⟨p, h1, h2, h3⟩ := accepted_tree h
  refine ⟨p, h1, fun f ps b hm => ?_⟩
  obtain ⟨E', k1, k2, k3⟩ := scoped_func h2 hm
  exact k1 ▸ st_autos b k3

/-- C22. A tree with a clash is rejected. -/
theorem C22_clash_rejected (p : Program) (hn : ∀ d ∈ p, d.All NameOk) {f : Ident} {ps : List Ident} {b : St}
    (hm : Decl.func f ps b ∈ p) (hc : ¬ (b.autos.Nodup ∧ ∀ x ∈ b.autos, x ∉ ps)) :
    ¬ ∃ c, genProg p newCompiler = .ok () c := by
  rw [C13_trees_accepted_iff p hn]
  rintro ⟨h1, _⟩
  obtain ⟨E', k1, k2, k3⟩ := scoped_func h1 hm
  exact hc (k1 ▸ st_autos b k3)

example : accepts "f(a){ auto b, c; if (a) { auto d; } { auto e[2]; } } g(a){ auto b; }" = true := by decide +kernel
example : accepts "f(a){ auto b; if (a) { auto b; } }" = false := by decide +kernel
example : accepts "f(a){ auto b, b; }" = false := by decide +kernel
example : accepts "f(a){ while(0) { auto a; } }" = false := by decide +kernel

/-! ## C23 -/

/-- C23, static half: a name that is assigned, incremented or has its address taken is a parameter,
`auto` or `extrn` of the same function; what other declarations of the program declare makes no
difference.  (What a name denotes at run time is part of C11 and C15.) -/
theorem C23_targets {chars : List Char} {t : Tail} {m : Module} (h : compileText chars t = .ok m) :
    ∃ p, TreeOf chars p m ∧ ∀ f ps b, Decl.func f ps b ∈ p → ∀ x, Ex.var x ∈ b.targets →
      x ∈ ps ∨ x ∈ b.autos ∨ x ∈ b.extrns := by
  obtain ⟨p, h1, h2⟩ := C13_only_lvalues h
  refine ⟨p, h1, fun f ps b hm x hx => ?_⟩
  rcases h2 f ps b hm _ hx with ⟨y, h, hy⟩ | ⟨a, i, h⟩ | ⟨a, h⟩ | ⟨d, a, h⟩
  · cases h; exact hy
  · cases h
  · cases h
  · cases h

example : accepts "g; f(){ extrn g; g = 1; }" = true := by decide +kernel
example : accepts "g; f(){ g = 1; }" = false := by decide +kernel
example : accepts "g; f(){ extrn g; g = 1; } h(){ g = 2; }" = false := by decide +kernel
example : accepts "f(a){ } h(){ a = 2; }" = false := by decide +kernel

end Blang.Props
