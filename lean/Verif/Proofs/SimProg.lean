import Verif.Proofs.SimFun
/-
Programs: the functions of the emitted module do what the functions of the program mean.
-/
namespace Blang
open Spec

/-! ### more calls, more runs -/

section
variable {M : IRMachine} {R R' : Calls M.World} {args : List Word} {bs : List Block}

theorem instSem_mono (hR : ∀ a vs s v s', R a vs s v s' → R' a vs s v s') {g : Cfg M.World} {r : Word} {va : List Word}
    {st : Store M.World} {i : Inst} (h : Inst.Sem M R args g r va st i) : Inst.Sem M R' args g r va st i := by
  cases i with
  | call f xs =>
    cases f with
    | func s b k =>
      simp only [Inst.Sem] at h ⊢
      split
      · rename_i e; rw [if_pos e] at h; exact h
      · rename_i e; rw [if_neg e] at h
        split
        · rename_i e; rw [if_pos e] at h; exact h
        · rename_i e; rw [if_neg e] at h
          obtain ⟨⟨vs, h1, h2⟩, h3⟩ := h
          exact ⟨⟨vs, h1, hR _ _ _ _ _ h2⟩, h3⟩
    | _ =>
      obtain ⟨⟨a, vs, h0, h1, h2⟩, h3⟩ := h
      exact ⟨⟨a, vs, h0, h1, hR _ _ _ _ _ h2⟩, h3⟩
  | _ => exact h

theorem steps_mono (hR : ∀ a vs s v s', R a vs s v s' → R' a vs s v s') {g g' : Cfg M.World} (h : IRSteps M R bs args g g') :
    IRSteps M R' bs args g g' := by
  induction h with
  | refl => exact .refl
  | head h1 _ ih =>
    refine .head ?_ ih
    cases h1 with
    | inst a1 a2 a3 => exact .inst a1 a2 (instSem_mono hR a3)
    | term a1 a2 a3 a4 => exact .term a1 a2 a3 a4

theorem codeRun_mono (hR : ∀ a vs s v s', R a vs s v s' → R' a vs s v s') {σ σ' : Store M.World} {v : Word}
    (h : CodeRun M R bs args σ v σ') : CodeRun M R' bs args σ v σ' := by
  obtain ⟨g, h1, h2, h3⟩ := h
  exact ⟨g, steps_mono hR h1, h2, h3⟩

theorem codeRun_blocks {σ σ' : Store M.World} {v : Word} (h : CodeRun M R bs args σ v σ') : bs ≠ [] := by
  obtain ⟨g, _, ⟨b, x, h2, _⟩, _⟩ := h
  rintro rfl
  simp at h2
end

/-! ### knowledge along a program -/

theorem KnowsTop.decl {E : Env} {c c1 : CState} {d : Decl} (hk : KnowsTop E c) (hn : d.All NameOk) (h : genDecl d c = .ok () c1) :
    KnowsTop (E.afterDecl d) { c1 with ctx := [], functions := [], functionParams := [] } := by
  refine ((tr_genDecl hk hn).2 _ ?_).2
  rw [M.bind_ok h]; rfl

theorem Between.knows {p : Program} {c c' : CState} (h : Between p c c') : ∀ {E : Env}, KnowsTop E c → (∀ d ∈ p, d.All NameOk) →
    KnowsTop (p.foldl Env.afterDecl E) c' := by
  induction h with
  | nil => intro E hk _; exact hk
  | cons h1 _ ih => intro E hk hn; exact ih (hk.decl (hn _ (by simp)) h1) (fun d hd => hn d (by simp [hd]))

/-- `E'` knows at least the globals and functions that `E` knows -/
structure Env.Top (E E' : Env) : Prop where
  vars : ∀ x ∈ E.vars, x ∈ E'.vars
  funs : ∀ x ∈ E.funs, x ∈ E'.funs

theorem Env.top_decl (E : Env) (d : Decl) : Env.Top E (E.afterDecl d) := by
  cases d with
  | global x vs => exact ⟨fun _ h => List.mem_cons_of_mem _ h, fun _ h => h⟩
  | vector x n vs => exact ⟨fun _ h => List.mem_cons_of_mem _ h, fun _ h => h⟩
  | func f ps b =>
    have := Env.le_after b (E.enter f ps)
    exact ⟨fun x h => this.vars x h, fun x h => this.funs x (List.mem_cons_of_mem _ h)⟩

theorem Env.top_program : ∀ (p : Program) (E : Env), Env.Top E (p.foldl Env.afterDecl E)
  | [], E => ⟨fun _ h => h, fun _ h => h⟩
  | d :: p, E => by
    have h1 := Env.top_decl E d
    have h2 := Env.top_program p (E.afterDecl d)
    exact ⟨fun x h => h2.vars x (h1.vars x h), fun x h => h2.funs x (h1.funs x h)⟩

/-- the code of a function of the program -/
theorem Between.defines {p : Program} {c : CState} (h : Between p newCompiler c) (hn : ∀ d ∈ p, d.All NameOk) {f : Ident} {ps : List Ident}
    {b : St} {P : Place} (hd : p.Defines f ps b P) : ∃ (E : Env) (c1 : CState) (ss : List (List Nat)) (F : Func),
      KnowsTop E c1 ∧ ProgInv c1 ss ∧ Nonempty (FuncRun f ps b c1 F.blocks) ∧ F ∈ c.funcs ∧ F.sym = globalName f ∧
      P = ⟨E.enter f ps, ss.length⟩ ∧ Env.Top ((E.enter f ps).after b) (Program.place p).env ∧ (Decl.func f ps b).All NameOk := by
  obtain ⟨pre, post, rfl, hpost, rfl⟩ := hd
  obtain ⟨c1, h1, h2⟩ := h.split
  have n1 : ∀ d ∈ pre, d.All NameOk := fun d hd => hn d (by simp [hd])
  have nf := hn (.func f ps b) (by simp)
  have n2 : ∀ d ∈ post, d.All NameOk := fun d hd => hn d (by simp [hd])
  have hI := h1.mid n1
  have hK := h1.knows KnowsTop.init n1
  cases h2 with
  | @cons _ _ _ c2 _ h3 h4 =>
    obtain ⟨bs, r, rfl⟩ := genDecl_func hI.functions h3
    obtain ⟨fs, e1, _, _⟩ := r.funcs nf.2.1 nf.2.2
    have hs := r.curSym nf.2.1 nf.2.2
    have hm : ({ defFunc f ps with blocks := bs } : Func) ∈
        r.c3.funcs.map fun g => if g.sym = r.c3.curSym then { g with blocks := bs } else g := by
      rw [List.mem_map]
      refine ⟨defFunc f ps, by rw [e1]; simp, ?_⟩
      rw [if_pos (by rw [hs]; rfl)]
    have hfin := h4.keepsF (F := { defFunc f ps with blocks := bs }) rfl n2 hm (by
      intro d hd x hx e
      have := globalName_inj (show globalName f = globalName x from e)
      subst this
      cases d with
      | func g qs b' =>
        simp only [funName, Option.some.injEq] at hx
        subst hx
        exact hpost qs b' hd
      | _ => cases hx)
    refine ⟨_, c1, _, { defFunc f ps with blocks := bs }, hK, hI, ⟨r⟩, hfin, rfl, rfl, ?_, nf⟩
    have hT := Env.top_program post ((pre.foldl Env.afterDecl Env.empty).afterDecl (.func f ps b))
    have e : (Program.place (pre ++ Decl.func f ps b :: post)).env =
        post.foldl Env.afterDecl ((pre.foldl Env.afterDecl Env.empty).afterDecl (.func f ps b)) := by
      simp [Program.place]
    rw [e]
    exact ⟨fun x hx => hT.vars x hx, fun x hx => hT.funs x hx⟩

/-- **Programs.**  What a call means in the program, it does in the module. -/
theorem call_sim {p : Program} {c : CState} (h : Between p newCompiler c) (hn : ∀ d ∈ p, d.All NameOk)
    (hreg : ∀ f ps b, Decl.func f ps b ∈ p → Regular ps b)
    (hd : ∀ x ∈ (Program.place p).env.vars, x ∉ (Program.place p).env.funs) {M : IRMachine} {X : Calls M.World} :
    ∀ (n : Nat) (a : Word) (args : List Word) (σ : Store M.World) (v : Word) (σ' : Store M.World),
      p.Call M.toB X n a args σ v σ' → Module.Call ⟨c.globals, c.funcs⟩ M X n a args σ v σ'
  | 0, a, args, σ, v, σ', hc => hc
  | n + 1, a, args, σ, v, σ', hc => by
    rcases hc with hc | ⟨f, ps, b, P, hdef, ha, hrun⟩
    · exact .inl hc
    · right
      obtain ⟨E, c1, ss, F, hK, hI, ⟨r⟩, hF, hs, rfl, hT, hnf⟩ := h.defines hn hdef
      have hmem : Decl.func f ps b ∈ p := by
        obtain ⟨pre, post, e, _⟩ := hdef
        rw [e]; simp
      have hrun' := func_sim r hK hI hnf (hreg f ps b hmem) (fun x h1 h2 => hd x (hT.vars x h1) (hT.funs x h2)) hrun
      have hrun'' := codeRun_mono (call_sim h hn hreg hd n) hrun'
      exact ⟨F, hF, codeRun_blocks hrun'', by rw [ha, hs]; rfl, hrun''⟩

end Blang
