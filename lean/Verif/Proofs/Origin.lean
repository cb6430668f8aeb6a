import Verif.Proofs.BlockNames
import Verif.Proofs.ProgMain
/-
Every function with a body in a module comes from a definition of the program.
-/
namespace Blang
open Spec

theorem gotos_all {P : Name → Prop} : ∀ s : St, s.All P → ∀ l ∈ s.gotos, P l := by
  intro s
  induction s with
  | seq s t ih1 ih2 =>
    intro h l hl
    simp only [St.gotos, List.mem_append] at hl
    exact hl.elim (ih1 h.1 l) (ih2 h.2 l)
  | ifElse c s t ih1 ih2 =>
    intro h l hl
    simp only [St.gotos, List.mem_append] at hl
    exact hl.elim (ih1 h.2.1 l) (ih2 h.2.2 l)
  | ifThen c s ih | «while» c s ih | switch c s ih => intro h l hl; exact ih h.2 l hl
  | case v s ih => intro h l hl; exact ih h l hl
  | label v s ih => intro h l hl; exact ih h.2 l hl
  | goto l => intro h l' hl; simp only [St.gotos, List.mem_singleton] at hl; subst hl; exact h
  | _ => intro h l hl; cases hl

theorem nodup_map_inj {α β : Type} {g : α → β} {l : List α} (h : (l.map g).Nodup) {a b : α} (ha : a ∈ l) (hb : b ∈ l) (e : g a = g b) : a = b := by
  induction l with
  | nil => cases ha
  | cons x l ih =>
    rw [List.map_cons, List.nodup_cons] at h
    rcases List.mem_cons.1 ha with ea | ma <;> rcases List.mem_cons.1 hb with eb | mb
    · rw [ea, eb]
    · rw [ea] at e; exact absurd (e ▸ List.mem_map_of_mem mb) h.1
    · rw [eb] at e; exact absurd (e ▸ List.mem_map_of_mem ma) h.1
    · exact ih h.2 ma mb

/-- where the code of `F` comes from; `c0` is the state before the program `p` -/
structure Source (p : Program) (c0 : CState) (f : Ident) (ps : List Ident) (b : St) (F : Func) : Prop where
  sym : F.sym = globalName f
  params : F.params = ps.take 1
  run : ∃ c, Nonempty (FuncRun f ps b c F.blocks) ∧ c.ctx = [] ∧ c.functions = [] ∧ ∃ q, Between q c0 c ∧ ∀ d ∈ q, d ∈ p

theorem Between.origin {p : Program} {c c' : CState} (h : Between p c c') (ss : List (List Nat)) (hI : ProgInv c ss) (hn : ∀ d ∈ p, d.All NameOk)
    {F : Func} (hF : F ∈ c'.funcs) (hb : F.blocks ≠ []) : F ∈ c.funcs ∨ ∃ f ps b, Decl.func f ps b ∈ p ∧ Source p c f ps b F := by
  induction h generalizing ss with
  | nil => exact .inl hF
  | @cons d p c c1 c' h1 h2 ih =>
    have hd := hn d (by simp)
    rcases ih _ (hI.decl hd h1) (fun d h => hn d (by simp [h])) hF with h | ⟨f, ps, b, m, s⟩
    · have h : F ∈ c1.funcs := h
      cases d with
      | global x vals =>
        obtain ⟨ks, c2, k1, e⟩ := genDecl_global h1
        clear h2 ih
        subst e
        obtain ⟨k2, _⟩ := genIvals_grow k1
        have h : F ∈ c2.funcs := h
        rw [k2] at h; exact .inl h
      | vector x n vals =>
        obtain ⟨ks, c2, c3, g', k1, k3, e⟩ := genDecl_vector h1
        clear h2 ih
        subst e
        obtain ⟨k2, _⟩ := genIvals_grow k1
        have h : F ∈ c3.funcs := h
        cases k3 with
        | separate _ _ e _ => subst e; have h : F ∈ c2.funcs := h; rw [k2] at h; exact .inl h
        | inline _ _ _ e _ => subst e; rw [k2] at h; exact .inl h
      | func f ps b =>
        obtain ⟨bs, r, rfl⟩ := genDecl_func hI.functions h1
        obtain ⟨fs, e1, e2, e3⟩ := r.funcs hd.2.1 hd.2.2
        have hs := r.curSym hd.2.1 hd.2.2
        have h : F ∈ r.c3.funcs.map fun g => if g.sym = r.c3.curSym then { g with blocks := bs } else g := h
        rw [List.mem_map] at h
        obtain ⟨g, hg, e⟩ := h
        rw [hs] at e
        have nd := e3 hI.nodup
        have hg0 := hg
        rw [e1, List.mem_append, List.mem_append] at hg
        by_cases he : g.sym = globalName f
        · rw [if_pos he] at e
          have : g = defFunc f ps := by
            have hm : defFunc f ps ∈ r.c3.funcs := by rw [e1]; simp
            exact nodup_map_inj nd hg0 hm he
          subst this
          subst e
          exact .inr ⟨f, ps, b, by simp, ⟨rfl, rfl, _, ⟨r⟩, hI.ctx, hI.functions, [], .nil, by simp⟩⟩
        · rw [if_neg he] at e
          subst e
          rcases hg with (hg | hg) | hg
          · exact .inl (List.mem_of_mem_eraseP hg)
          · simp at hg; subst hg; exact absurd rfl he
          · exact absurd (e2 _ hg).blocks hb
    · obtain ⟨cc, r, x1, x2, q, hq, hs⟩ := s.run
      refine .inr ⟨f, ps, b, by simp [m], s.sym, s.params, cc, r, x1, x2, d :: q, .cons h1 hq, fun e he => ?_⟩
      rcases List.mem_cons.1 he with rfl | he
      · simp
      · simp [hs e he]

/-- a function of an emitted module -/
theorem compile_source {chars : List Char} {t : Tail} {m : Module} (h : compileText chars t = .ok m) :
    ∃ p, Reads true chars p ∧ (∀ d ∈ p, d.All NameOk) ∧
      ∀ F ∈ m.funcs, F.blocks ≠ [] → ∃ f ps b, Decl.func f ps b ∈ p ∧ Source p newCompiler f ps b F := by
  obtain ⟨p, c, h1, hb, rfl, hn, _⟩ := compile_between h
  refine ⟨p, h1, hn, fun F hF hB => ?_⟩
  rcases hb.origin _ ProgInv.init hn hF hB with h | h
  · cases h
  · exact h

end Blang
