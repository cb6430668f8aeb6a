import Verif.Spec.Alike
import Verif.Spec.Wrong
import Verif.Spec.Image
import Verif.Proofs.Files
/-
Programs that differ in order and names only have the same meaning.
-/
namespace Blang
open Spec

theorem Spec.Renaming.inj (r : Renaming) {x y : Ident} (h : r.to x = r.to y) : x = y := by
  rw [← r.back_to x, h, r.back_to]

theorem Spec.Renaming.mem (r : Renaming) {x : Ident} {l : List Ident} : r.to x ∈ l.map r.to ↔ x ∈ l := by
  simp only [List.mem_map]
  exact ⟨fun ⟨y, h1, h2⟩ => r.inj h2 ▸ h1, fun h => ⟨x, h, rfl⟩⟩

/-- the same names, renamed -/
structure ERen (r : Ident → Ident) (E F : Env) : Prop where
  locals : F.locals = E.locals.map r
  exts : F.exts = E.exts.map r

theorem ERen.afterEx {r : Ident → Ident} {E F : Env} (h : ERen r E F) (e e' : Ex) : ERen r (E.afterEx e) (F.afterEx e') := ⟨h.locals, h.exts⟩

theorem ERen.extrn {r : Ident → Ident} : ∀ (xs : List Ident) {E F : Env}, ERen r E F →
    ERen r (xs.foldl Env.afterExtrn E) ((xs.map r).foldl Env.afterExtrn F)
  | [], _, _, h => h
  | x :: xs, _, _, h => ERen.extrn xs ⟨h.locals, by simp only [Env.afterExtrn]; rw [h.exts]; rfl⟩

theorem ERen.after {r l : Ident → Ident} : ∀ (s : St) {E F : Env}, ERen r E F → ERen r (E.after s) (F.after (s.rename r l))
  | .skip, _, _, h => h
  | .seq s t, _, _, h => ERen.after t (ERen.after s h)
  | .expr e, _, _, h => h.afterEx e _
  | .ret none, _, _, h => h
  | .ret (some e), _, _, h => h.afterEx e _
  | .auto ds, _, _, h => ⟨by simp only [Env.after, St.rename]; rw [h.locals]; simp [Function.comp_def], h.exts⟩
  | .extrn xs, _, _, h => ERen.extrn xs h
  | .ifThen c t, _, _, h => ERen.after t (h.afterEx c _)
  | .ifElse c t e, _, _, h => ERen.after e (ERen.after t (h.afterEx c _))
  | .while c b, _, _, h => ERen.after b (h.afterEx c _)
  | .switch e b, _, _, h => ERen.after b (h.afterEx e _)
  | .case _ s, _, _, h => ERen.after s h
  | .label _ s, _, _, h => ERen.after s h
  | .goto _, _, _, h => h

mutual
theorem rename_strings (r : Ident → Ident) : ∀ e : Ex, (e.rename r).strings = e.strings
  | .num _ | .str _ | .var _ => rfl
  | .paren e | .post _ e | .pre _ e | .not e | .neg e | .deref e | .addr e => by simp only [Ex.rename, Ex.strings]; exact rename_strings r e
  | .index a i => by simp only [Ex.rename, Ex.strings]; rw [rename_strings r a, rename_strings r i]
  | .callName _ as => by simp only [Ex.rename, Ex.strings]; exact renameArgs_strings r as
  | .call f as => by simp only [Ex.rename, Ex.strings]; rw [rename_strings r f, renameArgs_strings r as]
  | .bin _ x y | .assign _ x y => by simp only [Ex.rename, Ex.strings]; rw [rename_strings r x, rename_strings r y]
  | .cond c t e => by simp only [Ex.rename, Ex.strings]; rw [rename_strings r c, rename_strings r t, rename_strings r e]

theorem renameArgs_strings (r : Ident → Ident) : ∀ es : List Ex, Ex.stringsArgs (Ex.renameArgs r es) = Ex.stringsArgs es
  | [] => rfl
  | e :: es => by simp only [Ex.renameArgs, Ex.stringsArgs]; rw [rename_strings r e, renameArgs_strings r es]
end

theorem renameSt_strings (r l : Ident → Ident) : ∀ s : St, (s.rename r l).strings = s.strings
  | .skip | .ret none | .auto _ | .extrn _ | .goto _ => rfl
  | .seq s t => by simp only [St.rename, St.strings]; rw [renameSt_strings r l s, renameSt_strings r l t]
  | .expr e | .ret (some e) => by simp only [St.rename, Option.map_some, St.strings]; exact rename_strings r e
  | .ifThen c t => by simp only [St.rename, St.strings]; rw [rename_strings r c, renameSt_strings r l t]
  | .ifElse c t e => by simp only [St.rename, St.strings]; rw [rename_strings r c, renameSt_strings r l t, renameSt_strings r l e]
  | .while c b => by simp only [St.rename, St.strings]; rw [rename_strings r c, renameSt_strings r l b]
  | .switch c b => by simp only [St.rename, St.strings]; rw [rename_strings r c, renameSt_strings r l b]
  | .case _ s | .label _ s => by simp only [St.rename, St.strings]; exact renameSt_strings r l s

mutual
theorem rename_back (r : Renaming) : ∀ e : Ex, (e.rename r.to).rename r.back = e
  | .num _ | .str _ => rfl
  | .var x => by simp only [Ex.rename, r.back_to]
  | .paren e | .post _ e | .pre _ e | .not e | .neg e | .deref e | .addr e => by simp only [Ex.rename]; rw [rename_back r e]
  | .index a i => by simp only [Ex.rename]; rw [rename_back r a, rename_back r i]
  | .callName _ as => by simp only [Ex.rename, r.back_to]; rw [renameArgs_back r as]
  | .call f as => by simp only [Ex.rename]; rw [rename_back r f, renameArgs_back r as]
  | .bin _ x y | .assign _ x y => by simp only [Ex.rename]; rw [rename_back r x, rename_back r y]
  | .cond c t e => by simp only [Ex.rename]; rw [rename_back r c, rename_back r t, rename_back r e]

theorem renameArgs_back (r : Renaming) : ∀ es : List Ex, Ex.renameArgs r.back (Ex.renameArgs r.to es) = es
  | [] => rfl
  | e :: es => by simp only [Ex.renameArgs]; rw [rename_back r e, renameArgs_back r es]
end

theorem map_back (r : Renaming) (l : List Ident) : (l.map r.to).map r.back = l := by
  rw [List.map_map]
  conv => rhs; rw [← List.map_id l]
  exact List.map_congr_left fun x _ => r.back_to x

theorem renameSt_back (r l : Renaming) : ∀ s : St, (s.rename r.to l.to).rename r.back l.back = s
  | .skip | .ret none => rfl
  | .goto m => by simp only [St.rename, l.back_to]
  | .auto ds => by simp [St.rename, Function.comp_def, r.back_to]
  | .extrn xs => by simp only [St.rename, map_back]
  | .seq s t => by simp only [St.rename]; rw [renameSt_back r l s, renameSt_back r l t]
  | .expr e => by simp only [St.rename]; rw [rename_back r e]
  | .ret (some e) => by simp only [St.rename, Option.map_some]; rw [rename_back r e]
  | .ifThen c t => by simp only [St.rename]; rw [rename_back r c, renameSt_back r l t]
  | .ifElse c t e => by simp only [St.rename]; rw [rename_back r c, renameSt_back r l t, renameSt_back r l e]
  | .while c b => by simp only [St.rename]; rw [rename_back r c, renameSt_back r l b]
  | .switch c b => by simp only [St.rename]; rw [rename_back r c, renameSt_back r l b]
  | .case _ s => by simp only [St.rename]; rw [renameSt_back r l s]
  | .label _ s => by simp only [St.rename, l.back_to]; rw [renameSt_back r l s]

mutual
theorem rename_names (r : Ident → Ident) : ∀ e : Ex, (e.rename r).names = e.names.map r
  | .num _ | .str _ | .var _ => rfl
  | .paren e | .post _ e | .pre _ e | .not e | .neg e | .deref e | .addr e => by simp only [Ex.rename, Ex.names]; exact rename_names r e
  | .index a i => by simp only [Ex.rename, Ex.names, List.map_append]; rw [rename_names r a, rename_names r i]
  | .callName _ as => by simp only [Ex.rename, Ex.names, List.map_cons]; rw [renameArgs_names r as]
  | .call f as => by simp only [Ex.rename, Ex.names, List.map_append]; rw [rename_names r f, renameArgs_names r as]
  | .bin _ x y | .assign _ x y => by simp only [Ex.rename, Ex.names, List.map_append]; rw [rename_names r x, rename_names r y]
  | .cond c t e => by simp only [Ex.rename, Ex.names, List.map_append]; rw [rename_names r c, rename_names r t, rename_names r e]

theorem renameArgs_names (r : Ident → Ident) : ∀ es : List Ex, Ex.namesArgs (Ex.renameArgs r es) = (Ex.namesArgs es).map r
  | [] => rfl
  | e :: es => by simp only [Ex.renameArgs, Ex.namesArgs, List.map_append]; rw [rename_names r e, renameArgs_names r es]
end

theorem rename_globals (r : Renaming) (e : Ex) {E F : Env} (h : ERen r.to E F) : (e.rename r.to).globals F = (e.globals E).map r.to := by
  simp only [Ex.globals, rename_names, List.filter_map, h.locals]
  congr 1
  refine List.filter_congr fun x _ => ?_
  simp only [Function.comp_apply, r.mem]

theorem renameSt_globals (r : Renaming) (l : Ident → Ident) : ∀ (s : St) {E F : Env}, ERen r.to E F →
    (s.rename r.to l).globals F = (s.globals E).map r.to
  | .skip, _, _, _ | .ret none, _, _, _ | .goto _, _, _, _ | .auto _, _, _, _ | .extrn _, _, _, _ => rfl
  | .seq s t, _, _, h => by
    simp only [St.rename, St.globals, List.map_append]; rw [renameSt_globals r l s h, renameSt_globals r l t (h.after s)]
  | .expr e, _, _, h | .ret (some e), _, _, h => by simp only [St.rename, Option.map_some, St.globals]; exact rename_globals r e h
  | .ifThen c t, _, _, h => by
    simp only [St.rename, St.globals, List.map_append]; rw [rename_globals r c h, renameSt_globals r l t (h.afterEx c _)]
  | .ifElse c t e, _, _, h => by
    simp only [St.rename, St.globals, List.map_append]
    rw [rename_globals r c h, renameSt_globals r l t (h.afterEx c _), renameSt_globals r l e ((h.afterEx c _).after t)]
  | .while c b, _, _, h => by
    simp only [St.rename, St.globals, List.map_append]; rw [rename_globals r c h, renameSt_globals r l b (h.afterEx c _)]
  | .switch c b, _, _, h => by
    simp only [St.rename, St.globals, List.map_append]; rw [rename_globals r c h, renameSt_globals r l b (h.afterEx c _)]
  | .case _ s, _, _, h | .label _ s, _, _, h => by simp only [St.rename, St.globals]; exact renameSt_globals r l s h

/-! ### expressions -/

/-- literals at the same places -/
def LitOk (l l' : Nat → Word) (n n' k : Nat) : Prop := ∀ i < k, l' (n' + i) = l (n + i)

theorem LitOk.left {l l' : Nat → Word} {n n' a b : Nat} (h : LitOk l l' n n' (a + b)) : LitOk l l' n n' a := fun i hi => h i (by omega)

theorem LitOk.right {l l' : Nat → Word} {n n' a b : Nat} (h : LitOk l l' n n' (a + b)) : LitOk l l' (n + a) (n' + a) b := fun i hi => by
  rw [Nat.add_assoc, Nat.add_assoc]; exact h _ (by omega)

section
variable {B : BMachine} {R R' : Calls B.World} {g : Ident → Word} {l : Nat → Word} {pm : B.World → Nat → List Word × B.World} {r : Renaming}

/-- names of globals refer to the same places -/
def NamesOk (B : BMachine) (g : Ident → Word) (r : Renaming) (E : Env) (xs : List Ident) : Prop := ∀ x ∈ xs, x ∉ E.locals → g (r.to x) = B.global x

theorem NamesOk.left {E : Env} {xs ys : List Ident} (h : NamesOk B g r E (xs ++ ys)) : NamesOk B g r E xs :=
  fun x hx => h x (List.mem_append_left _ hx)

theorem NamesOk.right {E : Env} {xs ys : List Ident} (h : NamesOk B g r E (xs ++ ys)) : NamesOk B g r E ys :=
  fun x hx => h x (List.mem_append_right _ hx)

theorem nameRes_ren {E F : Env} (h : ERen r.to E F) {ρ ρ' : Frame} (hρ : ∀ x, ρ' (r.to x) = ρ x) {x : Ident}
    (hx : x ∉ E.locals → g (r.to x) = B.global x) : nameRes (B.moved g l pm) F ρ' (r.to x) = nameRes B E ρ x := by
  simp only [nameRes, h.locals, h.exts, r.mem, hρ]
  by_cases h1 : x ∈ E.locals
  · simp only [if_pos h1]
  · simp only [if_neg h1, hx h1]

section
variable (hR : ∀ a vs s v s', R a vs s v s' → R' a vs s v s') {E F : Env} (hE : ERen r.to E F) {ρ ρ' : Frame} (hρ : ∀ x, ρ' (r.to x) = ρ x)
include hR hE hρ

mutual
theorem eval_ren : ∀ (e : Ex) (n n' : Nat) (s : Store B.World) (d : Res) (s' : Store B.World), NamesOk B g r E e.names →
    LitOk B.literal l n n' e.strings.length → e.Eval B R E ρ n s d s' → (e.rename r.to).Eval (B.moved g l pm) R' F ρ' n' s d s'
  | .num v, n, n', s, d, s', hx, hl, h => h
  | .str _, n, n', s, d, s', hx, hl, h => by
    simp only [Ex.Eval, Ex.rename] at h ⊢
    have := hl 0 (by simp [Ex.strings])
    rw [Nat.add_zero, Nat.add_zero] at this
    rw [this]; exact h
  | .var x, n, n', s, d, s', hx, hl, h => by
    simp only [Ex.Eval, Ex.rename] at h ⊢
    rw [nameRes_ren hE hρ (hx x (by simp [Ex.names]))]; exact h
  | .paren e, n, n', s, d, s', hx, hl, h => by
    simp only [Ex.Eval, Ex.rename, Ex.names, Ex.strings] at h hx hl ⊢
    obtain ⟨d, h1, h2⟩ := h
    exact ⟨d, eval_ren e _ _ _ _ _ hx hl h1, h2⟩
  | .index a i, n, n', s, d, s', hx, hl, h => by
    simp only [Ex.Eval, Ex.rename, Ex.names, Ex.strings, List.length_append, rename_strings] at h hx hl ⊢
    obtain ⟨d1, s1, d2, h1, h2, h3⟩ := h
    exact ⟨d1, s1, d2, eval_ren a _ _ _ _ _ hx.left hl.left h1, eval_ren i _ _ _ _ _ hx.right hl.right h2, h3⟩
  | .callName f as, n, n', s, d, s', hx, hl, h => by
    simp only [Ex.Eval, Ex.rename, Ex.names, Ex.strings] at h hx hl ⊢
    obtain ⟨d, vs, s1, v, h1, h2, h3, h4⟩ := h
    exact ⟨d, vs, s1, v, by rw [nameRes_ren hE hρ (hx f (by simp))]; exact h1,
      evalArgs_ren as _ _ _ _ _ (fun x hm => hx x (List.mem_cons_of_mem _ hm)) hl h2, hR _ _ _ _ _ h3, h4⟩
  | .call f as, n, n', s, d, s', hx, hl, h => by
    simp only [Ex.Eval, Ex.rename, Ex.names, Ex.strings, List.length_append, rename_strings] at h hx hl ⊢
    obtain ⟨d, s1, vs, s2, v, h1, h2, h3, h4⟩ := h
    exact ⟨d, s1, vs, s2, v, eval_ren f _ _ _ _ _ hx.left hl.left h1, evalArgs_ren as _ _ _ _ _ hx.right hl.right h2, hR _ _ _ _ _ h3, h4⟩
  | .post _ e, n, n', s, d, s', hx, hl, h => by
    simp only [Ex.Eval, Ex.rename, Ex.names, Ex.strings] at h hx hl ⊢
    obtain ⟨a, s1, h1, h2⟩ := h
    exact ⟨a, s1, eval_ren e _ _ _ _ _ hx hl h1, h2⟩
  | .pre _ e, n, n', s, d, s', hx, hl, h => by
    simp only [Ex.Eval, Ex.rename, Ex.names, Ex.strings] at h hx hl ⊢
    obtain ⟨a, s1, h1, h2⟩ := h
    exact ⟨a, s1, eval_ren e _ _ _ _ _ hx hl h1, h2⟩
  | .not e, n, n', s, d, s', hx, hl, h => by
    simp only [Ex.Eval, Ex.rename, Ex.names, Ex.strings] at h hx hl ⊢
    obtain ⟨d, h1, h2⟩ := h
    exact ⟨d, eval_ren e _ _ _ _ _ hx hl h1, h2⟩
  | .neg e, n, n', s, d, s', hx, hl, h => by
    simp only [Ex.Eval, Ex.rename, Ex.names, Ex.strings] at h hx hl ⊢
    obtain ⟨d, h1, h2⟩ := h
    exact ⟨d, eval_ren e _ _ _ _ _ hx hl h1, h2⟩
  | .deref e, n, n', s, d, s', hx, hl, h => by
    simp only [Ex.Eval, Ex.rename, Ex.names, Ex.strings] at h hx hl ⊢
    obtain ⟨d, h1, h2⟩ := h
    exact ⟨d, eval_ren e _ _ _ _ _ hx hl h1, h2⟩
  | .addr e, n, n', s, d, s', hx, hl, h => by
    simp only [Ex.Eval, Ex.rename, Ex.names, Ex.strings] at h hx hl ⊢
    obtain ⟨a, h1, h2⟩ := h
    exact ⟨a, eval_ren e _ _ _ _ _ hx hl h1, h2⟩
  | .bin o x y, n, n', s, d, s', hx, hl, h => by
    simp only [Ex.Eval, Ex.rename, Ex.names, Ex.strings, List.length_append, rename_strings] at h hx hl ⊢
    obtain ⟨d1, s1, d2, v, h1, h2, h3⟩ := h
    exact ⟨d1, s1, d2, v, eval_ren x _ _ _ _ _ hx.left hl.left h1, eval_ren y _ _ _ _ _ hx.right hl.right h2, h3⟩
  | .cond c t e, n, n', s, d, s', hx, hl, h => by
    simp only [Ex.Eval, Ex.rename, Ex.names, Ex.strings, List.length_append, rename_strings] at h hx hl ⊢
    obtain ⟨d, s1, d', h1, h2, h3⟩ := h
    refine ⟨d, s1, d', eval_ren c _ _ _ _ _ hx.left hl.left.left h1, h2, ?_⟩
    split
    · rename_i hc
      rw [if_pos hc] at h3; exact eval_ren t _ _ _ _ _ hx.right.left hl.left.right h3
    · rename_i hc
      rw [if_neg hc] at h3
      refine eval_ren e _ _ _ _ _ hx.right.right ?_ h3
      have := hl.right
      rwa [← Nat.add_assoc, ← Nat.add_assoc] at this
  | .assign none x y, n, n', s, d, s', hx, hl, h => by
    simp only [Ex.Eval, Ex.rename, Ex.names, Ex.strings, List.length_append, rename_strings] at h hx hl ⊢
    obtain ⟨a, s1, d, s2, h1, h2, h3⟩ := h
    exact ⟨a, s1, d, s2, eval_ren x _ _ _ _ _ hx.left hl.left h1, eval_ren y _ _ _ _ _ hx.right hl.right h2, h3⟩
  | .assign (some o) x y, n, n', s, d, s', hx, hl, h => by
    simp only [Ex.Eval, Ex.rename, Ex.names, Ex.strings, List.length_append, rename_strings] at h hx hl ⊢
    obtain ⟨a, s1, d, s2, v, h1, h2, h3⟩ := h
    exact ⟨a, s1, d, s2, v, eval_ren x _ _ _ _ _ hx.left hl.left h1, eval_ren y _ _ _ _ _ hx.right hl.right h2, h3⟩

theorem evalArgs_ren : ∀ (es : List Ex) (n n' : Nat) (s : Store B.World) (vs : List Word) (s' : Store B.World), NamesOk B g r E (Ex.namesArgs es) →
    LitOk B.literal l n n' (Ex.stringsArgs es).length → Ex.EvalArgs B R E ρ es n s vs s' →
    Ex.EvalArgs (B.moved g l pm) R' F ρ' (Ex.renameArgs r.to es) n' s vs s'
  | [], n, n', s, vs, s', hx, hl, h => h
  | e :: es, n, n', s, vs, s', hx, hl, h => by
    simp only [Ex.EvalArgs, Ex.renameArgs, Ex.namesArgs, Ex.stringsArgs, List.length_append, rename_strings] at h hx hl ⊢
    obtain ⟨d, s1, ws, h1, h2, h3⟩ := h
    exact ⟨d, s1, ws, eval_ren e _ _ _ _ _ hx.left hl.left h1, evalArgs_ren es _ _ _ _ _ hx.right hl.right h2, h3⟩
end

mutual
theorem enters_ren : ∀ (e : Ex) (n n' : Nat) (s : Store B.World) (a : Word) (vs : List Word) (s' : Store B.World), NamesOk B g r E e.names →
    LitOk B.literal l n n' e.strings.length → e.Enters B R E ρ n s a vs s' → (e.rename r.to).Enters (B.moved g l pm) R' F ρ' n' s a vs s'
  | .num _, _, _, _, _, _, _, _, _, h => h
  | .str _, _, _, _, _, _, _, _, _, h => h
  | .var _, _, _, _, _, _, _, _, _, h => h
  | .paren e, n, n', s, a, vs, s', hx, hl, h
  | .post _ e, n, n', s, a, vs, s', hx, hl, h
  | .pre _ e, n, n', s, a, vs, s', hx, hl, h
  | .not e, n, n', s, a, vs, s', hx, hl, h
  | .neg e, n, n', s, a, vs, s', hx, hl, h
  | .deref e, n, n', s, a, vs, s', hx, hl, h
  | .addr e, n, n', s, a, vs, s', hx, hl, h => by
    simp only [Ex.Enters, Ex.rename, Ex.names, Ex.strings] at h hx hl ⊢
    exact enters_ren e _ _ _ _ _ _ hx hl h
  | .index x y, n, n', s, a, vs, s', hx, hl, h
  | .bin _ x y, n, n', s, a, vs, s', hx, hl, h => by
    simp only [Ex.Enters, Ex.rename, Ex.names, Ex.strings, List.length_append, rename_strings] at h hx hl ⊢
    rcases h with h | ⟨d, s1, h1, h2⟩
    · exact .inl (enters_ren x _ _ _ _ _ _ hx.left hl.left h)
    · exact .inr ⟨d, s1, eval_ren hR hE hρ x _ _ _ _ _ hx.left hl.left h1, enters_ren y _ _ _ _ _ _ hx.right hl.right h2⟩
  | .assign _ x y, n, n', s, a, vs, s', hx, hl, h => by
    simp only [Ex.Enters, Ex.rename, Ex.names, Ex.strings, List.length_append, rename_strings] at h hx hl ⊢
    rcases h with h | ⟨d, s1, h1, h2⟩
    · exact .inl (enters_ren x _ _ _ _ _ _ hx.left hl.left h)
    · exact .inr ⟨d, s1, eval_ren hR hE hρ x _ _ _ _ _ hx.left hl.left h1, enters_ren y _ _ _ _ _ _ hx.right hl.right h2⟩
  | .callName f as, n, n', s, a, vs, s', hx, hl, h => by
    simp only [Ex.Enters, Ex.rename, Ex.names, Ex.strings] at h hx hl ⊢
    obtain ⟨d, h1, h2⟩ := h
    have hx' : NamesOk B g r E (Ex.namesArgs as) := fun x hm => hx x (List.mem_cons_of_mem _ hm)
    refine ⟨d, by rw [nameRes_ren hE hρ (hx f (by simp))]; exact h1, ?_⟩
    rcases h2 with h2 | ⟨h2, h3⟩
    · exact .inl (entersArgs_ren as _ _ _ _ _ _ hx' hl h2)
    · exact .inr ⟨h2, evalArgs_ren hR hE hρ as _ _ _ _ _ hx' hl h3⟩
  | .call f as, n, n', s, a, vs, s', hx, hl, h => by
    simp only [Ex.Enters, Ex.rename, Ex.names, Ex.strings, List.length_append, rename_strings] at h hx hl ⊢
    rcases h with h | ⟨d, s1, h1, h2⟩
    · exact .inl (enters_ren f _ _ _ _ _ _ hx.left hl.left h)
    · refine .inr ⟨d, s1, eval_ren hR hE hρ f _ _ _ _ _ hx.left hl.left h1, ?_⟩
      rcases h2 with h2 | ⟨h2, h3⟩
      · exact .inl (entersArgs_ren as _ _ _ _ _ _ hx.right hl.right h2)
      · exact .inr ⟨h2, evalArgs_ren hR hE hρ as _ _ _ _ _ hx.right hl.right h3⟩
  | .cond c t e, n, n', s, a, vs, s', hx, hl, h => by
    simp only [Ex.Enters, Ex.rename, Ex.names, Ex.strings, List.length_append, rename_strings] at h hx hl ⊢
    rcases h with h | ⟨d, s1, h1, h2⟩
    · exact .inl (enters_ren c _ _ _ _ _ _ hx.left hl.left.left h)
    · refine .inr ⟨d, s1, eval_ren hR hE hρ c _ _ _ _ _ hx.left hl.left.left h1, ?_⟩
      split
      · rename_i hc
        rw [if_pos hc] at h2; exact enters_ren t _ _ _ _ _ _ hx.right.left hl.left.right h2
      · rename_i hc
        rw [if_neg hc] at h2
        refine enters_ren e _ _ _ _ _ _ hx.right.right ?_ h2
        have := hl.right
        rwa [← Nat.add_assoc, ← Nat.add_assoc] at this

theorem entersArgs_ren : ∀ (es : List Ex) (n n' : Nat) (s : Store B.World) (a : Word) (vs : List Word) (s' : Store B.World),
    NamesOk B g r E (Ex.namesArgs es) → LitOk B.literal l n n' (Ex.stringsArgs es).length → Ex.EntersArgs B R E ρ es n s a vs s' →
    Ex.EntersArgs (B.moved g l pm) R' F ρ' (Ex.renameArgs r.to es) n' s a vs s'
  | [], _, _, _, _, _, _, _, _, h => h
  | e :: es, n, n', s, a, vs, s', hx, hl, h => by
    simp only [Ex.EntersArgs, Ex.renameArgs, Ex.namesArgs, Ex.stringsArgs, List.length_append, rename_strings] at h hx hl ⊢
    rcases h with h | ⟨d, s1, h1, h2⟩
    · exact .inl (enters_ren e _ _ _ _ _ _ hx.left hl.left h)
    · exact .inr ⟨d, s1, eval_ren hR hE hρ e _ _ _ _ _ hx.left hl.left h1, entersArgs_ren es _ _ _ _ _ _ hx.right hl.right h2⟩
end
end

/-! ### statements -/

/-- the statement at `P`, renamed, at `Q` -/
structure RGood (B : BMachine) (g : Ident → Word) (l : Nat → Word) (r : Renaming) (s : St) (P Q : Place) : Prop where
  env : ERen r.to P.env Q.env
  names : ∀ x ∈ s.globals P.env, g (r.to x) = B.global x
  lits : LitOk B.literal l P.lits Q.lits s.strings.length

variable {t : Renaming}

theorem namesOk_of {E : Env} {e : Ex} (h : ∀ x ∈ e.globals E, g (r.to x) = B.global x) : NamesOk B g r E e.names :=
  fun x hx hn => h x (by simp only [Ex.globals, List.mem_filter]; exact ⟨hx, by simpa using hn⟩)

theorem RGood.skip {s : St} {P Q : Place} (h : RGood B g l r s P Q) : RGood B g l r .skip P Q :=
  ⟨h.env, fun x hx => by simp [St.globals] at hx, fun i hi => by simp [St.strings] at hi⟩

theorem RGood.seq1 {s u : St} {P Q : Place} (h : RGood B g l r (.seq s u) P Q) : RGood B g l r s P Q :=
  ⟨h.env, fun x hx => h.names x (by simp only [St.globals, List.mem_append]; exact .inl hx), by
    have := h.lits; simp only [St.strings, List.length_append] at this; exact this.left⟩

theorem RGood.seq2 {s u : St} {P Q : Place} (h : RGood B g l r (.seq s u) P Q) : RGood B g l r u (P.after s) (Q.after (s.rename r.to t.to)) :=
  ⟨h.env.after s, fun x hx => h.names x (by simp only [St.globals, List.mem_append]; exact .inr hx), by
    have := h.lits; simp only [St.strings, List.length_append] at this
    simp only [Place.after, renameSt_strings]; exact this.right⟩

theorem RGood.case {s : St} {v : Word} {P Q : Place} (h : RGood B g l r (.case v s) P Q) : RGood B g l r s P Q := ⟨h.env, h.names, h.lits⟩

theorem RGood.label {s : St} {v : Ident} {P Q : Place} (h : RGood B g l r (.label v s) P Q) : RGood B g l r s P Q := ⟨h.env, h.names, h.lits⟩

theorem RGood.then {c : Ex} {s : St} {P Q : Place} (h : RGood B g l r (.ifThen c s) P Q) : RGood B g l r s (P.afterEx c) (Q.afterEx (c.rename r.to)) :=
  ⟨h.env.afterEx _ _, fun x hx => h.names x (by simp only [St.globals, List.mem_append]; exact .inr hx), by
    have := h.lits; simp only [St.strings, List.length_append] at this
    simp only [Place.afterEx, rename_strings]; exact this.right⟩

theorem RGood.body {c : Ex} {s : St} {P Q : Place} (h : RGood B g l r (.while c s) P Q) : RGood B g l r s (P.afterEx c) (Q.afterEx (c.rename r.to)) :=
  ⟨h.env.afterEx _ _, fun x hx => h.names x (by simp only [St.globals, List.mem_append]; exact .inr hx), by
    have := h.lits; simp only [St.strings, List.length_append] at this
    simp only [Place.afterEx, rename_strings]; exact this.right⟩

theorem RGood.cases {c : Ex} {s : St} {P Q : Place} (h : RGood B g l r (.switch c s) P Q) : RGood B g l r s (P.afterEx c) (Q.afterEx (c.rename r.to)) :=
  ⟨h.env.afterEx _ _, fun x hx => h.names x (by simp only [St.globals, List.mem_append]; exact .inr hx), by
    have := h.lits; simp only [St.strings, List.length_append] at this
    simp only [Place.afterEx, rename_strings]; exact this.right⟩

theorem RGood.then2 {c : Ex} {s u : St} {P Q : Place} (h : RGood B g l r (.ifElse c s u) P Q) :
    RGood B g l r s (P.afterEx c) (Q.afterEx (c.rename r.to)) :=
  ⟨h.env.afterEx _ _, fun x hx => h.names x (by simp only [St.globals, List.mem_append]; exact .inr (.inl hx)), by
    have := h.lits; simp only [St.strings, List.length_append] at this
    simp only [Place.afterEx, rename_strings]; exact this.left.right⟩

theorem RGood.else {c : Ex} {s u : St} {P Q : Place} (h : RGood B g l r (.ifElse c s u) P Q) :
    RGood B g l r u ((P.afterEx c).after s) ((Q.afterEx (c.rename r.to)).after (s.rename r.to t.to)) :=
  ⟨(h.env.afterEx _ _).after s, fun x hx => h.names x (by simp only [St.globals, List.mem_append]; exact .inr (.inr hx)), by
    have := h.lits; simp only [St.strings, List.length_append] at this
    have := this.right
    simp only [Place.afterEx, Place.after, rename_strings, renameSt_strings]
    rwa [← Nat.add_assoc, ← Nat.add_assoc] at this⟩

theorem RGood.value (hR : ∀ a vs s v s', R a vs s v s' → R' a vs s v s') {ρ ρ' : Frame} (hρ : ∀ x, ρ' (r.to x) = ρ x) {u : St} {e : Ex} {P Q : Place}
    (h : RGood B g l r u P Q) (hs : ∀ x ∈ e.globals P.env, x ∈ u.globals P.env) (hn : e.strings.length ≤ u.strings.length) {s s' : Store B.World} {v : Word}
    (hv : e.Value B R P ρ s v s') : (e.rename r.to).Value (B.moved g l pm) R' Q ρ' s v s' := by
  obtain ⟨d, h1, h2⟩ := hv
  exact ⟨d, eval_ren hR h.env hρ e _ _ _ _ _ (namesOk_of fun x hx => h.names x (hs x hx)) (fun i hi => h.lits i (by omega)) h1, h2⟩

inductive CRen (B : BMachine) (g : Ident → Word) (l : Nat → Word) (r t : Renaming) : Cont → Cont → Prop where
  | stop : CRen B g l r t .stop .stop
  | seq {P Q u c d} : RGood B g l r u P Q → CRen B g l r t c d → CRen B g l r t (.seq P u c) (.seq Q (u.rename r.to t.to) d)
  | loop {P Q e b c d} : RGood B g l r (.while e b) P Q → CRen B g l r t c d →
      CRen B g l r t (.loop P e b c) (.loop Q (e.rename r.to) (b.rename r.to t.to) d)

inductive FRen (B : BMachine) (g : Ident → Word) (l : Nat → Word) (r t : Renaming) : Option (Place × St × Cont) → Option (Place × St × Cont) → Prop where
  | none : FRen B g l r t none none
  | some {P Q s c d} : RGood B g l r s P Q → CRen B g l r t c d → FRen B g l r t (some (P, s, c)) (some (Q, s.rename r.to t.to, d))

theorem FRen.or {a b c d : Option (Place × St × Cont)} (h1 : FRen B g l r t a b) (h2 : FRen B g l r t c d) : FRen B g l r t (a.or c) (b.or d) := by
  cases h1 with
  | none => exact h2
  | some h h' => exact .some h h'

theorem findCase_ren (v : Word) : ∀ (s : St) {P Q : Place} {c d : Cont}, RGood B g l r s P Q → CRen B g l r t c d →
    FRen B g l r t (findCase v s P c) (findCase v (s.rename r.to t.to) Q d)
  | .case w s, P, Q, c, d, h, hc => by
    simp only [findCase, St.rename]
    split
    · exact .some h.case hc
    · exact findCase_ren v s h.case hc
  | .seq s u, P, Q, c, d, h, hc => by
    simp only [findCase, St.rename]
    exact (findCase_ren v s h.seq1 (.seq h.seq2 hc)).or (findCase_ren v u h.seq2 hc)
  | .label _ s, P, Q, c, d, h, hc => by simp only [findCase, St.rename]; exact findCase_ren v s h.label hc
  | .skip, _, _, _, _, _, _ | .expr _, _, _, _, _, _, _ | .ret _, _, _, _, _, _, _ | .auto _, _, _, _, _, _, _ | .extrn _, _, _, _, _, _, _
  | .ifThen _ _, _, _, _, _, _, _ | .ifElse _ _ _, _, _, _, _, _, _ | .while _ _, _, _, _, _, _, _ | .switch _ _, _, _, _, _, _, _
  | .goto _, _, _, _, _, _, _ => by
    simp only [findCase, St.rename]; exact .none

theorem findLabel_ren (m : Ident) : ∀ (s : St) {P Q : Place} {c d : Cont}, RGood B g l r s P Q → CRen B g l r t c d →
    FRen B g l r t (findLabel m s P c) (findLabel (t.to m) (s.rename r.to t.to) Q d)
  | .label k s, P, Q, c, d, h, hc => by
    simp only [findLabel, St.rename]
    by_cases hk : k = m
    · rw [if_pos hk, if_pos (by rw [hk])]; exact .some h.label hc
    · rw [if_neg hk, if_neg (fun e => hk (t.inj e))]; exact findLabel_ren m s h.label hc
  | .case _ s, P, Q, c, d, h, hc => by simp only [findLabel, St.rename]; exact findLabel_ren m s h.case hc
  | .seq s u, P, Q, c, d, h, hc => by
    simp only [findLabel, St.rename]
    exact (findLabel_ren m s h.seq1 (.seq h.seq2 hc)).or (findLabel_ren m u h.seq2 hc)
  | .ifThen e s, P, Q, c, d, h, hc => by simp only [findLabel, St.rename]; exact findLabel_ren m s h.then hc
  | .ifElse e s u, P, Q, c, d, h, hc => by
    simp only [findLabel, St.rename]
    exact (findLabel_ren m s h.then2 hc).or (findLabel_ren m u h.else hc)
  | .while e b, P, Q, c, d, h, hc => by simp only [findLabel, St.rename]; exact findLabel_ren m b h.body (.loop h hc)
  | .switch e b, P, Q, c, d, h, hc => by simp only [findLabel, St.rename]; exact findLabel_ren m b h.cases hc
  | .skip, _, _, _, _, _, _ | .expr _, _, _, _, _, _, _ | .ret _, _, _, _, _, _, _ | .auto _, _, _, _, _, _, _ | .extrn _, _, _, _, _, _, _
  | .goto _, _, _, _, _, _, _ => by
    simp only [findLabel, St.rename]; exact .none

/-- states that differ in places and names only -/
inductive SRen (B : BMachine) (g : Ident → Word) (l : Nat → Word) (r t : Renaming) : BState B.World → BState B.World → Prop where
  | run {P Q s c d ρ ρ' σ} : RGood B g l r s P Q → CRen B g l r t c d → (∀ x, ρ' (r.to x) = ρ x) →
      SRen B g l r t (.run P s c ρ σ) (.run Q (s.rename r.to t.to) d ρ' σ)
  | done {v σ} : SRen B g l r t (.done v σ) (.done v σ)

theorem bind_ren {ρ ρ' : Frame} (h : ∀ x, ρ' (r.to x) = ρ x) (y : Ident) (a : Word) : ∀ x, (ρ'.bind (r.to y) a) (r.to x) = (ρ.bind y a) x := by
  intro x
  simp only [Frame.bind]
  by_cases hx : x = y
  · rw [if_pos hx, if_pos (by rw [hx])]
  · rw [if_neg hx, if_neg (fun e => hx (r.inj e))]; exact h x

theorem declare_ren : ∀ (ds : List (Ident × Option Word)) (ρ ρ' : Frame) (s : Store B.World), (∀ x, ρ' (r.to x) = ρ x) →
    (∀ x, (declare (B.moved g l pm) (ds.map fun d => (r.to d.1, d.2)) ρ' s).1 (r.to x) = (declare B ds ρ s).1 x) ∧
    (declare (B.moved g l pm) (ds.map fun d => (r.to d.1, d.2)) ρ' s).2 = (declare B ds ρ s).2
  | [], _, _, _, h => ⟨h, rfl⟩
  | (x, none) :: ds, ρ, ρ', s, h => by simp only [declare, List.map_cons]; exact declare_ren ds _ _ _ (bind_ren h _ _)
  | (x, some n) :: ds, ρ, ρ', s, h => by simp only [declare, List.map_cons]; exact declare_ren ds _ _ _ (bind_ren h _ _)

theorem params_ren : ∀ (ps : List Ident) (as : List Word) (ρ ρ' : Frame), (∀ x, ρ' (r.to x) = ρ x) →
    ∀ x, bindParams (ps.map r.to) as ρ' (r.to x) = bindParams ps as ρ x
  | [], _, _, _, h => by simp only [List.map_nil, bindParams]; exact h
  | p :: ps, [], _, _, h => by simp only [List.map_cons, bindParams]; exact h
  | p :: ps, a :: as, ρ, ρ', h => by simp only [List.map_cons, bindParams]; exact params_ren ps as _ _ (bind_ren h p a)

section
variable (hR : ∀ a vs s v s', R a vs s v s' → R' a vs s v s')
include hR

theorem bstep_ren {P0 Q0 : Place} {body : St} (h0 : RGood B g l r body P0 Q0) {x y x' : BState B.World} (hx : SRen B g l r t x x')
    (h : BStep B R P0 body x y) : ∃ y', BStep (B.moved g l pm) R' Q0 (body.rename r.to t.to) x' y' ∧ SRen B g l r t y y' := by
  cases h with
  | endFun => cases hx with | run hP hc hρ => cases hc; exact ⟨_, .endFun, .done⟩
  | endSeq => cases hx with | run hP hc hρ => cases hc with | seq h1 h2 => exact ⟨_, .endSeq, .run h1 h2 hρ⟩
  | endLoop => cases hx with | run hP hc hρ => cases hc with | loop h1 h2 => exact ⟨_, .endLoop, .run h1 h2 hρ⟩
  | seq => cases hx with | run hP hc hρ => exact ⟨_, .seq, .run hP.seq1 (.seq hP.seq2 hc) hρ⟩
  | expr hv => cases hx with | run hP hc hρ => exact ⟨_, .expr (hP.value hR hρ (fun _ h => h) (Nat.le_refl _) hv), .run (s := .skip) hP.skip hc hρ⟩
  | ret0 => cases hx with | run hP hc hρ => exact ⟨_, .ret0, .done⟩
  | ret hv => cases hx with | run hP hc hρ => exact ⟨_, .ret (hP.value hR hρ (fun _ h => h) (Nat.le_refl _) hv), .done⟩
  | @auto P ds k ρ σ =>
    cases hx with
    | @run _ _ _ _ _ _ ρ' _ hP hc hρ =>
      refine ⟨_, .auto, ?_⟩
      obtain ⟨e1, e2⟩ := declare_ren (g := g) (l := l) (pm := pm) ds ρ ρ' σ hρ
      rw [e2]
      exact .run (s := .skip) hP.skip hc e1
  | extrn => cases hx with | run hP hc hρ => exact ⟨_, .extrn, .run (s := .skip) hP.skip hc hρ⟩
  | ifTrue hv hz =>
    cases hx with
    | run hP hc hρ =>
      exact ⟨_, .ifTrue (hP.value hR hρ (fun _ h => List.mem_append_left _ h) (by simp [St.strings]) hv) hz, .run hP.then hc hρ⟩
  | ifFalse hv hz =>
    cases hx with
    | run hP hc hρ =>
      exact ⟨_, .ifFalse (hP.value hR hρ (fun _ h => List.mem_append_left _ h) (by simp [St.strings]) hv) hz, .run (s := .skip) hP.skip hc hρ⟩
  | elseTrue hv hz =>
    cases hx with
    | run hP hc hρ =>
      exact ⟨_, .elseTrue (hP.value hR hρ (fun _ h => List.mem_append_left _ h) (by simp [St.strings]) hv) hz, .run hP.then2 hc hρ⟩
  | elseFalse hv hz =>
    cases hx with
    | run hP hc hρ =>
      exact ⟨_, .elseFalse (hP.value hR hρ (fun _ h => List.mem_append_left _ h) (by simp [St.strings]) hv) hz, .run hP.else hc hρ⟩
  | whileTrue hv hz =>
    cases hx with
    | run hP hc hρ =>
      exact ⟨_, .whileTrue (hP.value hR hρ (fun _ h => List.mem_append_left _ h) (by simp [St.strings]) hv) hz, .run hP.body (.loop hP hc) hρ⟩
  | whileFalse hv hz =>
    cases hx with
    | run hP hc hρ =>
      exact ⟨_, .whileFalse (hP.value hR hρ (fun _ h => List.mem_append_left _ h) (by simp [St.strings]) hv) hz, .run (s := .skip) hP.skip hc hρ⟩
  | @switchCase P e b c ρ σ v σ' Q s c' hv hf =>
    cases hx with
    | @run _ Q' _ _ d _ _ _ hP hc hρ =>
      have := findCase_ren v b hP.cases hc
      rw [hf] at this
      generalize hf' : findCase v (b.rename r.to t.to) (Q'.afterEx (e.rename r.to)) d = o at this
      cases this with
      | some h1 h2 =>
        exact ⟨_, .switchCase (hP.value hR hρ (fun _ h => List.mem_append_left _ h) (by simp [St.strings]) hv) hf', .run h1 h2 hρ⟩
  | @switchNone P e b c ρ σ v σ' hv hf =>
    cases hx with
    | @run _ Q' _ _ d _ _ _ hP hc hρ =>
      have := findCase_ren v b hP.cases hc
      rw [hf] at this
      generalize hf' : findCase v (b.rename r.to t.to) (Q'.afterEx (e.rename r.to)) d = o at this
      cases this with
      | none =>
        exact ⟨_, .switchNone (hP.value hR hρ (fun _ h => List.mem_append_left _ h) (by simp [St.strings]) hv) hf', .run (s := .skip) hP.skip hc hρ⟩
  | case => cases hx with | run hP hc hρ => exact ⟨_, .case, .run hP.case hc hρ⟩
  | label => cases hx with | run hP hc hρ => exact ⟨_, .label, .run hP.label hc hρ⟩
  | @goto P lab c ρ σ Q s c' hf =>
    cases hx with
    | run hP hc hρ =>
      have := findLabel_ren (t := t) lab body h0 CRen.stop
      rw [hf] at this
      generalize hf' : findLabel (t.to lab) (body.rename r.to t.to) Q0 .stop = o at this
      cases this with
      | some h1 h2 => exact ⟨_, .goto hf', .run h1 h2 hρ⟩

theorem bsteps_ren {P0 Q0 : Place} {body : St} (h0 : RGood B g l r body P0 Q0) {x y : BState B.World} (h : BSteps B R P0 body x y) :
    ∀ {x' : BState B.World}, SRen B g l r t x x' → ∃ y', BSteps (B.moved g l pm) R' Q0 (body.rename r.to t.to) x' y' ∧ SRen B g l r t y y' := by
  induction h with
  | refl => intro x' hx; exact ⟨_, .refl, hx⟩
  | head h1 _ ih =>
    intro x' hx
    obtain ⟨y', s1, r1⟩ := bstep_ren (g := g) (l := l) (pm := pm) hR h0 hx h1
    obtain ⟨z', s2, r2⟩ := ih r1
    exact ⟨z', .head s1 s2, r2⟩

theorem state_ren {x x' : BState B.World} (hx : SRen B g l r t x x') {a : Word} {vs : List Word} {s' : Store B.World} (h : x.Enters B R a vs s') :
    x'.Enters (B.moved g l pm) R' a vs s' := by
  obtain ⟨P, s, k, ρ, σ, e, rfl, hs, he⟩ := h
  cases hx with
  | @run P Q s k d ρ ρ' σ hP hc hρ =>
    have key : ∀ u, RGood B g l r u P Q → (∀ x ∈ e.globals P.env, x ∈ u.globals P.env) → e.strings.length ≤ u.strings.length →
        (e.rename r.to).Enters (B.moved g l pm) R' Q.env ρ' Q.lits σ a vs s' := fun u hu h1 h2 =>
      enters_ren hR hu.env hρ e _ _ _ _ _ _ (namesOk_of fun x hx => hu.names x (h1 x hx)) (fun i hi => hu.lits i (by omega)) he
    have get : (s.rename r.to t.to).first = some (e.rename r.to) ∧ (e.rename r.to).Enters (B.moved g l pm) R' Q.env ρ' Q.lits σ a vs s' := by
      cases s with
      | expr e' => cases hs; exact ⟨rfl, key _ hP (fun _ h => h) (Nat.le_refl _)⟩
      | ret e' => cases hs; exact ⟨rfl, key _ hP (fun _ h => h) (Nat.le_refl _)⟩
      | ifThen c u => cases hs; exact ⟨rfl, key _ hP (fun _ h => List.mem_append_left _ h) (by simp [St.strings])⟩
      | ifElse c u w => cases hs; exact ⟨rfl, key _ hP (fun _ h => List.mem_append_left _ h) (by simp [St.strings])⟩
      | «while» c u => cases hs; exact ⟨rfl, key _ hP (fun _ h => List.mem_append_left _ h) (by simp [St.strings])⟩
      | switch c u => cases hs; exact ⟨rfl, key _ hP (fun _ h => List.mem_append_left _ h) (by simp [St.strings])⟩
      | _ => cases hs
    exact ⟨Q, _, d, ρ', σ, _, rfl, get.1, get.2⟩

theorem funRun_ren (hp : ∀ w n, pm w n = B.params w n) {P Q : Place} {ps : List Ident} {body : St} (h0 : RGood B g l r body P Q) {args : List Word}
    {σ σ' : Store B.World} {v : Word} (h : FunRun B R P ps body args σ v σ') :
    FunRun (B.moved g l pm) R' Q (ps.map r.to) (body.rename r.to t.to) args σ v σ' := by
  obtain ⟨h1, σ1, h2, h3⟩ := h
  obtain ⟨y', s, e⟩ := bsteps_ren (g := g) (l := l) (pm := pm) (t := t) hR h0 h2
    (.run h0 .stop (params_ren ps (B.params σ.world ps.length).1 (fun _ => none) (fun _ => none) (fun _ => rfl)))
  cases e
  refine ⟨by rw [List.length_map]; exact h1, σ1, ?_, h3⟩
  simp only [hp, List.length_map]
  exact s
end
end

/-! ### the other way round -/

theorem ERen.symm {r : Renaming} {E F : Env} (h : ERen r.to E F) : ERen r.inverse.to F E :=
  ⟨by rw [h.locals]; exact (map_back r _).symm, by rw [h.exts]; exact (map_back r _).symm⟩

section
variable {B : BMachine} {g : Ident → Word} {l : Nat → Word} {pm : B.World → Nat → List Word × B.World} {r t : Renaming}

theorem RGood.symm {s : St} {P Q : Place} (h : RGood B g l r s P Q) :
    RGood (B.moved g l pm) B.global B.literal r.inverse (s.rename r.to t.to) Q P where
  env := h.env.symm
  names y hy := by
    rw [renameSt_globals r t.to s h.env, List.mem_map] at hy
    obtain ⟨x, hx, rfl⟩ := hy
    show B.global (r.back (r.to x)) = g (r.to x)
    rw [r.back_to, h.names x hx]
  lits i hi := by
    rw [renameSt_strings] at hi
    exact (h.lits i hi).symm

theorem CRen.symm {c d : Cont} (h : CRen B g l r t c d) : CRen (B.moved g l pm) B.global B.literal r.inverse t.inverse d c := by
  induction h with
  | stop => exact .stop
  | @seq P Q u c d h1 _ ih =>
    have := CRen.seq (t := t.inverse) (h1.symm (pm := pm) (t := t)) ih
    rw [show (u.rename r.to t.to).rename r.inverse.to t.inverse.to = u from renameSt_back r t u] at this
    exact this
  | @loop P Q e b c d h1 _ ih =>
    have := CRen.loop (t := t.inverse) (e := e.rename r.to) (b := b.rename r.to t.to) (h1.symm (pm := pm) (t := t)) ih
    rw [show (b.rename r.to t.to).rename r.inverse.to t.inverse.to = b from renameSt_back r t b,
      show (e.rename r.to).rename r.inverse.to = e from rename_back r e] at this
    exact this

theorem SRen.symm {x y : BState B.World} (h : SRen B g l r t x y) :
    SRen (B.moved g l pm) B.global B.literal r.inverse t.inverse y x := by
  cases h with
  | @run P Q s c d ρ ρ' σ h1 h2 h3 =>
    have := SRen.run (B := B.moved g l pm) (g := B.global) (l := B.literal) (r := r.inverse) (t := t.inverse) (σ := σ) (h1.symm (pm := pm) (t := t)) (h2.symm (pm := pm)) (ρ := ρ') (ρ' := ρ)
      (fun x => by show ρ (r.back x) = _; rw [← h3, r.to_back])
    rw [show (s.rename r.to t.to).rename r.inverse.to t.inverse.to = s from renameSt_back r t s] at this
    exact this
  | done => exact .done

theorem bstep_back {R R' : Calls B.World} (hR : ∀ a vs s v s', R' a vs s v s' → R a vs s v s') {P0 Q0 : Place} {body : St}
    (h0 : RGood B g l r body P0 Q0) {x x' y' : BState B.World} (hx : SRen B g l r t x x')
    (h : BStep (B.moved g l pm) R' Q0 (body.rename r.to t.to) x' y') : ∃ y, BStep B R P0 body x y ∧ SRen B g l r t y y' := by
  obtain ⟨y, h1, h2⟩ := bstep_ren (B := B.moved g l pm) (g := B.global) (l := B.literal) (pm := B.params) (r := r.inverse) (t := t.inverse)
    hR (h0.symm (t := t)) hx.symm h
  rw [show (body.rename r.to t.to).rename r.inverse.to t.inverse.to = body from renameSt_back r t body] at h1
  exact ⟨y, h1, SRen.symm (B := B.moved g l pm) (g := B.global) (l := B.literal) (pm := B.params) (r := r.inverse) (t := t.inverse) h2⟩

theorem state_back {R R' : Calls B.World} (hR : ∀ a vs s v s', R' a vs s v s' → R a vs s v s')
    {x x' : BState B.World} (hx : SRen B g l r t x x') {a : Word} {vs : List Word} {s' : Store B.World}
    (h : x'.Enters (B.moved g l pm) R' a vs s') : x.Enters B R a vs s' :=
  state_ren (B := B.moved g l pm) (g := B.global) (l := B.literal) (pm := B.params) hR hx.symm h

theorem entry_ren (hp : ∀ w n, pm w n = B.params w n) {P Q : Place} {ps : List Ident} {body : St} (h0 : RGood B g l r body P Q) (args : List Word)
    (σ : Store B.World) :
    SRen B g l r t (.entry B P ps body args σ) (.entry (B.moved g l pm) Q (ps.map r.to) (body.rename r.to t.to) args σ) := by
  unfold BState.entry
  simp only [hp, List.length_map]
  exact .run h0 .stop (params_ren ps (B.params σ.world ps.length).1 (fun _ => none) (fun _ => none) (fun _ => rfl))

theorem stuck_ren {R R' : Calls B.World} (hR : ∀ a vs s v s', R a vs s v s' ↔ R' a vs s v s') {P0 Q0 : Place} {body : St}
    (h0 : RGood B g l r body P0 Q0) {x x' : BState B.World} (hx : SRen B g l r t x x') (h : x.Stuck B R P0 body) :
    x'.Stuck (B.moved g l pm) R' Q0 (body.rename r.to t.to) := by
  obtain ⟨h1, h2, h3⟩ := h
  refine ⟨fun v σ e => ?_, fun y hy => ?_, fun a vs σ he => ?_⟩
  · subst e; cases hx; exact h1 _ _ rfl
  · obtain ⟨y1, s, _⟩ := bstep_back (fun _ _ _ _ _ => (hR _ _ _ _ _).2) h0 hx hy
    exact h2 _ s
  · obtain ⟨v, σ', e⟩ := h3 _ _ _ (state_back (fun _ _ _ _ _ => (hR _ _ _ _ _).2) hx he)
    exact ⟨v, σ', (hR _ _ _ _ _).1 e⟩
end

/-! ### programs -/

theorem defines_has {p : Program} {f : Ident} {ps : List Ident} {b : St} {P : Place} (h : p.Defines f ps b P) : Decl.func f ps b ∈ p := by
  obtain ⟨pre, post, rfl, _⟩ := h
  simp

/-- what a function of `p` becomes in `q` -/
theorem within_good {p q : Program} {B : BMachine} {g : Ident → Word} {l : Nat → Word} (h : p.Within q B.global g B.literal l)
    {f : Ident} {ps : List Ident} {b : St} {P : Place} (hd : p.Defines f ps b P) : ∃ (r t : Renaming) (f' : Ident) (Q : Place),
    q.Defines f' (ps.map r.to) (b.rename r.to t.to) Q ∧ g f' = B.global f ∧ RGood B g l r b P Q := by
  obtain ⟨r, t, f', Q, h1, h2, h3, h4⟩ := h f ps b P hd
  refine ⟨r, t, f', Q, h1, h2, ?_, h3, h4⟩
  obtain ⟨pre, post, e1, _, rfl⟩ := hd
  obtain ⟨pre', post', e2, _, rfl⟩ := h1
  exact ⟨rfl, rfl⟩

theorem within_call {p q : Program} {B : BMachine} {g : Ident → Word} {l : Nat → Word} {pm : B.World → Nat → List Word × B.World}
    (hp : ∀ w n, pm w n = B.params w n) (h : p.Within q B.global g B.literal l) (X : Calls B.World) :
    ∀ n a vs s v s', p.Call B X n a vs s v s' → q.Call (B.moved g l pm) X n a vs s v s'
  | 0, _, _, _, _, _, hc => hc
  | n + 1, _, _, _, _, _, hc => by
    rcases hc with hc | ⟨f, ps, b, P, h1, rfl, h2⟩
    · exact .inl hc
    · obtain ⟨r, t, f', Q, k1, k2, k3⟩ := within_good h h1
      exact .inr ⟨f', _, _, Q, k1, k2.symm, funRun_ren (within_call hp h X n) hp k3 h2⟩

theorem Spec.Program.Alike.returns {p q : Program} {B : BMachine} {g : Ident → Word} {l : Nat → Word} {pm : B.World → Nat → List Word × B.World}
    (hp : ∀ w n, pm w n = B.params w n) (h : p.Alike q B.global g B.literal l) (X : Calls B.World) (a : Word) (vs : List Word) (s : Store B.World)
    (v : Word) (s' : Store B.World) : p.Returns B X a vs s v s' ↔ q.Returns (B.moved g l pm) X a vs s v s' :=
  ⟨fun ⟨n, hn⟩ => ⟨n, within_call hp h.1 X n _ _ _ _ _ hn⟩,
    fun ⟨n, hn⟩ => ⟨n, within_call (B := B.moved g l pm) (g := B.global) (l := B.literal) (pm := B.params) (fun w n => (hp w n).symm) h.2 X n _ _ _ _ _ hn⟩⟩

theorem alike_symm {p q : Program} {g g' : Ident → Word} {l l' : Nat → Word} (h : p.Alike q g g' l l') : q.Alike p g' g l' l := ⟨h.2, h.1⟩

theorem alike_gets {p q : Program} {B : BMachine} {g : Ident → Word} {l : Nat → Word} {pm : B.World → Nat → List Word × B.World}
    (hp : ∀ w n, pm w n = B.params w n) (h : p.Alike q B.global g B.literal l) (X : Calls B.World) {f : Ident} {args : List Word}
    {σ : Store B.World} {x : BState B.World} (hg : p.Gets B X f args σ x) :
    ∃ (r t : Renaming) (f' : Ident) (x' : BState B.World), g f' = B.global f ∧ q.Gets (B.moved g l pm) X f' args σ x' ∧ SRen B g l r t x x' := by
  obtain ⟨ps, b, P, h1, h2, h3⟩ := hg
  obtain ⟨r, t, f', Q, k1, k2, k3⟩ := within_good h.1 h1
  obtain ⟨y, s1, s2⟩ := bsteps_ren (pm := pm) (fun _ _ _ _ _ => (h.returns hp X _ _ _ _ _).1) k3 h3 (entry_ren hp k3 args σ (t := t) (ps := ps))
  exact ⟨r, t, f', y, k2, ⟨_, _, Q, k1, by rw [List.length_map]; exact h2, s1⟩, s2⟩

theorem alike_makes {p q : Program} {B : BMachine} {g : Ident → Word} {l : Nat → Word} {pm : B.World → Nat → List Word × B.World}
    (hp : ∀ w n, pm w n = B.params w n) (h : p.Alike q B.global g B.literal l) {X : Calls B.World} {f : Ident} {args : List Word}
    {σ : Store B.World} {a : Word} {vs : List Word} {σ' : Store B.World} (hm : p.Makes B X f args σ a vs σ') :
    ∃ f', g f' = B.global f ∧ (∃ ps b, Decl.func f' ps b ∈ q) ∧ q.Makes (B.moved g l pm) X f' args σ a vs σ' := by
  induction hm with
  | own h1 h2 =>
    obtain ⟨r, t, f', x', k1, k2, k3⟩ := alike_gets (pm := pm) hp h X h1
    refine ⟨f', k1, ?_, .own k2 (state_ren (fun _ _ _ _ _ => (h.returns hp X _ _ _ _ _).1) k3 h2)⟩
    obtain ⟨ps, b, Q, hd, _⟩ := k2
    exact ⟨ps, b, defines_has hd⟩
  | inner _ _ ih1 ih2 =>
    obtain ⟨f', e1, d1, m1⟩ := ih1
    obtain ⟨f'', e2, d2, m2⟩ := ih2
    rw [← e2] at m1
    exact ⟨f', e1, d1, .inner m1 m2⟩

theorem alike_wrong {p q : Program} {B : BMachine} {g : Ident → Word} {l : Nat → Word} {pm : B.World → Nat → List Word × B.World}
    (hp : ∀ w n, pm w n = B.params w n) (h : p.Alike q B.global g B.literal l) {X : Calls B.World} {f : Ident} {args : List Word}
    {σ : Store B.World} (hw : p.Wrong B X f args σ) :
    ∃ f', g f' = B.global f ∧ (∃ ps b, Decl.func f' ps b ∈ q) ∧ q.Wrong (B.moved g l pm) X f' args σ := by
  have hR := h.returns (pm := pm) hp X
  induction hw with
  | few h1 h2 =>
    obtain ⟨r, t, f', Q, k1, k2, k3⟩ := within_good h.1 h1
    exact ⟨f', k2, ⟨_, _, defines_has k1⟩, .few k1 (by rw [List.length_map]; exact h2)⟩
  | @stuck f args σ ps b P x h1 h2 h3 h4 =>
    obtain ⟨r, t, f', Q, k1, k2, k3⟩ := within_good h.1 h1
    obtain ⟨y, s1, s2⟩ := bsteps_ren (pm := pm) (fun _ _ _ _ _ => (hR _ _ _ _ _).1) k3 h3 (entry_ren hp k3 args σ (t := t) (ps := ps))
    exact ⟨f', k2, ⟨_, _, defines_has k1⟩, .stuck k1 (by rw [List.length_map]; exact h2) s1 (stuck_ren hR k3 s2 h4)⟩
  | @inner f args σ x g' ws σ1 h1 h2 h3 ih =>
    obtain ⟨r, t, f', x', k1, k2, k3⟩ := alike_gets (pm := pm) hp h X h1
    obtain ⟨f'', e2, d2, m2⟩ := ih
    have he := state_ren (pm := pm) (fun _ _ _ _ _ => (hR _ _ _ _ _).1) k3 h2
    refine ⟨f', k1, ?_, .inner k2 (g := f'') ?_ m2⟩
    · obtain ⟨ps, b, Q, hd, _⟩ := k2
      exact ⟨ps, b, defines_has hd⟩
    · rw [show (B.moved g l pm).global f'' = B.global g' from e2]; exact he

/-! ### programs that are alike -/

mutual
theorem rename_id : ∀ e : Ex, e.rename id = e
  | .num _ | .str _ | .var _ => rfl
  | .paren e | .post _ e | .pre _ e | .not e | .neg e | .deref e | .addr e => by simp only [Ex.rename]; rw [rename_id e]
  | .index a i => by simp only [Ex.rename]; rw [rename_id a, rename_id i]
  | .callName _ as => by simp only [Ex.rename]; rw [renameArgs_id as]; rfl
  | .call f as => by simp only [Ex.rename]; rw [rename_id f, renameArgs_id as]
  | .bin _ x y | .assign _ x y => by simp only [Ex.rename]; rw [rename_id x, rename_id y]
  | .cond c t e => by simp only [Ex.rename]; rw [rename_id c, rename_id t, rename_id e]

theorem renameArgs_id : ∀ es : List Ex, Ex.renameArgs id es = es
  | [] => rfl
  | e :: es => by simp only [Ex.renameArgs]; rw [rename_id e, renameArgs_id es]
end

theorem renameSt_id : ∀ s : St, s.rename id id = s
  | .skip | .ret none | .goto _ => rfl
  | .expr e => by simp only [St.rename]; rw [rename_id]
  | .ret (some e) => by simp only [St.rename, Option.map_some]; rw [rename_id]
  | .auto ds => by simp [St.rename]
  | .extrn xs => by simp [St.rename]
  | .seq s t => by simp only [St.rename]; rw [renameSt_id s, renameSt_id t]
  | .ifThen c t => by simp only [St.rename]; rw [rename_id, renameSt_id t]
  | .ifElse c t e => by simp only [St.rename]; rw [rename_id, renameSt_id t, renameSt_id e]
  | .while c t => by simp only [St.rename]; rw [rename_id, renameSt_id t]
  | .switch c t => by simp only [St.rename]; rw [rename_id, renameSt_id t]
  | .case _ s => by simp only [St.rename]; rw [renameSt_id s]
  | .label _ s => by simp only [St.rename]; rw [renameSt_id s]; rfl

/-- which names are global depends on the local variables only -/
theorem globals_env (s : St) {E F : Env} (h1 : F.locals = E.locals) (h2 : F.exts = E.exts) : s.globals F = s.globals E := by
  have := renameSt_globals Renaming.none id s (E := E) (F := F) ⟨by rw [h1]; simp [Renaming.none], by rw [h2]; simp [Renaming.none]⟩
  rw [show Renaming.none.to = id from rfl, renameSt_id, List.map_id] at this
  exact this

theorem literals_append (p q : Program) : Program.literals (p ++ q) = Program.literals p + Program.literals q := by
  simp [Program.literals]

theorem literals_cons (d : Decl) (q : Program) : Program.literals (d :: q) = d.strings.length + Program.literals q := by
  simp [Program.literals]

theorem cons_split {x d : Decl} {q pre post : Program} (h : x :: q = pre ++ d :: post) :
    (pre = [] ∧ x = d ∧ q = post) ∨ ∃ pre', pre = x :: pre' ∧ q = pre' ++ d :: post := by
  cases pre with
  | nil => cases h; exact .inl ⟨rfl, rfl, rfl⟩
  | cons y pre => cases h; exact .inr ⟨pre, rfl, rfl⟩

/-- a permutation of the declarations permutes the string literals -/
theorem renumbered {p q : Program} (h : p.Perm q) : ∃ φ, p.Renumbered q φ := by
  induction h with
  | nil => exact ⟨id, fun pre d post e => by simp at e⟩
  | @cons x p q _ ih =>
    obtain ⟨φ, hφ⟩ := ih
    refine ⟨fun j => if j < x.strings.length then j else x.strings.length + φ (j - x.strings.length), fun pre' d post' e => ?_⟩
    rcases cons_split e with ⟨rfl, rfl, rfl⟩ | ⟨pre'', rfl, rfl⟩
    · refine ⟨[], _, rfl, fun i hi => ?_⟩
      simp only [Program.literals, List.flatMap_nil, List.length_nil, Nat.zero_add]
      rw [if_pos hi]
    · obtain ⟨pre, post, rfl, k⟩ := hφ _ _ _ rfl
      refine ⟨x :: pre, post, rfl, fun i hi => ?_⟩
      rw [literals_cons, literals_cons]
      dsimp only
      rw [if_neg (by omega),
        show x.strings.length + Program.literals pre'' + i - x.strings.length = Program.literals pre'' + i by omega, k i hi]
      omega
  | swap x y l =>
    refine ⟨fun j => if j < x.strings.length then y.strings.length + j else if j < x.strings.length + y.strings.length then j - x.strings.length else j,
      fun pre' d post' e => ?_⟩
    rcases cons_split e with ⟨rfl, rfl, rfl⟩ | ⟨pre'', rfl, e'⟩
    · refine ⟨[y], l, rfl, fun i hi => ?_⟩
      rw [show Program.literals [] + i = i by simp [Program.literals]]
      dsimp only
      rw [if_pos hi]
      simp [Program.literals]
    · rcases cons_split e' with ⟨rfl, rfl, rfl⟩ | ⟨pre, rfl, rfl⟩
      · refine ⟨[], _, rfl, fun i hi => ?_⟩
        rw [literals_cons, show Program.literals [] = 0 from rfl]
        dsimp only
        rw [if_neg (by omega), if_pos (by omega)]
        omega
      · refine ⟨y :: x :: pre, post', rfl, fun i hi => ?_⟩
        simp only [literals_cons]
        rw [if_neg (by omega), if_neg (by omega)]
        omega
  | trans _ _ ih1 ih2 =>
    obtain ⟨φ1, h1⟩ := ih1
    obtain ⟨φ2, h2⟩ := ih2
    refine ⟨fun j => φ1 (φ2 j), fun pre d post e => ?_⟩
    obtain ⟨pre2, post2, e2, k2⟩ := h2 _ _ _ e
    obtain ⟨pre1, post1, e1, k1⟩ := h1 _ _ _ e2
    exact ⟨pre1, post1, e1, fun i hi => by dsimp only; rw [k2 i hi, k1 i hi]⟩

theorem once_split {p : Program} (hn : p.defined.Nodup) {f : Ident} {ps qs : List Ident} {b d : St} {pre pre' post post' : Program}
    (h : p = pre ++ .func f ps b :: post) (h' : p = pre' ++ .func f qs d :: post') : pre = pre' ∧ ps = qs ∧ b = d ∧ post = post' := by
  induction pre generalizing p pre' with
  | nil =>
    cases pre' with
    | nil =>
      rw [h] at h'
      cases h'
      exact ⟨rfl, rfl, rfl, rfl⟩
    | cons y pre' =>
      rw [h] at h'
      cases h'
      rw [h] at hn
      simp [Program.defined] at hn
  | cons x pre ih =>
    cases pre' with
    | nil =>
      rw [h'] at h
      cases h
      rw [h'] at hn
      simp [Program.defined] at hn
    | cons y pre' =>
      subst h
      simp only [List.cons_append, List.cons.injEq] at h'
      obtain ⟨rfl, h'⟩ := h'
      have hn' : Program.defined (pre ++ .func f ps b :: post) |>.Nodup := by
        refine List.Nodup.sublist ?_ hn
        exact List.Sublist.filterMap _ (List.sublist_cons_self _ _)
      obtain ⟨rfl, h2⟩ := ih hn' rfl h'
      exact ⟨rfl, h2⟩

theorem once_defines {p : Program} (hn : p.defined.Nodup) {f : Ident} {ps : List Ident} {b : St} {pre post : Program}
    (h : p = pre ++ .func f ps b :: post) : p.Defines f ps b ⟨(Program.place pre).env.enter f ps, (Program.place pre).lits⟩ := by
  refine ⟨pre, post, h, fun qs d hm => ?_, rfl⟩
  obtain ⟨a, c, rfl⟩ := List.append_of_mem hm
  have := (once_split hn h (pre' := pre ++ .func f ps b :: a) (qs := qs) (d := d) (post' := c) (by rw [h]; simp)).1
  simpa using congrArg List.length this

theorem perm_defined {p q : Program} (h : p.Perm q) : p.defined.Perm q.defined := h.filterMap _

/-- programs with the same declarations in another order are alike -/
theorem perm_alike {p q : Program} (h : p.Perm q) (hn : p.defined.Nodup) {φ : Nat → Nat} (hφ : p.Renumbered q φ) (g : Ident → Word)
    {l l' : Nat → Word} (hl : ∀ n, l' n = l (φ n)) : p.Alike q g g l l' := by
  have hn' : q.defined.Nodup := (perm_defined h).nodup_iff.1 hn
  have key : ∀ f ps b P Q, p.Defines f ps b P → q.Defines f ps b Q → ∀ i < b.strings.length, l' (Q.lits + i) = l (P.lits + i) := by
    rintro f ps b P Q ⟨pre, post, e1, _, rfl⟩ ⟨pre', post', e2, _, rfl⟩ i hi
    obtain ⟨pre1, post1, e3, k⟩ := hφ _ _ _ e2
    obtain ⟨rfl, _⟩ := once_split hn e1 e3
    rw [hl]
    exact congrArg l (k i hi)
  refine ⟨fun f ps b P hd => ?_, fun f ps b Q hd => ?_⟩
  · have hm : Decl.func f ps b ∈ q := h.mem_iff.1 (defines_has hd)
    obtain ⟨pre', post', e2⟩ := List.append_of_mem hm
    have hq := once_defines hn' e2
    refine ⟨.none, .none, f, _, ?_, rfl, fun _ _ => rfl, key _ _ _ _ _ hd hq⟩
    rw [show Renaming.none.to = id from rfl, List.map_id, renameSt_id]
    exact hq
  · have hm : Decl.func f ps b ∈ p := h.mem_iff.2 (defines_has hd)
    obtain ⟨pre', post', e2⟩ := List.append_of_mem hm
    have hp := once_defines hn e2
    refine ⟨.none, .none, f, _, ?_, rfl, fun _ _ => rfl, fun i hi => (key _ _ _ _ _ hp hd i hi).symm⟩
    rw [show Renaming.none.to = id from rfl, List.map_id, renameSt_id]
    exact hp

theorem Spec.Program.Renamed.literals {g g' : Ident → Word} {p q : Program} (h : Program.Renamed g g' p q) : q.literals = p.literals := by
  induction h with
  | nil => rfl
  | global _ _ ih => rw [literals_cons, literals_cons, ih]; rfl
  | vector _ _ ih => rw [literals_cons, literals_cons, ih]; rfl
  | func r t _ _ _ ih => rw [literals_cons, literals_cons, ih]; simp [Decl.strings, renameSt_strings]

theorem Spec.Program.Renamed.symm {g g' : Ident → Word} {p q : Program} (h : Program.Renamed g g' p q) : Program.Renamed g' g q p := by
  induction h with
  | nil => exact .nil
  | global e _ ih => exact .global e.symm ih
  | vector e _ ih => exact .vector e.symm ih
  | @func f f' ps b p q r t e hg _ ih =>
    have := Program.Renamed.func (g := g') (g' := g) (f := f') (f' := f) (ps := ps.map r.to) (b := b.rename r.to t.to) r.inverse t.inverse e.symm
      (fun y hy => by
        rw [renameSt_globals r t.to b (E := Env.empty.enter f ps) ⟨rfl, rfl⟩, List.mem_map] at hy
        obtain ⟨x, hx, rfl⟩ := hy
        rw [show r.inverse.to (r.to x) = x from r.back_to x, hg x hx]) ih
    rw [show (b.rename r.to t.to).rename r.inverse.to t.inverse.to = b from renameSt_back r t b,
      show (ps.map r.to).map r.inverse.to = ps from map_back r ps] at this
    exact this

/-- a function of `p` and what precedes it, in `q` -/
theorem Spec.Program.Renamed.split {g g' : Ident → Word} {p q : Program} (h : Program.Renamed g g' p q) {pre post : Program} {f : Ident}
    {ps : List Ident} {b : St} (e : p = pre ++ .func f ps b :: post) : ∃ (pre' post' : Program) (f' : Ident) (r t : Renaming),
      q = pre' ++ .func f' (ps.map r.to) (b.rename r.to t.to) :: post' ∧ g' f' = g f ∧ (∀ x ∈ b.globals (Env.empty.enter f ps), g' (r.to x) = g x) ∧
      Program.Renamed g g' pre pre' ∧ Program.Renamed g g' post post' := by
  induction h generalizing pre with
  | nil => simp at e
  | @global x y vals p q he h ih =>
    rcases cons_split e with ⟨_, e, _⟩ | ⟨pre1, rfl, rfl⟩
    · cases e
    · obtain ⟨pre', post', f', r, t, rfl, h1, h2, h3, h4⟩ := ih rfl
      exact ⟨.global y vals :: pre', post', f', r, t, rfl, h1, h2, .global he h3, h4⟩
  | @vector x y n vals p q he h ih =>
    rcases cons_split e with ⟨_, e, _⟩ | ⟨pre1, rfl, rfl⟩
    · cases e
    · obtain ⟨pre', post', f', r, t, rfl, h1, h2, h3, h4⟩ := ih rfl
      exact ⟨.vector y n vals :: pre', post', f', r, t, rfl, h1, h2, .vector he h3, h4⟩
  | @func f0 f0' ps0 b0 p q r0 t0 he hg h ih =>
    rcases cons_split e with ⟨rfl, e, rfl⟩ | ⟨pre1, rfl, rfl⟩
    · cases e
      exact ⟨[], q, f0', r0, t0, rfl, he, hg, .nil, h⟩
    · obtain ⟨pre', post', f', r, t, rfl, h1, h2, h3, h4⟩ := ih rfl
      exact ⟨_ :: pre', post', f', r, t, rfl, h1, h2, .func r0 t0 he hg h3, h4⟩

theorem renamed_within {g g' : Ident → Word} {p q : Program} (h : Program.Renamed g g' p q) {l l' : Nat → Word}
    (ha : ∀ f ∈ p.defined, ∀ f' ∈ p.defined, g f = g f' → f = f') (hl : ∀ n < p.literals, l' n = l n) : p.Within q g g' l l' := by
  intro f ps b P hd
  obtain ⟨pre, post, e, hlast, rfl⟩ := hd
  obtain ⟨pre', post', f', r, t, e', h1, h2, h3, h4⟩ := h.split e
  refine ⟨r, t, f', _, ⟨pre', post', e', fun qs d hm => ?_, rfl⟩, h1, fun x hx => ?_, fun i hi => ?_⟩
  · obtain ⟨u, v, e2⟩ := List.append_of_mem hm
    obtain ⟨u', v', f2, r2, t2, e3, k1, _⟩ := h4.symm.split e2
    have : f = f2 := ha f (by rw [e]; simp [Program.defined]) f2 (by rw [e, e3]; simp [Program.defined]) (by rw [k1, h1])
    subst this
    exact hlast (qs.map r2.to) (d.rename r2.to t2.to) (by rw [e3]; exact List.mem_append_right _ List.mem_cons_self)
  · rw [globals_env b (E := Env.empty.enter f ps) (F := (Program.place pre).env.enter f ps) rfl rfl] at hx
    exact h2 x hx
  · show l' (Program.literals pre' + i) = l (Program.literals pre + i)
    rw [h3.literals]
    refine hl _ ?_
    rw [e, literals_append, literals_cons]
    simp only [Decl.strings]
    omega

theorem renamed_alike {g g' : Ident → Word} {p q : Program} (h : Program.Renamed g g' p q) {l l' : Nat → Word}
    (ha : ∀ f ∈ p.defined, ∀ f' ∈ p.defined, g f = g f' → f = f') (ha' : ∀ f ∈ q.defined, ∀ f' ∈ q.defined, g' f = g' f' → f = f')
    (hl : ∀ n < p.literals, l' n = l n) : p.Alike q g g' l l' :=
  ⟨renamed_within h ha hl, renamed_within h.symm ha' fun n hn => (hl n (by rw [← h.literals]; exact hn)).symm⟩

/-! ### the initial memory -/

theorem literal_split : ∀ (p : Program) (n : Nat) (vs : List Nat), (p.flatMap Decl.strings)[n]? = some vs →
    ∃ pre d post i, p = pre ++ d :: post ∧ n = Program.literals pre + i ∧ d.strings[i]? = some vs
  | [], n, vs, h => by simp at h
  | d :: p, n, vs, h => by
    rw [List.flatMap_cons] at h
    by_cases hn : n < d.strings.length
    · rw [List.getElem?_append_left hn] at h
      exact ⟨[], d, p, n, rfl, by simp [Program.literals], h⟩
    · rw [List.getElem?_append_right (by omega)] at h
      obtain ⟨pre, d', post, i, rfl, e, h⟩ := literal_split p _ _ h
      exact ⟨d :: pre, d', post, i, rfl, by rw [literals_cons]; omega, h⟩

theorem literal_join (pre : Program) (d : Decl) (post : Program) {i : Nat} {vs : List Nat} (h : d.strings[i]? = some vs) :
    ((pre ++ d :: post).flatMap Decl.strings)[Program.literals pre + i]? = some vs := by
  have hi : i < d.strings.length := by
    apply Classical.byContradiction; intro hc
    rw [List.getElem?_eq_none (by omega)] at h; cases h
  rw [List.flatMap_append, List.flatMap_cons, List.getElem?_append_right (by simp [Program.literals]),
    show Program.literals pre + i - (pre.flatMap Decl.strings).length = i by simp [Program.literals], List.getElem?_append_left hi]
  exact h

/-- variables are declared once -/
theorem once_var {p : Program} (hv : (p.filterMap Decl.var?).Nodup) {pre post : Program} {d : Decl} {x : Ident} (e : p = pre ++ d :: post)
    (hx : d.var? = some x) : ∀ d' ∈ pre ++ post, d'.var? ≠ some x := by
  subst e
  intro d' hm hc
  rw [List.filterMap_append, List.filterMap_cons, hx] at hv
  rw [List.nodup_append] at hv
  obtain ⟨_, h2, h3⟩ := hv
  rcases List.mem_append.1 hm with hm | hm
  · exact h3 x (List.mem_filterMap.2 ⟨d', hm, hc⟩) x List.mem_cons_self rfl
  · exact (List.nodup_cons.1 h2).1 (List.mem_filterMap.2 ⟨d', hm, hc⟩)

/-- memory that is as one program says is as the other says -/
theorem perm_initial {p q : Program} (h : p.Perm q) (hv : (p.filterMap Decl.var?).Nodup) {φ : Nat → Nat} (hφ : p.Renumbered q φ) {B B' : BMachine}
    (hg : ∀ x, B'.global x = B.global x) (hl : ∀ n, B'.literal n = B.literal (φ n)) {mem : Mem} (hi : p.Initial B mem) :
    q.Initial B' mem where
  scalar pre x vals post e hn := by
    obtain ⟨pre', post', e'⟩ := List.append_of_mem (h.mem_iff.2 (by rw [e]; simp : Decl.global x vals ∈ q))
    rw [hg]
    exact hi.scalar pre' x vals post' e' fun d hd => once_var hv e' rfl d (List.mem_append_right _ hd)
  vector pre x n vals post e hn := by
    obtain ⟨pre', post', e'⟩ := List.append_of_mem (h.mem_iff.2 (by rw [e]; simp : Decl.vector x n vals ∈ q))
    rw [hg]
    exact hi.vector pre' x n vals post' e' (once_var hv e' rfl)
  mentioned x := by
    rintro ⟨d, hd, hx⟩ hn
    rw [hg]
    exact hi.mentioned x ⟨d, h.mem_iff.2 hd, hx⟩ fun d' hd' => hn d' (h.mem_iff.1 hd')
  literal n vs e := by
    obtain ⟨pre, d, post, i, e1, rfl, e2⟩ := literal_split _ _ _ e
    obtain ⟨pre', post', e3, k⟩ := hφ _ _ _ e1
    have hi' : i < d.strings.length := by
      apply Classical.byContradiction; intro hc
      rw [List.getElem?_eq_none (by omega)] at e2; cases e2
    rw [hl, k i hi']
    refine hi.literal _ _ ?_
    rw [e3]
    exact literal_join _ _ _ e2

theorem paramCells_placed (M : IRMachine) (a : List Char → Word) (w : M.World) (n : Nat) : (M.placed a).paramCells w n = M.paramCells w n := by
  have hc : ∀ (n : Nat) (w : M.World), (M.placed a).cells w n = M.cells w n := by
    intro n
    induction n with
    | zero => intro w; rfl
    | succ n ih => intro w; simp only [IRMachine.cells]; rw [ih]
  match n with
  | 0 => rfl
  | 1 => rfl
  | n + 2 => simp only [IRMachine.paramCells]; rw [hc]

end Blang
