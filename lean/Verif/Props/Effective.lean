import Verif.Proofs.Effective
import Verif.Props.Process
/-
Property C16: what the compiler makes of the code behind a `return`.

The claim is false: a `return` does not end the function if another turn of control follows it in the same line of control
(`C16_second_return_counterexample`), and straight code behind it is executed before the function returns
(`C16_code_behind_counterexample`).  The theorems here say what happens in the first case, for every program: such a `return` counts as its
expression.  `Program.effective` (Verif/Spec/Effective.lean) is the program with these `return`s taken away; the module does exactly what
this program prescribes.
-/
namespace Blang.Props
open Blang Blang.Spec

theorem effective_all {P : Ident → Prop} : ∀ (s : St) (k : Bool), s.All P → (s.effective k).All P
  | .ret none, false, h => h
  | .ret (some _), false, h => h
  | .ret none, true, _ => trivial
  | .ret (some _), true, h => h
  | .seq s t, k, h => ⟨effective_all s _ h.1, effective_all t k h.2⟩
  | .ifThen _ t, _, h => ⟨h.1, effective_all t false h.2⟩
  | .ifElse _ t e, _, h => ⟨h.1, effective_all t false h.2.1, effective_all e false h.2.2⟩
  | .while _ b, _, h => ⟨h.1, effective_all b false h.2⟩
  | .switch _ b, _, h => ⟨h.1, effective_all b false h.2⟩
  | .case _ s, k, h => effective_all s k h
  | .label _ s, k, h => ⟨h.1, effective_all s k h.2⟩
  | .expr _, _, h => h
  | .skip, _, _ => trivial
  | .auto _, _, h => h
  | .extrn _, _, h => h
  | .goto _, _, h => h

theorem effective_names {p : Program} (h : ∀ d ∈ p, d.All NameOk) : ∀ d ∈ p.effective, d.All NameOk := by
  intro d hd
  obtain ⟨d', h1, rfl⟩ := List.mem_map.1 hd
  cases d' with
  | func f ps b => exact ⟨(h _ h1).1, (h _ h1).2.1, effective_all b false (h _ h1).2.2⟩
  | global x vs => exact h _ h1
  | vector x n vs => exact h _ h1

/-- the module is that of the effective program -/
theorem effective_between {text : List Char} {p : Program} {m : Module} (h : TreeOf text p m) :
    ∃ c, Between p.effective newCompiler c ∧ m = ⟨c.globals, c.funcs⟩ := by
  obtain ⟨_, c, h1, h2⟩ := h
  exact ⟨c, between_of_gen (by rw [genProg_effective]; exact h1), h2⟩

theorem func_effective {p : Program} {f : Ident} {ps : List Ident} {body : St} (hf : Decl.func f ps body ∈ p) :
    Decl.func f ps (body.effective false) ∈ p.effective := List.mem_map.2 ⟨_, hf, rfl⟩

/-- C16. Taking away the `return`s that another turn of control follows does not change the module. -/
theorem C16_effective_module {text text' : List Char} {p : Program} {m m' : Module} (h : TreeOf text p m) (h' : TreeOf text' p.effective m') :
    m' = m := by
  obtain ⟨_, c, h1, rfl⟩ := h
  obtain ⟨_, c', h2, rfl⟩ := h'
  rw [genProg_effective, h1] at h2
  cases h2
  rfl

/-- C16. If the effective program prescribes that a function ends with a result and a store, then this is what calling it in the module
does, and the module has no other outcome. -/
theorem C16_effective_flow {text : List Char} {p : Program} {m : Module} (h : TreeOf text p m) (ht : p.effective.Tame) {M : IRMachine}
    {X : Calls M.World} {n : Nat} {f : Ident} {args : List Word} {σ σ' : Store M.World} {v : Word}
    (hr : p.effective.Reaches M.toB X n f args σ (.done v σ')) : Module.Does m M X f args σ v (.back M.leave σ σ') := by
  obtain ⟨c, hb, rfl⟩ := effective_between h
  exact implements_of hb (effective_names (reads_names h.1)) ht M X n f args σ v σ' hr

/-- C16. A function returns in the module exactly what the effective program prescribes, unless that goes wrong, ... -/
theorem C16_effective_results {text : List Char} {p : Program} {m : Module} (h : TreeOf text p m) (ht : p.effective.Tame) {M : IRMachine}
    {X : Calls M.World} (hl : Loaded m M X) {f : Ident} {ps : List Ident} {body : St} (hf : Decl.func f ps body ∈ p) {args : List Word}
    {σ : Store M.World} (hw : ¬ p.effective.Wrong M.toB X f args σ) (v : Word) (σ' : Store M.World) :
    Module.Returns m M X (M.addr (symbolOf f)) args σ v σ' ↔ p.effective.Returns M.toB X (M.toB.global f) args σ v σ' := by
  have hn := effective_names (reads_names h.1)
  obtain ⟨c, hb, rfl⟩ := effective_between h
  constructor
  · rintro ⟨n, hc⟩
    obtain ⟨ps', b', P, hd⟩ := defines_exists p.effective ⟨ps, _, func_effective hf⟩
    exact returns_only hb hn ht hl n f args σ v σ' ps' b' P hd hw hc
  · exact returns_sim hb hn ht _ _ _ _ _

/-- C16. ... it makes exactly the calls that the effective program prescribes, ... -/
theorem C16_effective_calls {text : List Char} {p : Program} {m : Module} (h : TreeOf text p m) (ht : p.effective.Tame) {M : IRMachine}
    {X : Calls M.World} (hl : Loaded m M X) {f : Ident} {ps : List Ident} {body : St} (hf : Decl.func f ps body ∈ p) {args : List Word}
    {σ : Store M.World} (hw : ¬ p.effective.Wrong M.toB X f args σ) (a : Word) (vs : List Word) (σ' : Store M.World) :
    Module.Makes m M X (M.addr (symbolOf f)) args σ a vs σ' ↔ p.effective.Makes M.toB X f args σ a vs σ' := by
  have hn := effective_names (reads_names h.1)
  obtain ⟨c, hb, rfl⟩ := effective_between h
  exact ⟨calls_only hb hn ht hl (func_effective hf) hw a vs σ', calls_made hb hn ht⟩

/-- C16. ... and the process comes to an end exactly as the effective program prescribes. -/
theorem C16_effective_process {text : List Char} {p : Program} {m : Module} (h : TreeOf text p m) (ht : p.effective.Tame) {C : Computer}
    (L : Library) (hk : Module.Links m C.addr) {ps : List Ident} {body : St} (hf : Decl.func "main".toList ps body ∈ p)
    {σ : Store C.machine.World} (hw : ¬ p.effective.Wrong C.machine.toB (C.calls L.Runs) "main".toList [] σ) (status : Word)
    (σ' : Store C.machine.World) :
    Module.Ends m C.machine (C.calls L.Runs) σ status σ' ↔ p.effective.Ends C.machine.toB (C.calls L.Runs) σ status σ' := by
  have hl : Loaded m C.machine (C.calls L.Runs) := loaded_of_links hk
  unfold Module.Ends Program.Ends
  rw [C16_effective_results h ht hl hf hw]
  simp only [C16_effective_calls h ht hl hf hw]

theorem turns_exit : ∀ {s : St}, s.turns = true → s.exit false = none
  | .ret _, _ => rfl
  | .ifThen _ _, _ => rfl
  | .ifElse _ _ _, _ => rfl
  | .while _ _, _ => rfl
  | .switch _ _, _ => rfl
  | .goto _, _ => rfl
  | .expr _, _ => rfl
  | .seq s t, h => by
    rw [St.turns, Bool.or_eq_true, Bool.and_eq_true] at h
    rw [St.exit]
    rcases h with h | ⟨h1, h2⟩
    · rw [turns_exit h]; rfl
    · cases e : s.exit false with
      | none => rfl
      | some q => rw [straight_exit h1 e]; exact turns_exit h2
where
  straight_exit : ∀ {s : St} {q : Bool}, s.straight = true → s.exit false = some q → q = false
    | .skip, _, _, h => by cases h; rfl
    | .extrn _, _, _, h => by cases h; rfl
    | .auto _, _, _, h => by cases h
    | .expr _, _, _, h => by cases h
    | .seq s t, q, h, h' => by
      rw [St.straight, Bool.and_eq_true] at h
      rw [St.exit] at h'
      cases e : s.exit false with
      | none => rw [e] at h'; cases h'
      | some q' =>
        rw [e] at h'
        rw [straight_exit h.1 e] at h'
        exact straight_exit h.2 h'

theorem effective_of_exit : ∀ {s : St} {k r q : Bool}, s.exit r = some q → (k = true → q = true) → s.effective k = s
  | .ret _, false, _, _, _, _ => by simp only [St.effective]
  | .ret _, true, r, q, h, hk => by
    rw [St.exit] at h
    split at h
    · cases h; cases hk rfl
    · cases h
  | .seq s t, k, r, q, h, hk => by
    rw [St.exit] at h
    cases e : s.exit r with
    | none => rw [e] at h; cases h
    | some q1 =>
      rw [e] at h
      have h : t.exit q1 = some q := h
      rw [St.effective, effective_of_exit h hk, effective_of_exit e]
      intro ht
      rw [Bool.or_eq_true, Bool.and_eq_true] at ht
      cases q1 with
      | true => rfl
      | false =>
        rcases ht with ht | ⟨h1, h2⟩
        · rw [turns_exit ht] at h; cases h
        · rw [← hk h2, turns_exit.straight_exit h1 h]
  | .ifThen _ t, k, r, q, h, hk => by
    rw [St.exit] at h
    split at h
    · cases e : t.exit true with
      | none => rw [e] at h; cases h
      | some q1 => rw [St.effective, effective_of_exit e (by simp)]
    · cases h
  | .ifElse _ t e, k, r, q, h, hk => by
    rw [St.exit] at h
    split at h
    · cases e1 : t.exit true with
      | none => rw [e1] at h; cases h
      | some q1 =>
        rw [e1] at h
        cases e2 : e.exit true with
        | none => rw [e2] at h; cases h
        | some q2 => rw [St.effective, effective_of_exit e1 (by simp), effective_of_exit e2 (by simp)]
    · cases h
  | .while _ t, k, r, q, h, hk => by
    rw [St.exit] at h
    split at h
    · cases e : t.exit true with
      | none => rw [e] at h; cases h
      | some q1 => rw [St.effective, effective_of_exit e (by simp)]
    · cases h
  | .switch _ t, k, r, q, h, hk => by
    rw [St.exit] at h
    split at h
    · cases e : t.exit true with
      | none => rw [e] at h; cases h
      | some q1 => rw [St.effective, effective_of_exit e (by simp)]
    · cases h
  | .case _ s, k, r, q, h, hk => by
    rw [St.exit] at h
    rw [St.effective, effective_of_exit h hk]
  | .label _ s, k, r, q, h, hk => by
    rw [St.exit] at h
    rw [St.effective, effective_of_exit h hk]
  | .expr _, _, _, _, _, _ => rfl
  | .skip, _, _, _, _, _ => rfl
  | .auto _, _, _, _, _, _ => rfl
  | .extrn _, _, _, _, _, _ => rfl
  | .goto _, _, _, _, _, _ => rfl

/-- C16. If nothing follows a `return` in the same line of control, the effective program is the program itself. -/
theorem C16_effective_same {p : Program} (ht : p.Tame) : p.effective = p := by
  have h : ∀ d ∈ p, d.effective = d := by
    intro d hd
    cases d with
    | func f ps b =>
      have h1 := (ht.1 f ps b hd).exit
      cases e : b.exit true with
      | none => rw [e] at h1; cases h1
      | some q => rw [Decl.effective, effective_of_exit e (by simp)]
    | global x vs => rfl
    | vector x n vs => rfl
  unfold Program.effective
  rw [List.map_congr_left h, List.map_id']

/-- C16 is false in another way: in `main(){ return(1); f(); }` the function `f` is called before `main` returns 1. -/
theorem C16_code_behind_counterexample : ∃ m, compileText "main(){return(1); f();}".toList .eof = .ok m ∧
    ∀ (M : IRMachine) (X : Calls M.World) (σ : Store M.World),
      Module.Makes m M X (M.addr (symbolOf "main".toList)) [] σ (M.addr (symbolOf "f".toList)) [] σ ∧
      ∀ v σ1, X (M.addr (symbolOf "f".toList)) [] σ v σ1 →
        Module.Returns m M X (M.addr (symbolOf "main".toList)) [] σ 1 ⟨σ1.mem, M.leave σ.world σ1.world⟩ := by
  let F : Func := ⟨"main".toList, [], false, [⟨"entry".toList, [(0, .call (.func "b.f".toList true 0) [])], some (.ret (.const 1))⟩]⟩
  let m : Module := ⟨[], [F, ⟨"b.f".toList, [], true, []⟩]⟩
  refine ⟨m, compile_of_emitted (by decide +kernel), ?_⟩
  intro M X σ
  have hm : M.addr F.sym = M.addr (symbolOf "main".toList) := by congr 1
  constructor
  · rw [← hm]
    refine .own (f := F) (g := .start σ) (by simp [m]) (by simp [F]) .refl ?_
    refine ⟨_, 0, .func "b.f".toList true 0, [], rfl, rfl, ?_, rfl, rfl⟩
    intro s v n e
    cases e
    exact ⟨by decide, by decide⟩
  · intro v σ1 hx
    refine ⟨1, .inr ⟨F, by simp [m], by simp [F], hm, ?_⟩⟩
    have s1 := IRStep.inst (M := M) (R := Module.Call m M X 0) (bs := F.blocks) (args := []) (g := Cfg.start σ) rfl rfl
      (r := v) (va := []) (st := σ1) ⟨⟨[], rfl, hx⟩, rfl⟩
    exact ⟨_, .head s1 .refl, ⟨_, _, rfl, rfl, rfl, rfl⟩, rfl⟩

end Blang.Props
