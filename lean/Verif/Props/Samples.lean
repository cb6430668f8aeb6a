import Verif.Proofs.Interp
import Verif.Props.Endless
import Verif.Props.Parsing
/-
Concrete programs that meet the hypotheses of the theorems in `Props/Semantics` and `Props/Endless`.

The sample program executes every kind of statement; its run is computed by the interpreter of
`Proofs/Interp` (whose results are runs as prescribed by `Spec/BSem`) and checked by the kernel.
-/
namespace Blang.Props
open Blang Blang.Spec

/-- the text of the sample program -/
def sampleText : List Char := List.flatten [
  "g;\n".toList,
  "t[3] 1, -2, 'a';\n".toList,
  "main() {\n".toList,
  "  auto i, v[3];\n".toList,
  "  extrn g;\n".toList,
  "  i = 0;\n".toList,
  "  while (i < 3) { v[i] = f(i, g); i++; }\n".toList,
  "  switch (i) { case 5: i = 0; }\n".toList,
  "  switch (i) { case 2: i = 9; case 3: i = 3; case 4: goto done; }\n".toList,
  "  i = 8;\n".toList,
  "done:\n".toList,
  "  if (i > 2) i =+ ext(20, \"hi\");\n".toList,
  "  if (i == 3) g = 1;\n".toList,
  "here:\n".toList,
  "  if (!i) return; else g = i ? i : -i;\n".toList,
  "  return ((f)(g, v[1] + 1));\n".toList,
  "}\n".toList,
  "f(a, b) { return (a * b + 1); }\n".toList,
  "loop() { while (1) ext(2); }\n".toList,
  "deep(n) { deep(n + 1); ext(n); }\n".toList,
  "first(a, b) { return (a); }\n".toList,
  "less(a, b) { return (a < b); }\n".toList,
  "zero(a) { return (!a); }\n".toList,
  "pass(a) { return (ext(a)); }\n".toList,
  "glob() { extrn g; return (g); }\n".toList,
  "func() { return (f); }\n".toList,
  "via() { extrn h; h = ext; return (h(7)); }\n".toList,
  "back() { return; }\n".toList,
  "idle() { }\n".toList]

/-- its tree -/
def sampleProg : Program := (refParse prec sampleText).getD []

/-- A machine: storage is reserved at increasing addresses and released on return; symbols are at
addresses computed from their characters. -/
def simM : IRMachine where
  World := Nat
  alloc w n := (BitVec.ofNat 64 w, w + n)
  leave w _ := w
  addr s := BitVec.ofNat 64 (2 ^ 63 + 16 * s.foldl (fun n c => (n * 128 + c.toNat) % 2 ^ 56) 0)

/-- The external functions: `ext` returns its first argument. -/
def simExt : Word → List Word → Store simM.toB.World → Option (Word × Store simM.toB.World) := fun a args s =>
  if a = simM.addr (symbolOf "ext".toList) then args.head?.map fun v => (v, s) else none

def simX : Calls simM.World := fun a args s v s' => simExt a args s = some (v, s')

/-- empty memory; storage from 4096 on is free -/
def simS : Store simM.World := ⟨fun _ => 0, (4096 : Nat)⟩

/-- no case of the block has an empty statement -/
def fullCases : St → Bool
  | .seq s t => fullCases s && fullCases t
  | .case _ .skip => false
  | .case _ s => fullCases s
  | .label _ s => fullCases s
  | _ => true

instance (a b : Word) : Decidable (Apart a b) := inferInstanceAs (Decidable (_ ∧ _))

/-- the kind of the statement that a state is about to execute -/
def kind : BState simM.World → Nat
  | .done _ _ => 0
  | .run P s k _ σ => match s with
    | .skip => match k with | .stop => 1 | .seq _ _ _ => 2 | .loop _ _ _ _ => 3
    | .seq _ _ => 4
    | .expr e => match e with | .assign (some _) _ _ => 5 | .assign none _ _ => 6 | _ => 7
    | .ret none => 8
    | .ret (some e) => (match e with
      | .bin _ _ _ => 19
      | .not _ => 20
      | .call _ _ => 22
      | .callName f _ => if f ∈ P.env.locals then 9 else if f ∈ P.env.exts then 28 else 21
      | .var x => if x ∈ P.env.locals then 23 else if x ∈ P.env.exts then 26 else 27
      | _ => 9)
    | .auto ds => if (ds.map (·.1)).Nodup ∧ (autoCells simM ds σ.world).Pairwise (fun a b => Apart b a) then 10 else 29
    | .extrn _ => 11
    | .ifThen _ t => match t with | .skip => 24 | _ => 12
    | .ifElse _ _ _ => 13
    | .while _ b => match b with | .skip => 25 | _ => 14
    | .switch _ b => if fullCases b then 15 else 31
    | .case _ _ => 16
    | .label _ _ => 17
    | .goto _ => 18

/-- the step number `j` of the call `f(args)` leads from a statement of kind `a` to one of kind `b`, and the call ends -/
def stepCheck (p : Program) (f : String) (args : List Word) (j a b : Nat) : Bool :=
  match definesI f.toList [] p with
  | none => false
  | some (ps, body, P) =>
    let call := callI p simM.toB simExt 40 2
    decide (ps.length ≤ args.length) &&
    match stepsI simM.toB call P body j (.entry simM.toB P ps body args simS) with
    | none => false
    | some x => kind x == a && match stepI simM.toB call P body x with
      | none => false
      | some y => kind y == b && (runI simM.toB call P body 60 y).isSome

def sampleSteps : List (String × List Word × Nat × Nat × Nat) :=
  [("main", [], 0, 4, 10), ("main", [], 1, 10, 2), ("main", [], 2, 2, 4), ("main", [], 4, 11, 2), ("main", [], 7, 6, 2), ("main", [], 10, 14, 4),
   ("main", [], 15, 7, 2), ("main", [], 17, 3, 14), ("main", [], 34, 14, 2), ("main", [], 37, 15, 2), ("main", [], 40, 15, 6), ("main", [], 44, 16, 18),
   ("main", [], 45, 18, 12), ("main", [], 46, 12, 5), ("main", [], 47, 5, 2), ("main", [], 50, 12, 2), ("main", [], 53, 17, 13), ("main", [], 54, 13, 6),
   ("main", [], 58, 22, 0), ("less", [1, 2], 1, 19, 0), ("zero", [0], 1, 20, 0), ("pass", [5], 1, 21, 0), ("glob", [], 4, 26, 0), ("func", [], 1, 27, 0),
   ("via", [], 7, 28, 0), ("back", [], 1, 8, 0), ("first", [8, 9], 1, 23, 0), ("idle", [], 0, 1, 0)]

def stepChecks (p : Program) : List (String × List Word × Nat × Nat × Nat) → Bool
  | [] => true
  | (f, as, j, a, b) :: l => stepCheck p f as j a b && stepChecks p l

set_option maxRecDepth 20000 in
theorem sample_checks : (refParse prec sampleText).isSome = true ∧ sampleProg.Tame ∧ sampleProg.Clear ∧
    (Program.Scoped Env.empty sampleProg ∧ ∀ d ∈ sampleProg, d.CasesOk) ∧
    stepChecks sampleProg sampleSteps = true := by
  decide +kernel

theorem simExt_sound : ∀ a vs s v s', simExt a vs s = some (v, s') → simX a vs s v s' := fun _ _ _ _ _ h => h

theorem careful_getD {text : List Char} (h : (refParse prec text).isSome = true) : Careful prec text ((refParse prec text).getD []) := by
  obtain ⟨p, hp⟩ := Option.isSome_iff_exists.1 h
  rw [hp]
  exact refParse_sound hp

theorem sampleProg_eq : sampleProg = (refParse prec sampleText).getD [] := rfl

attribute [irreducible] sampleProg sampleText

theorem sample_careful : Careful prec sampleText sampleProg := by
  rw [sampleProg_eq]; exact careful_getD sample_checks.1

theorem careful_module {text : List Char} {p : Program} (h : Careful prec text p) (hc : p.Clear)
    (hs : Program.Scoped Env.empty p ∧ ∀ d ∈ p, d.CasesOk) : ∃ m, compileText text .eof = .ok m ∧ TreeOf text p m := by
  obtain ⟨m, hm⟩ := (careful_accepted h hc).2 hs
  exact ⟨m, hm, (careful_tree h hc m).1 hm⟩

/-- The sample is accepted and its module is that of its tree; it meets the standing conditions. -/
theorem sample_module : ∃ m, compileText sampleText .eof = .ok m ∧ TreeOf sampleText sampleProg m :=
  careful_module sample_careful sample_checks.2.2.1 sample_checks.2.2.2.1

theorem sample_tame : sampleProg.Tame := sample_checks.2.1

/-- The call `f(args)` gets to `x`, makes a step to `y`, and comes to an end. -/
def GoesStep (p : Program) (f : String) (args : List Word) (x y : BState simM.World) : Prop :=
  (∃ v σ', p.Through simM.toB simX 2 f.toList args simS x y v σ') ∧
  ∃ ps body P, p.Defines f.toList ps body P ∧ BStep simM.toB (p.Call simM.toB simX 2) P body x y

theorem stepCheck_goes {p : Program} {f : String} {args : List Word} {j a b : Nat} (h : stepCheck p f args j a b = true) :
    ∃ x y, GoesStep p f args x y ∧ kind x = a ∧ kind y = b := by
  unfold stepCheck at h
  split at h
  case h_1 => cases h
  case h_2 ps body P hd =>
    simp only [Bool.and_eq_true, decide_eq_true_eq] at h
    obtain ⟨hl, h⟩ := h
    split at h
    case h_1 => cases h
    case h_2 x hx =>
      simp only [Bool.and_eq_true, beq_iff_eq] at h
      obtain ⟨ha, h⟩ := h
      split at h
      case h_1 => cases h
      case h_2 y hy =>
        simp only [Bool.and_eq_true, beq_iff_eq] at h
        obtain ⟨hb, h⟩ := h
        obtain ⟨⟨v, σ'⟩, hr⟩ := Option.isSome_iff_exists.1 h
        have hdef : p.Defines f.toList ps body P := (definesI_sound p []).1 hd
        have hc := callI_sound (p := p) (M := simM.toB) (X := simX) simExt_sound (k := 40) 2
        exact ⟨x, y, ⟨⟨v, σ', ps, body, P, hdef, hl, stepsI_sound hc j hx, runI_sound hc 60 hr⟩, ps, body, P, hdef, stepI_sound hc hy⟩, ha, hb⟩

theorem stepChecks_goes {p : Program} {f : String} {args : List Word} {j a b : Nat} {l : List (String × List Word × Nat × Nat × Nat)}
    (h : (f, args, j, a, b) ∈ l) (hc : stepChecks p l = true) : ∃ x y, GoesStep p f args x y ∧ kind x = a ∧ kind y = b := by
  induction l with
  | nil => cases h
  | cons y l ih =>
    obtain ⟨f', args', j', a', b'⟩ := y
    simp only [stepChecks, Bool.and_eq_true] at hc
    rw [List.mem_cons] at h
    rcases h with h | h
    · cases h; exact stepCheck_goes hc.1
    · exact ih h hc.2

theorem sample_pick {f : String} {args : List Word} {j a b : Nat} (h : (f, args, j, a, b) ∈ sampleSteps) :
    ∃ x y, GoesStep sampleProg f args x y ∧ kind x = a ∧ kind y = b :=
  stepChecks_goes h sample_checks.2.2.2.2

macro "by_kind" h:ident : tactic => `(tactic| (
  unfold kind at $h:ident
  repeat' split at $h:ident
  all_goals first
    | exact absurd $h (by decide)
    | exact ⟨_, _, rfl⟩
    | exact ⟨_, _, _, rfl⟩
    | exact ⟨_, _, _, _, rfl⟩
    | exact ⟨_, _, _, _, _, rfl⟩
    | exact ⟨_, _, _, _, _, _, rfl⟩
    | exact ⟨_, _, _, _, _, _, _, rfl⟩
    | exact ⟨_, _, _, _, _, _, ‹_›, rfl⟩
    | exact ⟨_, _, _, _, _, (‹_ ∧ _› : _ ∧ _).1, (‹_ ∧ _› : _ ∧ _).2, rfl⟩
    | exact ⟨_, _, _, _, _, ‹_›, rfl⟩
    | exact ⟨_, _, _, _, _, ‹_›, ‹_›, rfl⟩
    | exact ⟨_, _, _, _, _, _, ‹_›, ‹_›, rfl⟩))

section
variable {x : BState simM.World}
theorem kind_ifThen (h : kind x = 12) : ∃ P c t k ρ σ, t ≠ .skip ∧ x = .run P (.ifThen c t) k ρ σ := by by_kind h
theorem kind_ifElse (h : kind x = 13) : ∃ P c t e k ρ σ, x = .run P (.ifElse c t e) k ρ σ := by by_kind h
theorem kind_while (h : kind x = 14) : ∃ P c b k ρ σ, b ≠ .skip ∧ x = .run P (.while c b) k ρ σ := by by_kind h
theorem kind_switch (h : kind x = 15) : ∃ P c b k ρ σ, fullCases b = true ∧ x = .run P (.switch c b) k ρ σ := by by_kind h
theorem kind_case (h : kind x = 16) : ∃ P v s k ρ σ, x = .run P (.case v s) k ρ σ := by by_kind h
theorem kind_label (h : kind x = 17) : ∃ P l s k ρ σ, x = .run P (.label l s) k ρ σ := by by_kind h
theorem kind_goto (h : kind x = 18) : ∃ P l k ρ σ, x = .run P (.goto l) k ρ σ := by by_kind h
theorem kind_auto (h : kind x = 10) : ∃ P ds k ρ σ, (ds.map (·.1)).Nodup ∧ (autoCells simM ds σ.world).Pairwise (fun a b => Apart b a) ∧
    x = .run P (.auto ds) k ρ σ := by by_kind h
theorem kind_compound (h : kind x = 5) : ∃ P o l r k ρ σ, x = .run P (.expr (.assign (some o) l r)) k ρ σ := by by_kind h
theorem kind_bin (h : kind x = 19) : ∃ P o l r k ρ σ, x = .run P (.ret (some (.bin o l r))) k ρ σ := by by_kind h
theorem kind_not (h : kind x = 20) : ∃ P e k ρ σ, x = .run P (.ret (some (.not e))) k ρ σ := by by_kind h
theorem kind_callName (h : kind x = 21) : ∃ P f as k ρ σ, f ∉ P.env.locals ∧ f ∉ P.env.exts ∧ x = .run P (.ret (some (.callName f as))) k ρ σ := by by_kind h
theorem kind_callExt (h : kind x = 28) : ∃ P f as k ρ σ, f ∉ P.env.locals ∧ f ∈ P.env.exts ∧ x = .run P (.ret (some (.callName f as))) k ρ σ := by by_kind h
theorem kind_call (h : kind x = 22) : ∃ P f as k ρ σ, x = .run P (.ret (some (.call f as))) k ρ σ := by by_kind h
theorem kind_two (h : kind x = 2) : ∃ P k ρ σ, x = .run P .skip k ρ σ := by by_kind h
theorem kind_var (h : kind x = 23) : ∃ P y k ρ σ, y ∈ P.env.locals ∧ x = .run P (.ret (some (.var y))) k ρ σ := by by_kind h
theorem kind_varExt (h : kind x = 26) : ∃ P y k ρ σ, y ∉ P.env.locals ∧ y ∈ P.env.exts ∧ x = .run P (.ret (some (.var y))) k ρ σ := by by_kind h
theorem kind_varFun (h : kind x = 27) : ∃ P y k ρ σ, y ∉ P.env.locals ∧ y ∉ P.env.exts ∧ x = .run P (.ret (some (.var y))) k ρ σ := by by_kind h
theorem kind_ret0 (h : kind x = 8) : ∃ P k ρ σ, x = .run P (.ret none) k ρ σ := by by_kind h
theorem kind_stop (h : kind x = 1) : ∃ P ρ σ, x = .run P .skip .stop ρ σ := by by_kind h
theorem kind_next (h : kind x = 2) : ∃ P Q t k ρ σ, x = .run P .skip (.seq Q t k) ρ σ := by by_kind h
theorem kind_again (h : kind x = 3) : ∃ Q P c b k ρ σ, x = .run Q .skip (.loop P c b k) ρ σ := by by_kind h
theorem kind_seq (h : kind x = 4) : ∃ P s t k ρ σ, x = .run P (.seq s t) k ρ σ := by by_kind h
theorem kind_expr (h : kind x = 7) : ∃ P e k ρ σ, x = .run P (.expr e) k ρ σ := by by_kind h
theorem kind_done (h : kind x = 0) : ∃ v σ, x = .done v σ := by by_kind h
end


section
variable {M : BMachine} {R : Calls M.World} {P0 : Place} {body : St} {P : Place} {k : Cont} {ρ : Frame} {σ : Store M.World} {y : BState M.World}

theorem step_ifThen {c : Ex} {t : St} (h : BStep M R P0 body (.run P (.ifThen c t) k ρ σ) y) :
    (∃ v σ1, c.Value M R P ρ σ v σ1 ∧ v ≠ 0 ∧ y = .run (P.afterEx c) t k ρ σ1) ∨ (∃ σ1, c.Value M R P ρ σ 0 σ1 ∧ y = .run P .skip k ρ σ1) := by
  cases h with
  | ifTrue hv h0 => exact .inl ⟨_, _, hv, h0, rfl⟩
  | ifFalse hv h0 => subst h0; exact .inr ⟨_, hv, rfl⟩

theorem step_while {c : Ex} {b : St} (h : BStep M R P0 body (.run P (.while c b) k ρ σ) y) :
    (∃ v σ1, c.Value M R P ρ σ v σ1 ∧ v ≠ 0 ∧ y = .run (P.afterEx c) b (.loop P c b k) ρ σ1) ∨
    (∃ σ1, c.Value M R P ρ σ 0 σ1 ∧ y = .run P .skip k ρ σ1) := by
  cases h with
  | whileTrue hv h0 => exact .inl ⟨_, _, hv, h0, rfl⟩
  | whileFalse hv h0 => subst h0; exact .inr ⟨_, hv, rfl⟩

theorem step_ifElse {c : Ex} {t e : St} (h : BStep M R P0 body (.run P (.ifElse c t e) k ρ σ) y) :
    ∃ v σ1, c.Value M R P ρ σ v σ1 ∧ y = if v ≠ 0 then .run (P.afterEx c) t k ρ σ1 else .run ((P.afterEx c).after t) e k ρ σ1 := by
  cases h with
  | elseTrue hv h0 => exact ⟨_, _, hv, by rw [if_pos h0]⟩
  | elseFalse hv h0 => exact ⟨_, _, hv, by rw [if_neg (not_not_intro h0)]⟩

theorem step_switch {e : Ex} {b : St} (h : BStep M R P0 body (.run P (.switch e b) k ρ σ) y) :
    ∃ v σ1, e.Value M R P ρ σ v σ1 ∧ ((∃ Q s k', findCase v b (P.afterEx e) k = some (Q, s, k') ∧ y = .run Q s k' ρ σ1) ∨
      findCase v b (P.afterEx e) k = none ∧ y = .run P .skip k ρ σ1) := by
  cases h with
  | switchCase hv hf => exact ⟨_, _, hv, .inl ⟨_, _, _, hf, rfl⟩⟩
  | switchNone hv hf => exact ⟨_, _, hv, .inr ⟨hf, rfl⟩⟩

theorem step_goto {l : Ident} (h : BStep M R P0 body (.run P (.goto l) k ρ σ) y) :
    ∃ Q s k', findLabel l body P0 .stop = some (Q, s, k') ∧ y = .run Q s k' ρ σ := by
  cases h with
  | goto hf => exact ⟨_, _, _, hf, rfl⟩

theorem step_ret {e : Ex} (h : BStep M R P0 body (.run P (.ret (some e)) k ρ σ) y) : ∃ v σ1, e.Value M R P ρ σ v σ1 ∧ y = .done v σ1 := by
  cases h with
  | ret hv => exact ⟨_, _, hv, rfl⟩

theorem step_expr {e : Ex} (h : BStep M R P0 body (.run P (.expr e) k ρ σ) y) : ∃ v σ1, e.Value M R P ρ σ v σ1 ∧ y = .run P .skip k ρ σ1 := by
  cases h with
  | expr hv => exact ⟨_, _, hv, rfl⟩

theorem step_bin {e : Ex} {o : Bop} {x y : Ex} {v : Word} {σ1 : Store M.World} (he : e = .bin o x y) (h : e.Value M R P ρ σ v σ1) :
    ∃ a σ0 b, x.Value M R P ρ σ a σ0 ∧ y.Value M R ⟨P.env, P.lits + x.strings.length⟩ ρ σ0 b σ1 ∧ o.sem a b = some v := by
  subst he
  obtain ⟨d, ⟨d1, σ0, d2, w, h1, h2, h3, rfl⟩, rfl⟩ := h
  exact ⟨_, _, _, ⟨d1, h1, rfl⟩, ⟨d2, h2, rfl⟩, h3⟩
theorem step_seq {s t : St} (h : BStep M R P0 body (.run P (.seq s t) k ρ σ) y) : y = .run P s (.seq (P.after s) t k) ρ σ := by
  cases h; rfl
theorem step_next {Q : Place} {t : St} (h : BStep M R P0 body (.run P .skip (.seq Q t k) ρ σ) y) : y = .run Q t k ρ σ := by
  cases h; rfl
theorem step_again {Q : Place} {c : Ex} {b : St} (h : BStep M R P0 body (.run Q .skip (.loop P c b k) ρ σ) y) : y = .run P (.while c b) k ρ σ := by
  cases h; rfl
theorem step_case {w : Word} {s : St} (h : BStep M R P0 body (.run P (.case w s) k ρ σ) y) : y = .run P s k ρ σ := by
  cases h; rfl
theorem step_auto {ds : List (Ident × Option Word)} (h : BStep M R P0 body (.run P (.auto ds) k ρ σ) y) :
    y = .run P .skip k (declare M ds ρ σ).1 (declare M ds ρ σ).2 := by
  cases h; rfl

theorem findCase_full {v : Word} {b : St} (hb : fullCases b = true) {k' : Cont} : ∀ {P Q : Place} {s : St} {k : Cont},
    findCase v b P k = some (Q, s, k') → s ≠ .skip := by
  induction b with
  | seq s t ih1 ih2 =>
    intro P Q u k h
    simp only [fullCases, Bool.and_eq_true] at hb
    simp only [findCase, Option.or_eq_some_iff] at h
    rcases h with h | ⟨_, h⟩
    · exact ih1 hb.1 h
    · exact ih2 hb.2 h
  | case w s ih =>
    intro P Q u k h
    have hs : s ≠ .skip ∧ fullCases s = true := by cases s <;> simp_all [fullCases]
    simp only [findCase] at h
    split at h
    · cases h; exact hs.1
    · exact ih hs.2 h
  | label l s ih => intro P Q u k h; exact ih hb h
  | _ => intro P Q u k h; simp [findCase] at h

theorem value_compound {o : Bop} {x y : Ex} {v : Word} {σ' : Store M.World} (h : Ex.Value M R (.assign (some o) x y) P ρ σ v σ') :
    ∃ a σ1 d σ2, x.Eval M R P.env ρ P.lits σ (.cell a) σ1 ∧ y.Eval M R P.env ρ (P.lits + x.strings.length) σ1 d σ2 ∧
      o.sem (loadW σ2.mem a) (d.value σ2.mem) = some v ∧ σ' = σ2.store a v := by
  obtain ⟨r, ⟨a, σ1, d, σ2, w, h1, h2, h3, rfl, rfl⟩, rfl⟩ := h
  exact ⟨_, _, _, _, h1, h2, h3, rfl⟩
theorem value_not {e : Ex} {v : Word} {σ' : Store M.World} (h : Ex.Value M R (.not e) P ρ σ v σ') : ∃ a, e.Value M R P ρ σ a σ' := by
  obtain ⟨r, ⟨d, h1, rfl⟩, rfl⟩ := h
  exact ⟨_, _, h1, rfl⟩
theorem value_call {g : Ex} {as : List Ex} {v : Word} {σ' : Store M.World} (h : Ex.Value M R (.call g as) P ρ σ v σ') :
    ∃ a σ0 vs σ1, g.Value M R P ρ σ a σ0 ∧ Ex.EvalArgs M R P.env ρ as (P.lits + g.strings.length) σ0 vs σ1 ∧ R a vs σ1 v σ' := by
  obtain ⟨r, ⟨d, σ0, vs, σ1, w, h1, h2, h3, rfl⟩, rfl⟩ := h
  exact ⟨_, _, _, _, ⟨_, h1, rfl⟩, h2, h3⟩
theorem value_callName {f : Ident} {as : List Ex} {v : Word} {σ' : Store M.World} (h1 : f ∉ P.env.locals) (h2 : f ∉ P.env.exts)
    (h : Ex.Value M R (.callName f as) P ρ σ v σ') :
    ∃ vs σ1, Ex.EvalArgs M R P.env ρ as P.lits σ vs σ1 ∧ R (M.global f) vs σ1 v σ' := by
  obtain ⟨r, ⟨d, vs, σ1, w, hn, h4, h3, rfl⟩, rfl⟩ := h
  simp [nameRes, h1, h2] at hn
  subst hn
  exact ⟨_, _, h4, h3⟩
theorem value_callExt {f : Ident} {as : List Ex} {v : Word} {σ' : Store M.World} (h1 : f ∉ P.env.locals) (h2 : f ∈ P.env.exts)
    (h : Ex.Value M R (.callName f as) P ρ σ v σ') :
    ∃ vs σ1, Ex.EvalArgs M R P.env ρ as P.lits σ vs σ1 ∧ R (loadW σ.mem (M.global f)) vs σ1 v σ' := by
  obtain ⟨r, ⟨d, vs, σ1, w, hn, h4, h3, rfl⟩, rfl⟩ := h
  simp [nameRes, h1, h2] at hn
  subst hn
  exact ⟨_, _, h4, h3⟩
theorem value_local {x : Ident} {v : Word} {σ' : Store M.World} (h1 : x ∈ P.env.locals) (h : Ex.Value M R (.var x) P ρ σ v σ') : ∃ a, ρ x = some a := by
  obtain ⟨r, ⟨hn, rfl⟩, rfl⟩ := h
  simp [nameRes, h1] at hn
  obtain ⟨a, ha, _⟩ := hn
  exact ⟨a, ha⟩
end

theorem kind_skip {Q : Place} {k : Cont} {ρ : Frame} {σ : Store simM.World} : kind (.run Q .skip k ρ σ) ∈ [1, 2, 3] := by cases k <;> simp [kind]

/-! ### Beside the theorems of `Props/Semantics`: at a state of a run of the sample that comes to an end their hypotheses hold. -/

/-- what calls in the sample do -/
abbrev sampleCalls : Calls simM.World := sampleProg.Call simM.toB simX 2

/-- `y` follows `x` in a run of the sample that ends -/
abbrev SampleThrough (f : String) (args : List Word) (x y : BState simM.World) : Prop :=
  ∃ v σ', sampleProg.Through simM.toB simX 2 f.toList args simS x y v σ'

/-- `x` is a state of a call of the sample -/
abbrev SampleReaches (f : String) (args : List Word) (x : BState simM.World) : Prop :=
  sampleProg.Reaches simM.toB simX 2 f.toList args simS x

theorem GoesStep.reaches {p : Program} {f : String} {args : List Word} {x y : BState simM.World} (h : GoesStep p f args x y) :
    p.Reaches simM.toB simX 2 f.toList args simS x := by
  obtain ⟨⟨v, σ', ps, body, P, h1, h2, h3, _⟩, _⟩ := h
  exact ⟨ps, body, P, h1, h2, h3⟩

/-- C15_if_true -/
example : ∃ P c t k ρ σ σ1 v, Ex.Value simM.toB sampleCalls c P ρ σ v σ1 ∧ v ≠ 0 ∧
    SampleThrough "main" [] (.run P (.ifThen c t) k ρ σ) (.run (P.afterEx c) t k ρ σ1) := by
  obtain ⟨x, y, hg, hx, hy⟩ := sample_pick (f := "main") (args := []) (j := 46) (a := 12) (b := 5) (by simp [sampleSteps])
  obtain ⟨P, c, t, k, ρ, σ, _, rfl⟩ := kind_ifThen hx
  obtain ⟨ht, _, _, _, _, hs⟩ := hg
  rcases step_ifThen hs with ⟨v, σ1, hv, h0, rfl⟩ | ⟨σ1, hv, rfl⟩
  · exact ⟨_, _, _, _, _, _, _, _, hv, h0, ht⟩
  · exact absurd (hy ▸ kind_skip) (by simp)

/-- C15_if_false -/
example : ∃ P c t k ρ σ σ1, Ex.Value simM.toB sampleCalls c P ρ σ 0 σ1 ∧
    SampleThrough "main" [] (.run P (.ifThen c t) k ρ σ) (.run P .skip k ρ σ1) := by
  obtain ⟨x, y, hg, hx, hy⟩ := sample_pick (f := "main") (args := []) (j := 50) (a := 12) (b := 2) (by simp [sampleSteps])
  obtain ⟨P, c, t, k, ρ, σ, h1, rfl⟩ := kind_ifThen hx
  obtain ⟨ht, _, _, _, _, hs⟩ := hg
  rcases step_ifThen hs with ⟨v, σ1, hv, h0, rfl⟩ | ⟨σ1, hv, rfl⟩
  · obtain ⟨_, _, _, _, h⟩ := kind_two hy
    cases h; exact absurd rfl h1
  · exact ⟨_, _, _, _, _, _, _, hv, ht⟩

/-- C15_control_flow -/
example : ∃ v σ', SampleReaches "main" [] (.done v σ') := by
  obtain ⟨x, y, hg, hx, hy⟩ := sample_pick (f := "main") (args := []) (j := 58) (a := 22) (b := 0) (by simp [sampleSteps])
  obtain ⟨v, σ, rfl⟩ := kind_done hy
  obtain ⟨⟨_, _, ps', body', P', hd', h2, h3, _⟩, ps, body, P, hd, hs⟩ := hg
  obtain ⟨rfl, rfl, rfl⟩ := defines_unique hd hd'
  exact ⟨_, _, _, _, _, hd, h2, bsteps_trans h3 (.head hs .refl)⟩

/-- C15_if_else -/
example : ∃ P c t e k ρ σ σ1 v, Ex.Value simM.toB sampleCalls c P ρ σ v σ1 ∧ SampleThrough "main" [] (.run P (.ifElse c t e) k ρ σ)
    (if v ≠ 0 then .run (P.afterEx c) t k ρ σ1 else .run ((P.afterEx c).after t) e k ρ σ1) := by
  obtain ⟨x, y, hg, hx, hy⟩ := sample_pick (f := "main") (args := []) (j := 54) (a := 13) (b := 6) (by simp [sampleSteps])
  obtain ⟨P, c, t, e, k, ρ, σ, rfl⟩ := kind_ifElse hx
  obtain ⟨ht, _, _, _, _, hs⟩ := hg
  obtain ⟨v, σ1, hv, rfl⟩ := step_ifElse hs
  exact ⟨_, _, _, _, _, _, _, _, _, hv, ht⟩

/-- C15_while_true -/
example : ∃ P c b k ρ σ σ1 v, Ex.Value simM.toB sampleCalls c P ρ σ v σ1 ∧ v ≠ 0 ∧
    SampleThrough "main" [] (.run P (.while c b) k ρ σ) (.run (P.afterEx c) b (.loop P c b k) ρ σ1) := by
  obtain ⟨x, y, hg, hx, hy⟩ := sample_pick (f := "main") (args := []) (j := 10) (a := 14) (b := 4) (by simp [sampleSteps])
  obtain ⟨P, c, t, k, ρ, σ, _, rfl⟩ := kind_while hx
  obtain ⟨ht, _, _, _, _, hs⟩ := hg
  rcases step_while hs with ⟨v, σ1, hv, h0, rfl⟩ | ⟨σ1, hv, rfl⟩
  · exact ⟨_, _, _, _, _, _, _, _, hv, h0, ht⟩
  · exact absurd (hy ▸ kind_skip) (by simp)

/-- C15_while_again -/
example : ∃ Q P c b k ρ σ, SampleThrough "main" [] (.run Q .skip (.loop P c b k) ρ σ) (.run P (.while c b) k ρ σ) := by
  obtain ⟨x, y, hg, hx, hy⟩ := sample_pick (f := "main") (args := []) (j := 17) (a := 3) (b := 14) (by simp [sampleSteps])
  obtain ⟨Q, P, c, b, k, ρ, σ, rfl⟩ := kind_again hx
  obtain ⟨ht, _, _, _, _, hs⟩ := hg
  obtain rfl := step_again hs
  exact ⟨_, _, _, _, _, _, _, ht⟩

/-- C15_while_false -/
example : ∃ P c b k ρ σ σ1, Ex.Value simM.toB sampleCalls c P ρ σ 0 σ1 ∧
    SampleThrough "main" [] (.run P (.while c b) k ρ σ) (.run P .skip k ρ σ1) := by
  obtain ⟨x, y, hg, hx, hy⟩ := sample_pick (f := "main") (args := []) (j := 34) (a := 14) (b := 2) (by simp [sampleSteps])
  obtain ⟨P, c, t, k, ρ, σ, h1, rfl⟩ := kind_while hx
  obtain ⟨ht, _, _, _, _, hs⟩ := hg
  rcases step_while hs with ⟨v, σ1, hv, h0, rfl⟩ | ⟨σ1, hv, rfl⟩
  · obtain ⟨_, _, _, _, h⟩ := kind_two hy
    cases h; exact absurd rfl h1
  · exact ⟨_, _, _, _, _, _, _, hv, ht⟩

/-- C15_block -/
example : ∃ P s t k ρ σ, SampleThrough "main" [] (.run P (.seq s t) k ρ σ) (.run P s (.seq (P.after s) t k) ρ σ) := by
  obtain ⟨x, y, hg, hx, hy⟩ := sample_pick (f := "main") (args := []) (j := 0) (a := 4) (b := 10) (by simp [sampleSteps])
  obtain ⟨P, s, t, k, ρ, σ, rfl⟩ := kind_seq hx
  obtain ⟨ht, _, _, _, _, hs⟩ := hg
  obtain rfl := step_seq hs
  exact ⟨_, _, _, _, _, _, ht⟩

/-- C15_next -/
example : ∃ P Q t k ρ σ, SampleThrough "main" [] (.run P .skip (.seq Q t k) ρ σ) (.run Q t k ρ σ) := by
  obtain ⟨x, y, hg, hx, hy⟩ := sample_pick (f := "main") (args := []) (j := 2) (a := 2) (b := 4) (by simp [sampleSteps])
  obtain ⟨P, Q, t, k, ρ, σ, rfl⟩ := kind_next hx
  obtain ⟨ht, _, _, _, _, hs⟩ := hg
  obtain rfl := step_next hs
  exact ⟨_, _, _, _, _, _, ht⟩

/-- C11_value, C16_return_partial and C34_pointer: `return ((f)(g, v[1] + 1))` -/
example : ∃ P g as k ρ σ σ0 σ1 σ2 a vs v, Ex.Value simM.toB sampleCalls (.call g as) P ρ σ v σ2 ∧
    Ex.Value simM.toB sampleCalls g P ρ σ a σ0 ∧ Ex.EvalArgs simM.toB sampleCalls P.env ρ as (P.lits + g.strings.length) σ0 vs σ1 ∧
    sampleCalls a vs σ1 v σ2 ∧ SampleReaches "main" [] (.run P (.ret (some (.call g as))) k ρ σ) := by
  obtain ⟨x, y, hg, hx, hy⟩ := sample_pick (f := "main") (args := []) (j := 58) (a := 22) (b := 0) (by simp [sampleSteps])
  obtain ⟨P, f, as, k, ρ, σ, rfl⟩ := kind_call hx
  have hr := hg.reaches
  obtain ⟨ht, _, _, _, _, hs⟩ := hg
  obtain ⟨v, σ1, hv, rfl⟩ := step_ret hs
  obtain ⟨a, σ0, vs, σ3, h1, h2, h3⟩ := value_call hv
  exact ⟨_, _, _, _, _, _, _, _, _, _, _, _, hv, h1, h2, h3, hr⟩

/-- C11_effects: `i++` -/
example : ∃ P e k ρ σ σ1 v, Ex.Value simM.toB sampleCalls e P ρ σ v σ1 ∧
    SampleThrough "main" [] (.run P (.expr e) k ρ σ) (.run P .skip k ρ σ1) := by
  obtain ⟨x, y, hg, hx, hy⟩ := sample_pick (f := "main") (args := []) (j := 15) (a := 7) (b := 2) (by simp [sampleSteps])
  obtain ⟨P, e, k, ρ, σ, rfl⟩ := kind_expr hx
  obtain ⟨ht, _, _, _, _, hs⟩ := hg
  obtain ⟨v, σ1, hv, rfl⟩ := step_expr hs
  exact ⟨_, _, _, _, _, _, _, hv, ht⟩

/-- C12_compound: `i =+ ext(20, "hi")` -/
example : ∃ P o x y k ρ σ σ1 σ2 a d v, Ex.Eval simM.toB sampleCalls P.env ρ x P.lits σ (.cell a) σ1 ∧
    Ex.Eval simM.toB sampleCalls P.env ρ y (P.lits + x.strings.length) σ1 d σ2 ∧ o.sem (loadW σ2.mem a) (d.value σ2.mem) = some v ∧
    SampleThrough "main" [] (.run P (.expr (.assign (some o) x y)) k ρ σ) (.run P .skip k ρ (σ2.store a v)) := by
  obtain ⟨x, y, hg, hx, hy⟩ := sample_pick (f := "main") (args := []) (j := 47) (a := 5) (b := 2) (by simp [sampleSteps])
  obtain ⟨P, o, l, r, k, ρ, σ, rfl⟩ := kind_compound hx
  obtain ⟨ht, _, _, _, _, hs⟩ := hg
  obtain ⟨v, σ1, hv, rfl⟩ := step_expr hs
  obtain ⟨a, σ0, d, σ2, h1, h2, h3, rfl⟩ := value_compound hv
  exact ⟨_, _, _, _, _, _, _, _, _, _, _, _, h1, h2, h3, ht⟩

/-- C14_comparison: `a < b` with `a` 1 and `b` 2 -/
example : ∃ P o x y k ρ σ σ1 σ2 v w, Ex.Value simM.toB sampleCalls x P ρ σ v σ1 ∧
    Ex.Value simM.toB sampleCalls y ⟨P.env, P.lits + x.strings.length⟩ ρ σ1 w σ2 ∧
    SampleReaches "less" [1, 2] (.run P (.ret (some (.bin o x y))) k ρ σ) := by
  obtain ⟨x, y, hg, hx, hy⟩ := sample_pick (f := "less") (args := [1, 2]) (j := 1) (a := 19) (b := 0) (by simp [sampleSteps])
  obtain ⟨P, o, l, r, k, ρ, σ, rfl⟩ := kind_bin hx
  have hr := hg.reaches
  obtain ⟨ht, _, _, _, _, hs⟩ := hg
  obtain ⟨v, σ1, hv, rfl⟩ := step_ret hs
  obtain ⟨a, σ0, b, h1, h2, _⟩ := step_bin rfl hv
  exact ⟨_, _, _, _, _, _, _, _, _, _, _, h1, h2, hr⟩

/-- C14_not -/
example : ∃ P e k ρ σ σ1 v, Ex.Value simM.toB sampleCalls e P ρ σ v σ1 ∧ SampleReaches "zero" [0] (.run P (.ret (some (.not e))) k ρ σ) := by
  obtain ⟨x, y, hg, hx, hy⟩ := sample_pick (f := "zero") (args := [0]) (j := 1) (a := 20) (b := 0) (by simp [sampleSteps])
  obtain ⟨P, e, k, ρ, σ, rfl⟩ := kind_not hx
  have hr := hg.reaches
  obtain ⟨ht, _, _, _, _, hs⟩ := hg
  obtain ⟨v, σ1, hv, rfl⟩ := step_ret hs
  obtain ⟨a, h1⟩ := value_not hv
  exact ⟨_, _, _, _, _, _, _, h1, hr⟩

/-- C16_return_nothing_partial -/
example : ∃ P k ρ σ, SampleReaches "back" [] (.run P (.ret none) k ρ σ) := by
  obtain ⟨x, y, hg, hx, hy⟩ := sample_pick (f := "back") (args := []) (j := 1) (a := 8) (b := 0) (by simp [sampleSteps])
  obtain ⟨P, k, ρ, σ, rfl⟩ := kind_ret0 hx
  exact ⟨_, _, _, _, hg.reaches⟩

/-- C16_fall_off_partial -/
example : ∃ P ρ σ, SampleReaches "idle" [] (.run P .skip .stop ρ σ) := by
  obtain ⟨x, y, hg, hx, hy⟩ := sample_pick (f := "idle") (args := []) (j := 0) (a := 1) (b := 0) (by simp [sampleSteps])
  obtain ⟨P, ρ, σ, rfl⟩ := kind_stop hx
  exact ⟨_, _, _, hg.reaches⟩

/-- C17_switch: with a case of the value -/
example : ∃ P e b k ρ σ σ1 v, Ex.Value simM.toB sampleCalls e P ρ σ v σ1 ∧ v ∈ b.cases ∧
    ∀ Q s k', findCase v b (P.afterEx e) k = some (Q, s, k') →
    SampleThrough "main" [] (.run P (.switch e b) k ρ σ) (.run Q s k' ρ σ1) := by
  obtain ⟨x, y, hg, hx, hy⟩ := sample_pick (f := "main") (args := []) (j := 40) (a := 15) (b := 6) (by simp [sampleSteps])
  obtain ⟨P, e, b, k, ρ, σ, hb, rfl⟩ := kind_switch hx
  obtain ⟨ht, _, _, _, _, hs⟩ := hg
  obtain ⟨v, σ1, hv, h | ⟨_, rfl⟩⟩ := step_switch hs
  · obtain ⟨Q, s, k', hf, rfl⟩ := h
    refine ⟨P, e, b, k, ρ, σ, σ1, v, hv, Classical.byContradiction fun hc => ?_, fun Q' s' k'' hf' => ?_⟩
    · rw [findCase_none.2 hc] at hf; cases hf
    · rw [hf] at hf'; cases hf'; exact ht
  · exact absurd (hy ▸ kind_skip) (by simp)

/-- C17_no_case -/
example : ∃ P e b k ρ σ σ1 v, Ex.Value simM.toB sampleCalls e P ρ σ v σ1 ∧ v ∉ b.cases ∧
    SampleThrough "main" [] (.run P (.switch e b) k ρ σ) (.run P .skip k ρ σ1) := by
  obtain ⟨x, y, hg, hx, hy⟩ := sample_pick (f := "main") (args := []) (j := 37) (a := 15) (b := 2) (by simp [sampleSteps])
  obtain ⟨P, e, b, k, ρ, σ, hb, rfl⟩ := kind_switch hx
  obtain ⟨ht, _, _, _, _, hs⟩ := hg
  obtain ⟨v, σ1, hv, ⟨Q, s, k', hf, rfl⟩ | ⟨hf, rfl⟩⟩ := step_switch hs
  · obtain ⟨_, _, _, _, h⟩ := kind_two hy
    cases h; exact absurd rfl (findCase_full hb hf)
  · exact ⟨_, _, _, _, _, _, _, _, hv, findCase_none.1 hf, ht⟩

/-- C17_fall_through -/
example : ∃ P w s k ρ σ, SampleThrough "main" [] (.run P (.case w s) k ρ σ) (.run P s k ρ σ) := by
  obtain ⟨x, y, hg, hx, hy⟩ := sample_pick (f := "main") (args := []) (j := 44) (a := 16) (b := 18) (by simp [sampleSteps])
  obtain ⟨P, v, s, k, ρ, σ, rfl⟩ := kind_case hx
  obtain ⟨ht, _, _, _, _, hs⟩ := hg
  obtain rfl := step_case hs
  exact ⟨_, _, _, _, _, _, ht⟩

/-- C18_goto -/
example : ∃ ps body P0 P Q l s k k' ρ σ v σ', sampleProg.Defines "main".toList ps body P0 ∧
    findLabel l body P0 .stop = some (Q, s, k') ∧
    sampleProg.Through simM.toB simX 2 "main".toList [] simS (.run P (.goto l) k ρ σ) (.run Q s k' ρ σ) v σ' := by
  obtain ⟨x, y, hg, hx, hy⟩ := sample_pick (f := "main") (args := []) (j := 45) (a := 18) (b := 12) (by simp [sampleSteps])
  obtain ⟨P, l, k, ρ, σ, rfl⟩ := kind_goto hx
  obtain ⟨⟨v, σ', ht⟩, ps, body, P0, hd, hs⟩ := hg
  obtain ⟨Q, s, k', hf, rfl⟩ := step_goto hs
  exact ⟨_, _, _, _, _, _, _, _, _, _, _, _, _, hd, hf, ht⟩

/-- C34_function: `return (ext(a))` -/
example : ∃ P f as k ρ σ σ1 σ2 vs v, ¬ P.env.Var f ∧ Ex.EvalArgs simM.toB sampleCalls P.env ρ as P.lits σ vs σ1 ∧
    sampleCalls (simM.addr (symbolOf f)) vs σ1 v σ2 ∧ SampleReaches "pass" [5] (.run P (.ret (some (.callName f as))) k ρ σ) := by
  obtain ⟨x, y, hg, hx, hy⟩ := sample_pick (f := "pass") (args := [5]) (j := 1) (a := 21) (b := 0) (by simp [sampleSteps])
  obtain ⟨P, f, as, k, ρ, σ, h1, h2, rfl⟩ := kind_callName hx
  have hr := hg.reaches
  obtain ⟨ht, _, _, _, _, hs⟩ := hg
  obtain ⟨v, σ1, hv, rfl⟩ := step_ret hs
  obtain ⟨vs, σ3, h3, h4⟩ := value_callName h1 h2 hv
  exact ⟨_, _, _, _, _, _, _, _, _, _, fun h => h.elim h1 h2, h3, h4, hr⟩

/-- C34_extrn_partial: `extrn h; h = ext; return (h(7))` -/
example : ∃ P f as k ρ σ σ1 σ2 vs v, f ∈ P.env.exts ∧ f ∉ P.env.locals ∧ Ex.EvalArgs simM.toB sampleCalls P.env ρ as P.lits σ vs σ1 ∧
    sampleCalls (loadW σ.mem (simM.addr (symbolOf f))) vs σ1 v σ2 ∧
    SampleReaches "via" [] (.run P (.ret (some (.callName f as))) k ρ σ) := by
  obtain ⟨x, y, hg, hx, hy⟩ := sample_pick (f := "via") (args := []) (j := 7) (a := 28) (b := 0) (by simp [sampleSteps])
  obtain ⟨P, f, as, k, ρ, σ, h1, h2, rfl⟩ := kind_callExt hx
  have hr := hg.reaches
  obtain ⟨ht, _, _, _, _, hs⟩ := hg
  obtain ⟨v, σ1, hv, rfl⟩ := step_ret hs
  obtain ⟨vs, σ3, h3, h4⟩ := value_callExt h1 h2 hv
  exact ⟨_, _, _, _, _, _, _, _, _, _, h2, h1, h3, h4, hr⟩

/-- C33_auto -/
example : ∃ P ds k ρ σ, (ds.map (·.1)).Nodup ∧ (autoCells simM ds σ.world).Pairwise (fun a b => Apart b a) ∧
    SampleThrough "main" [] (.run P (.auto ds) k ρ σ) (.run P .skip k (declare simM.toB ds ρ σ).1 (declare simM.toB ds ρ σ).2) := by
  obtain ⟨x, y, hg, hx, hy⟩ := sample_pick (f := "main") (args := []) (j := 1) (a := 10) (b := 2) (by simp [sampleSteps])
  obtain ⟨P, ds, k, ρ, σ, h1, h2, rfl⟩ := kind_auto hx
  obtain ⟨ht, _, _, _, _, hs⟩ := hg
  obtain rfl := step_auto hs
  exact ⟨_, _, _, _, _, h1, h2, ht⟩

/-- C23_local -/
example : ∃ P x k ρ σ a, x ∈ P.env.locals ∧ ρ x = some a ∧ SampleReaches "first" [8, 9] (.run P (.ret (some (.var x))) k ρ σ) := by
  obtain ⟨x, y, hg, hx, hy⟩ := sample_pick (f := "first") (args := [8, 9]) (j := 1) (a := 23) (b := 0) (by simp [sampleSteps])
  obtain ⟨P, z, k, ρ, σ, h1, rfl⟩ := kind_var hx
  have hr := hg.reaches
  obtain ⟨ht, _, _, _, _, hs⟩ := hg
  obtain ⟨v, σ1, hv, rfl⟩ := step_ret hs
  obtain ⟨a, ha⟩ := value_local h1 hv
  exact ⟨_, _, _, _, _, _, h1, ha, hr⟩

/-- C23_extrn -/
example : ∃ P x k ρ σ, x ∉ P.env.locals ∧ x ∈ P.env.exts ∧ SampleReaches "glob" [] (.run P (.ret (some (.var x))) k ρ σ) := by
  obtain ⟨x, y, hg, hx, hy⟩ := sample_pick (f := "glob") (args := []) (j := 4) (a := 26) (b := 0) (by simp [sampleSteps])
  obtain ⟨P, z, k, ρ, σ, h1, h2, rfl⟩ := kind_varExt hx
  exact ⟨_, _, _, _, _, h1, h2, hg.reaches⟩

/-- C23_function -/
example : ∃ P x k ρ σ, x ∉ P.env.locals ∧ x ∉ P.env.exts ∧ SampleReaches "func" [] (.run P (.ret (some (.var x))) k ρ σ) := by
  obtain ⟨x, y, hg, hx, hy⟩ := sample_pick (f := "func") (args := []) (j := 1) (a := 27) (b := 0) (by simp [sampleSteps])
  obtain ⟨P, z, k, ρ, σ, h1, h2, rfl⟩ := kind_varFun hx
  exact ⟨_, _, _, _, _, h1, h2, hg.reaches⟩

/-- C30_arguments: the machine reserves cells that do not overlap, here for two parameters -/
example : (simM.paramCells simS.world 2).1.Pairwise fun a b => Apart b a := by decide +kernel

end Blang.Props
