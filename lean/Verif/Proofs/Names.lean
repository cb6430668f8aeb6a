import Verif.Spec.Names
import Verif.Spec.Grammar
/-
Names of a program that was read from a text are names.
-/
namespace Blang
open Spec

/-- what the lexical structure guarantees about a token -/
def TokOk : Tok → Prop
  | .word w | .head w | .defn w => NameOk w
  | .num ds => ds ≠ [] ∧ ∀ c ∈ ds, Digit c
  | .chr vs => vs.length ≤ 8
  | .str vs => ∃ t, Items '"' t vs
  | _ => True

theorem lexes_tokOk {q : Bool} {a b : List Char} {t : Tok} (h : Lexes q a t b) : TokOk t := by
  cases h with
  | num h1 h2 _ => exact ⟨h1, h2⟩
  | chr _ h => exact h
  | str h => exact ⟨_, h⟩
  | word h1 h2 _ | defn h1 h2 _ => exact ⟨h1, h2⟩
  | head h1 h2 _ _ => exact ⟨by rintro rfl; exact h1, h2⟩
  | headQuirk _ _ _ _ _ _ _ h1 h2 _ => exact ⟨h1, h2⟩
  | els | elsEnd | elsQuirk | sym | symNul => trivial

theorem tokSeq_tokOk {q : Bool} {a b : List Char} {ts : List Tok} (h : TokSeq q a ts b) : ∀ t ∈ ts, TokOk t := by
  induction h with
  | nil _ => simp
  | cons _ h1 _ ih => simp only [List.mem_cons, forall_eq_or_imp]; exact ⟨lexes_tokOk h1, ih⟩

variable {pr : Bop → Nat}

mutual
theorem egram_names {L : Nat} {ts : List Tok} {e : Ex} (h : EGram pr L ts e) (ht : ∀ t ∈ ts, TokOk t) : e.All NameOk := by
  match h with
  | .num => trivial
  | .chr => trivial
  | .str => trivial
  | .var _ => exact ht _ (List.mem_singleton.2 rfl)
  | .paren h => exact (egram_names h fun t m => ht t (by simp [m]) :)
  | .index _ h1 h2 => exact ⟨egram_names h1 fun t m => ht t (by simp [m]), egram_names h2 fun t m => ht t (by simp [m])⟩
  | .callName (x := x) _ _ h2 => exact ⟨ht (.word x) (by simp), agram_names h2 fun t m => ht t (by simp [m])⟩
  | .call _ h1 _ h2 => exact ⟨egram_names h1 fun t m => ht t (by simp [m]), agram_names h2 fun t m => ht t (by simp [m])⟩
  | .post _ h => exact (egram_names h fun t m => ht t (by simp [m]) :)
  | .pre _ h => exact (egram_names h fun t m => ht t (by simp [m]) :)
  | .not _ h => exact (egram_names h fun t m => ht t (by simp [m]) :)
  | .neg _ h => exact (egram_names h fun t m => ht t (by simp [m]) :)
  | .deref _ h => exact (egram_names h fun t m => ht t (by simp [m]) :)
  | .addr _ h => exact (egram_names h fun t m => ht t (by simp [m]) :)
  | .bin _ h1 h2 => exact ⟨egram_names h1 fun t m => ht t (by simp [m]), egram_names h2 fun t m => ht t (by simp [m])⟩
  | .cond _ h1 h2 h3 => exact ⟨egram_names h1 fun t m => ht t (by simp [m]), egram_names h2 fun t m => ht t (by simp [m]),
      egram_names h3 fun t m => ht t (by simp [m])⟩
  | .assign _ h1 h2 => exact ⟨egram_names h1 fun t m => ht t (by simp [m]), egram_names h2 fun t m => ht t (by simp [m])⟩
  | .assignOp _ h1 h2 => exact ⟨egram_names h1 fun t m => ht t (by simp [m]), egram_names h2 fun t m => ht t (by simp [m])⟩

theorem agram_names {ts : List Tok} {es : List Ex} (h : AGram pr ts es) (ht : ∀ t ∈ ts, TokOk t) : Ex.AllArgs NameOk es := by
  match h with
  | .nil => trivial
  | .last h => exact ⟨egram_names h fun t m => ht t (by simp [m]), trivial⟩
  | .cons h1 h2 => exact ⟨egram_names h1 fun t m => ht t (by simp [m]), agram_names h2 fun t m => ht t (by simp [m])⟩
end

theorem dgram_names {ts : List Tok} {d : List Char × Option Word} (h : DGram ts d) (ht : ∀ t ∈ ts, TokOk t) : NameOk d.1 := by
  cases h <;> exact ht (.word _) (by simp)

theorem dsgram_names {ts : List Tok} {ds : List (List Char × Option Word)} (h : DsGram ts ds) (ht : ∀ t ∈ ts, TokOk t) :
    ∀ d ∈ ds, NameOk d.1 := by
  induction h with
  | last h => simp only [List.mem_singleton, forall_eq]; exact dgram_names h fun t m => ht t (by simp [m])
  | cons h1 _ ih =>
    simp only [List.mem_cons, forall_eq_or_imp]
    exact ⟨dgram_names h1 fun t m => ht t (by simp [m]), ih fun t m => ht t (by simp [m])⟩

theorem nsgram_names {c : List Char} {ts : List Tok} {xs : List (List Char)} (h : NsGram c ts xs) (ht : ∀ t ∈ ts, TokOk t) :
    ∀ x ∈ xs, NameOk x := by
  induction h with
  | last => simp only [List.mem_singleton, forall_eq]; exact ht (.word _) (by simp)
  | cons _ ih =>
    simp only [List.mem_cons, forall_eq_or_imp]
    exact ⟨ht (.word _) (by simp), ih fun t m => ht t (by simp [m])⟩

mutual
theorem sgram_names {q : Bool} {ts : List Tok} {s : St} (h : SGram pr q ts s) (ht : ∀ t ∈ ts, TokOk t) : s.All NameOk := by
  match h with
  | .block h => exact (ssgram_names h fun t m => ht t (by simp [m]) :)
  | .empty => trivial
  | .exprHead (x := x) h =>
    refine (?_ : Ex.All NameOk _)
    refine egram_names h fun t m => ?_
    rw [List.mem_cons] at m
    rcases m with rfl | m
    · exact ht (.head x) (by simp)
    · exact ht t (by simp [m])
  | .expr h _ => exact (egram_names h fun t m => ht t (by simp [m]) :)
  | .ret0 => trivial
  | .ret h => exact (egram_names h fun t m => ht t (by simp [m]) :)
  | .auto h => exact (dsgram_names h fun t m => ht t (by simp [m]) :)
  | .extrn h => exact (nsgram_names h fun t m => ht t (by simp [m]) :)
  | .ifThen h1 h2 => exact ⟨egram_names h1 fun t m => ht t (by simp [m]), sgram_names h2 fun t m => ht t (by simp [m])⟩
  | .ifElse h1 h2 _ h3 => exact ⟨egram_names h1 fun t m => ht t (by simp [m]), sgram_names h2 fun t m => ht t (by simp [m]),
      sgram_names h3 fun t m => ht t (by simp [m])⟩
  | .while h1 h2 => exact ⟨egram_names h1 fun t m => ht t (by simp [m]), sgram_names h2 fun t m => ht t (by simp [m])⟩
  | .switch h1 h2 _ => exact ⟨egram_names h1 fun t m => ht t (by simp [m]), sgram_names h2 fun t m => ht t (by simp [m])⟩
  | .case _ h => exact (sgram_names h fun t m => ht t (by simp [m]) :)
  | .label (l := l) _ _ h => exact ⟨ht (.word l) (by simp), sgram_names h fun t m => ht t (by simp [m])⟩
  | .goto (l := l) => exact ht (.word l) (by simp)

theorem ssgram_names {q : Bool} {ts : List Tok} {s : St} (h : SsGram pr q ts s) (ht : ∀ t ∈ ts, TokOk t) : s.All NameOk := by
  match h with
  | .nil => trivial
  | .cons h1 h2 => exact ⟨sgram_names h1 fun t m => ht t (by simp [m]), ssgram_names h2 fun t m => ht t (by simp [m])⟩
end

theorem declgram_names {ts : List Tok} {d : Decl} {q : Bool} (h : DeclGram pr q ts d) (ht : ∀ t ∈ ts, TokOk t) : d.All NameOk := by
  cases h with
  | global _ => exact ht (.defn _) (by simp)
  | vector _ _ => exact ht (.defn _) (by simp)
  | func h1 h2 =>
    refine ⟨ht (.defn _) (by simp), ?_, sgram_names h2 fun t m => ht t (by simp [m])⟩
    cases h1 with
    | none => simp
    | some h => exact (nsgram_names h fun t m => ht t (by simp [m]) :)

theorem proggram_names {ts : List Tok} {p : Program} {q : Bool} (h : ProgGram pr q ts p) (ht : ∀ t ∈ ts, TokOk t) :
    ∀ d ∈ p, d.All NameOk := by
  induction h with
  | nil => simp
  | cons h1 _ ih =>
    simp only [List.mem_cons, forall_eq_or_imp]
    exact ⟨declgram_names h1 fun t m => ht t (by simp [m]), ih fun t m => ht t (by simp [m])⟩

theorem reads_names {q : Bool} {text : List Char} {p : Program} (h : Reads q text p) : ∀ d ∈ p, d.All NameOk := by
  obtain ⟨ts, h1, h2⟩ := h
  exact proggram_names h2 (tokSeq_tokOk h1)

end Blang
