import Verif.Spec.Else
import Verif.Props.Comments
import Verif.Props.Scope
/-
C93: the exact form of C02.
-/
namespace Blang.Props
open Blang Blang.Spec

theorem BlankElse.refl : ∀ a, BlankElse a a
  | [] => .nil
  | _ :: a => .keep (BlankElse.refl a)

theorem BlankElse.append {a b : List Char} (h : BlankElse a b) : ∀ l, BlankElse (l ++ a) (l ++ b)
  | [] => h
  | _ :: l => .keep (BlankElse.append h l)

/-- the first four characters are the same -/
theorem BlankElse.take {a b : List Char} (h : BlankElse a b) : ∀ k, k ≤ 4 → a.take k = b.take k := by
  induction h with
  | nil => intros; rfl
  | keep _ ih =>
    intro k hk
    cases k with
    | zero => rfl
    | succ k => rw [List.take_succ_cons, List.take_succ_cons, ih k (by omega)]
  | blank =>
    intro k hk
    match k, hk with
    | 0, _ | 1, _ | 2, _ | 3, _ | 4, _ => rfl

theorem BlankElse.notStarting {p : Char → Prop} {a b : List Char} (h : BlankElse a b) : NotStarting p a → NotStarting p b := by
  have := BlankElse.take h 1 (by omega)
  cases a <;> cases b <;> simp_all [NotStarting]

theorem BlankElse.maxMunch {s a b : List Char} (hs : s ∈ symbols) (h : BlankElse a b) : MaxMunch s a → MaxMunch s b := by
  intro hm x hx hp
  have : ∀ s ∈ symbols, ∀ x ∈ extensions s, x.length ≤ 4 := by decide
  have hl := this s hs x hx
  refine hm x hx ?_
  rw [List.prefix_iff_eq_take] at hp ⊢
  rw [BlankElse.take h _ hl]
  exact hp

theorem not_ident_blank : ¬ IdentChar ' ' := by decide

/-- one token -/
theorem soften_token {inp rest : List Char} {t : Tok} (h : Lexes true inp t rest) (ha : ∀ c ∈ inp, c.toNat < 128) {rest' : List Char}
    (hb : BlankElse rest rest') :
    ∃ inp', BlankElse inp inp' ∧ Lexes true inp' t rest' ∧ Same (Mode.run (.code []) inp') (Mode.run (.code []) rest') := by
  cases h with
  | @num ds _ h1 h2 h3 => exact ⟨ds ++ rest', BlankElse.append hb _, .num h1 h2 (BlankElse.notStarting hb h3),
      .of_eq (run_plain fun c hc => ident_plain (.inr (.inl (h2 c hc))))⟩
  | @chr t _ vs h1 h2 => exact ⟨'\'' :: t ++ '\'' :: rest', BlankElse.append (.keep hb) ('\'' :: t), .chr h1 h2, .of_eq (run_quoted (.inr rfl) h1)⟩
  | @str t _ vs h1 => exact ⟨'"' :: t ++ '"' :: rest', BlankElse.append (.keep hb) ('"' :: t), .str h1, .of_eq (run_quoted (.inl rfl) h1)⟩
  | @word w _ h1 h2 h3 => exact ⟨w ++ rest', BlankElse.append hb _, .word h1 h2 (BlankElse.notStarting hb h3), .of_eq (run_plain fun c hc => ident_plain (h2 c hc))⟩
  | @defn w _ h1 h2 h3 => exact ⟨w ++ rest', BlankElse.append hb _, .defn h1 h2 (BlankElse.notStarting hb h3), .of_eq (run_plain fun c hc => ident_plain (h2 c hc))⟩
  | @head w _ h1 h2 h3 h4 => exact ⟨w ++ rest', BlankElse.append hb _, .head h1 h2 (BlankElse.notStarting hb h3) h4,
      .of_eq (run_plain fun c hc => ident_plain (h2 c hc))⟩
  | @headQuirk w lay r w' _ hq h1 h2 h3 h4 hl he h5 h6 h7 =>
    have hw := utf8Bytes_ascii (w := w) fun c hc => ha c (by simp [hc])
    obtain ⟨x, rfl⟩ : rest <:+ r := by rw [hw] at he; exact split_head he h2 h7
    have hx : w ++ x = w' := by
      rw [hw, ← List.append_assoc] at he
      exact List.append_cancel_right he
    have hb' := BlankElse.append hb (lay ++ x)
    simp only [List.append_assoc] at hb'
    refine ⟨w ++ (lay ++ (x ++ rest')), BlankElse.append hb' w, .headQuirk hq h1 h2 (BlankElse.notStarting hb' h3) h4 hl ?_ h5 h6
      (BlankElse.notStarting hb h7), .of_eq ?_⟩
    · rw [hw, ← List.append_assoc, hx]
    · rw [run_plain fun c hc => ident_plain (h2 c hc), run_layout hl, run_plain fun c hc => ident_plain (h6 c (hx ▸ List.mem_append_right _ hc))]
  | @els c _ hc =>
    have h1 : Lexes true ('e' :: 'l' :: 's' :: 'e' :: c :: rest') .els rest' := .els hc
    refine ⟨_, BlankElse.append hb ['e', 'l', 's', 'e', c], h1, .of_eq (run_plain (w := ['e', 'l', 's', 'e', c]) ?_)⟩
    intro d hd
    simp only [List.mem_cons, List.not_mem_nil, or_false] at hd
    rcases hd with rfl | rfl | rfl | rfl | rfl
    · exact ident_plain (by decide)
    · exact ident_plain (by decide)
    · exact ident_plain (by decide)
    · exact ident_plain (by decide)
    · exact blank_plain hc
  | elsEnd =>
    cases hb
    exact ⟨_, BlankElse.refl _, .elsEnd, .of_eq (by decide)⟩
  | @elsQuirk c _ _ h1 h2 =>
    have h3 : Lexes true ('e' :: 'l' :: 's' :: 'e' :: ' ' :: rest') .els rest' := .els (by decide)
    refine ⟨_, .blank h1 h2 hb, h3, .of_eq (run_plain (w := ['e', 'l', 's', 'e', ' ']) ?_)⟩
    intro d hd
    simp only [List.mem_cons, List.not_mem_nil, or_false] at hd
    rcases hd with rfl | rfl | rfl | rfl | rfl
    · exact ident_plain (by decide)
    · exact ident_plain (by decide)
    · exact ident_plain (by decide)
    · exact ident_plain (by decide)
    · exact blank_plain (by decide)
  | @sym s _ h1 h2 => exact ⟨s ++ rest', BlankElse.append hb _, .sym h1 (BlankElse.maxMunch h1 hb h2), run_sym h1 (BlankElse.maxMunch h1 hb h2)⟩
  | @symNul s _ hq hsp =>
    have hm : MaxMunch s ('\x00' :: rest') := by
      intro x hx
      rcases hsp with rfl | rfl
      · have : extensions ['+'] = [['+']] := by decide
        rw [this] at hx; simp at hx; subst hx; simp
      · have : extensions ['-'] = [['-']] := by decide
        rw [this] at hx; simp at hx; subst hx; simp
    exact ⟨s ++ '\x00' :: rest', BlankElse.append (.keep hb) _, .symNul hq hsp,
      Same.trans (run_sym (by rcases hsp with rfl | rfl <;> decide) hm) (run_swallow (by decide))⟩

theorem soften_tokens {inp rest : List Char} {ts : List Tok} (h : TokSeq true inp ts rest) (ha : ∀ c ∈ inp, c.toNat < 128) :
    ∃ inp', BlankElse inp inp' ∧ TokSeq true inp' ts rest ∧ Same (Mode.run (.code []) inp') (Mode.run (.code []) rest) := by
  induction h with
  | @nil lay rest hl => exact ⟨_, BlankElse.refl _, .nil hl, .of_eq (run_layout hl)⟩
  | @cons lay inp mid rest t ts hl ht hn ih =>
    have hs := lexes_suffix ht fun c hc => ha c (by simp [hc])
    obtain ⟨mid', h1, h2, h3⟩ := ih fun c hc => ha c (by simp [hs.subset hc])
    obtain ⟨inp', h4, h5, h6⟩ := soften_token ht (fun c hc => ha c (by simp [hc])) h1
    exact ⟨lay ++ inp', BlankElse.append h4 _, .cons hl h5 h2, Same.trans (.of_eq (run_layout hl)) (Same.trans h6 h3)⟩

/-- C93. An accepted text does not end inside a comment, once some characters that stand directly behind an `else`, and that are neither letters
nor digits, are replaced by blanks; and the text with the blanks reads as the same program, the one the emitted code belongs to. -/
theorem C93_else {text : List Char} {t : Tail} {m : Module} (h : compileText text t = .ok m) (ha : ∀ c ∈ text, c.toNat < 128) :
    ∃ text' p, BlankElse text text' ∧ ¬ EndsInComment text' ∧ Reads true text' p ∧ TreeOf text p m := by
  obtain ⟨p, hp, _⟩ := accepted_tree h
  obtain ⟨ts, h1, h2⟩ := hp.1
  obtain ⟨text', h3, h4, h5⟩ := soften_tokens h1 ha
  refine ⟨text', p, h3, fun hc => ?_, ⟨ts, h4, h2⟩, hp⟩
  obtain ⟨s, hs⟩ := h5.1 hc
  cases hs

/-- C93: the text of `C02_else_counterexample`; with the blank it reads `if(1);else *f();` -/
example : (∃ m, compileText "main(){if(1);else/*f();}".toList .eof = .ok m) ∧ (∀ c ∈ "main(){if(1);else/*f();}".toList, c.toNat < 128) ∧
    BlankElse "main(){if(1);else/*f();}".toList "main(){if(1);else *f();}".toList :=
  ⟨C02_else_counterexample.2, by decide +kernel, BlankElse.append (.blank (by decide) (by decide) (BlankElse.refl _)) "main(){if(1);".toList⟩

end Blang.Props
