import Verif.Proofs.Precedence
import Verif.Proofs.UniqueSt
import Verif.Proofs.Render
import Verif.Proofs.ClearStmt
import Verif.Props.Semantics
/-
Properties C10, C31, C32 and acceptance of texts (C13, C21, C22): what the compiler reads.

The documented language is in Verif/Spec/Tokens.lean and Verif/Spec/Grammar.lean (with `quirks =
false` and the operator levels `docPrec`); Verif/Spec/Careful.lean and Verif/Spec/Precedence.lean
describe the texts that the compiler reads as documented: `Careful`, `Program.Clear`,
`Program.Unmixed`.
-/
namespace Blang.Props
open Blang Blang.Spec

/-- The module of a careful text is the one generated from its tree. -/
theorem carefulE_tree {text : List Char} {p : Program} (h : CarefulE prec text p) (hc : p.Clear) (m : Module) :
    compileText text .eof = .ok m ↔ TreeOf text p m := by
  obtain ⟨h1, h2⟩ := compileText_complete h hc
  constructor
  · intro hm
    refine ⟨carefulE_reads h, ?_⟩
    cases hg : genProg p newCompiler with
    | ok a c =>
      refine ⟨c, rfl, ?_⟩
      have := h1 c hg
      rw [hm] at this
      cases this; rfl
    | err e =>
      obtain ⟨e', he⟩ := h2 e hg
      rw [hm] at he; cases he
  · rintro ⟨_, c, hg, rfl⟩
    exact h1 c hg

theorem careful_tree {text : List Char} {p : Program} (h : Careful prec text p) (hc : p.Clear) (m : Module) :
    compileText text .eof = .ok m ↔ TreeOf text p m :=
  carefulE_tree (careful_E h) hc m

/-- The compiler accepts a careful text exactly when its tree obeys the static rules of
Verif/Spec/Scope.lean. -/
theorem careful_accepted {text : List Char} {p : Program} (h : Careful prec text p) (hc : p.Clear) :
    (∃ m, compileText text .eof = .ok m) ↔ Program.Scoped Env.empty p ∧ ∀ d ∈ p, d.CasesOk := by
  rw [← C13_trees_accepted_iff p (reads_names (careful_reads h))]
  constructor
  · rintro ⟨m, hm⟩
    obtain ⟨_, c, hg, _⟩ := (careful_tree h hc m).1 hm
    exact ⟨c, hg⟩
  · rintro ⟨c, hg⟩
    exact ⟨_, (compileText_complete (careful_E h) hc).1 c hg⟩

/-- The module of an accepted careful text is the one generated from its tree; a careful text is accepted only if
no name of a function stands directly before `==` or an assignment operator. -/
theorem carefulE_iff {text : List Char} {p : Program} (h : CarefulE prec text p) (m : Module) :
    compileText text .eof = .ok m ↔ TreeOf text p m ∧ p.Clear :=
  ⟨fun hm => have hc := Fine.compileText_clear h hm; ⟨(carefulE_tree h hc m).1 hm, hc⟩, fun hm => (carefulE_tree h hm.2 m).2 hm.1⟩

theorem careful_iff {text : List Char} {p : Program} (h : Careful prec text p) (m : Module) :
    compileText text .eof = .ok m ↔ TreeOf text p m ∧ p.Clear := carefulE_iff (careful_E h) m

theorem careful_accepted_iff {text : List Char} {p : Program} (h : Careful prec text p) :
    (∃ m, compileText text .eof = .ok m) ↔ (Program.Scoped Env.empty p ∧ ∀ d ∈ p, d.CasesOk) ∧ p.Clear := by
  constructor
  · rintro ⟨m, hm⟩
    have hc := ((careful_iff h m).1 hm).2
    exact ⟨(careful_accepted h hc).1 ⟨m, hm⟩, hc⟩
  · rintro ⟨h1, hc⟩
    exact (careful_accepted h hc).2 h1

/-! ## C10 -/

/-- C10. A token sequence has at most one tree in the documented grammar. -/
theorem C10_one_tree {ts : List Tok} {p p' : Program} (h : ProgGram docPrec false ts p) (h' : ProgGram docPrec false ts p') : p = p' :=
  proggram_unique docPrec_bounds h h'

/-- C10. The same for a single expression. -/
theorem C10_one_tree_expr {ts : List Tok} {e e' : Ex} (h : EGram docPrec 15 ts e) (h' : EGram docPrec 15 ts e') : e = e' :=
  egram_unique docPrec_bounds h h'

/-- C10. The module generated for a text is that of its tree in the documented grammar.  Missing: texts in
which a relational operator has an unparenthesised shift as its right operand (`Unmixed`; see
`C10_shift_counterexample`) and texts that are not careful (see C31). -/
theorem C10_tree_partial {text : List Char} {p : Program} {m : Module} (h : Careful docPrec text p) (hu : p.Unmixed)
    (hm : compileText text .eof = .ok m) : TreeOf text p m :=
  ((careful_iff (careful_prec h hu) m).1 hm).1

/-- C10. Hence the module does what the tree means: whatever the program prescribes for a call of a
function is what calling it in the module does. -/
theorem C10_meaning_partial {text : List Char} {p : Program} {m : Module} (h : Careful docPrec text p) (hu : p.Unmixed)
    (hm : compileText text .eof = .ok m) (ht : p.Tame) : Implements m p :=
  tree_implements (C10_tree_partial h hu hm) ht

/-- C10. Binary operators of one level associate to the left: `a o b o' c` is `(a o b) o' c`. -/
theorem C10_left {ts us vs : List Tok} {a b c e : Ex} {o o' : Bop} (ha : EGram docPrec 2 ts a) (hb : EGram docPrec 2 us b)
    (hc : EGram docPrec 2 vs c) (ho : docPrec o ≤ docPrec o') (h : EGram docPrec 15 (ts ++ .sym o.text :: us ++ .sym o'.text :: vs) e) :
    e = .bin o' (.bin o a b) c := by
  have b1 := docPrec_bounds o
  have b2 := docPrec_bounds o'
  refine egram_unique docPrec_bounds h (.bin (by omega) (.bin ho (ha.mono (by omega)) (hb.mono (by omega))) (hc.mono (by omega)))

/-- C10. An operator that binds tighter comes first: `a o b o' c` is `a o (b o' c)`. -/
theorem C10_tighter {ts us vs : List Tok} {a b c e : Ex} {o o' : Bop} (ha : EGram docPrec 2 ts a) (hb : EGram docPrec 2 us b)
    (hc : EGram docPrec 2 vs c) (ho : docPrec o' < docPrec o) (h : EGram docPrec 15 (ts ++ .sym o.text :: us ++ .sym o'.text :: vs) e) :
    e = .bin o a (.bin o' b c) := by
  have b1 := docPrec_bounds o
  have b2 := docPrec_bounds o'
  have := EGram.bin (pr := docPrec) (o := o) (L := 15) (by omega) (ha.mono (by omega : 2 ≤ docPrec o))
    (EGram.bin (o := o') (L := docPrec o - 1) (by omega) (hb.mono (by omega : 2 ≤ docPrec o')) (hc.mono (by omega)))
  exact egram_unique docPrec_bounds h (by simpa using this)

/-- C10. Assignment associates to the right: `a = b = c` is `a = (b = c)`. -/
theorem C10_assign {ts us vs : List Tok} {a b c e : Ex} (ha : EGram docPrec 2 ts a) (hb : EGram docPrec 2 us b)
    (hc : EGram docPrec 14 vs c) (h : EGram docPrec 15 (ts ++ .sym ['='] :: us ++ .sym ['='] :: vs) e) :
    e = .assign none a (.assign none b c) := by
  have := EGram.assign (pr := docPrec) (L := 15) (by omega) ha (EGram.assign (by omega) hb hc)
  exact egram_unique docPrec_bounds h (by simpa using this)

/-- C10. `?:` associates to the right: `a ? b : c ? d : e` is `a ? b : (c ? d : e)`. -/
theorem C10_cond {ts us vs ws xs : List Tok} {a b c d e x : Ex} (ha : EGram docPrec 12 ts a) (hb : EGram docPrec 12 us b)
    (hc : EGram docPrec 12 vs c) (hd : EGram docPrec 12 ws d) (he : EGram docPrec 13 xs e)
    (h : EGram docPrec 15 (ts ++ .sym ['?'] :: us ++ .sym [':'] :: vs ++ .sym ['?'] :: ws ++ .sym [':'] :: xs) x) :
    x = .cond a b (.cond c d e) := by
  have := EGram.cond (pr := docPrec) (L := 15) (by omega) ha hb (EGram.cond (by omega) hc hd he)
  exact egram_unique docPrec_bounds h (by simpa using this)

/-- C10 is false for shifts to the right of a relational operator: `a < b << c` is compiled as
`(a < b) << c`. -/
theorem C10_shift_counterexample : ∃ m m', compileText "f(a,b,c){return(a<b<<c);}".toList .eof = .ok m ∧
    compileText "f(a,b,c){return((a<b)<<c);}".toList .eof = .ok m ∧
    compileText "f(a,b,c){return(a<(b<<c));}".toList .eof = .ok m' ∧ m ≠ m' := by
  have h1 : emitted "f(a,b,c){return(a<b<<c);}" = emitted "f(a,b,c){return((a<b)<<c);}" := by decide +kernel
  have h2 : emitted "f(a,b,c){return(a<b<<c);}" ≠ emitted "f(a,b,c){return(a<(b<<c));}" := by decide +kernel
  have h3 : (emitted "f(a,b,c){return(a<b<<c);}").isSome = true := by decide +kernel
  have h4 : (emitted "f(a,b,c){return(a<(b<<c));}").isSome = true := by decide +kernel
  obtain ⟨m, hm⟩ := Option.isSome_iff_exists.1 h3
  obtain ⟨m', hm'⟩ := Option.isSome_iff_exists.1 h4
  exact ⟨m, m', compile_of_emitted hm, compile_of_emitted (h1 ▸ hm), compile_of_emitted hm', fun e => h2 (by rw [hm, hm', e])⟩

/-- tokens `f(a,b,c){ a = b = a + b * c << 2 < c; }` with layout -/
def sampleExpr : List (Tok × List Char) :=
  [(.defn ['f'], []), (.sym ['('], [' ']), (.word ['a'], []), (.sym [','], [' ']), (.word ['b'], []), (.sym [','], []), (.word ['c'], []),
   (.sym [')'], ['\n']), (.sym ['{'], [' ']), (.head ['a'], [' ']), (.sym ['='], [' ']), (.word ['b'], [' ']), (.sym ['='], []),
   (.word ['a'], []), (.sym ['+'], [' ']), (.word ['b'], []), (.sym ['*'], []), (.word ['c'], [' ']), (.sym ['<', '<'], []),
   (.num ['2'], [' ']), (.sym ['<'], [' ']), (.word ['c'], []), (.sym [';'], [' ']), (.sym ['}'], ['\n'])]

/-- its tree -/
def sampleExprTree : Program :=
  [.func ['f'] [['a'], ['b'], ['c']] (.seq (.expr (.assign none (.var ['a']) (.assign none (.var ['b'])
    (.bin .lt (.bin .shl (.bin .add (.var ['a']) (.bin .mul (.var ['b']) (.var ['c']))) (.num 2)) (.var ['c']))))) .skip)]

theorem sampleExpr_gram : ProgGram docPrec false (sampleExpr.map (·.1)) sampleExprTree := by
  have la : StartsLetter ['a'] := by decide
  have lb : StartsLetter ['b'] := by decide
  have lc : StartsLetter ['c'] := by decide
  refine ProgGram.cons (us := []) (.func (ts := [.word ['a'], .sym [','], .word ['b'], .sym [','], .word ['c'], .sym [')']])
    (.some (.cons (.cons .last))) (.block (.cons (us := [.sym ['}']]) (.exprHead (x := ['a'])
      (ts := [.sym ['='], .word ['b'], .sym ['='], .word ['a'], .sym ['+'], .word ['b'], .sym ['*'], .word ['c'], .sym ['<', '<'],
        .num ['2'], .sym ['<'], .word ['c']]) ?_) .nil))) .nil
  refine EGram.assign (ts := [.word ['a']]) (by decide) (.var la) (EGram.assign (ts := [.word ['b']]) (by decide) (.var lb) ?_)
  refine EGram.bin (o := .lt) (ts := [.word ['a'], .sym ['+'], .word ['b'], .sym ['*'], .word ['c'], .sym ['<', '<'], .num ['2']]) (us := [.word ['c']])
    (by decide) ?_ (.var lc)
  refine EGram.bin (o := .shl) (ts := [.word ['a'], .sym ['+'], .word ['b'], .sym ['*'], .word ['c']]) (us := [.num ['2']])
    (by decide) ?_ .num
  refine EGram.bin (o := .add) (ts := [.word ['a']]) (us := [.word ['b'], .sym ['*'], .word ['c']]) (by decide) (.var la) ?_
  exact EGram.bin (o := .mul) (ts := [.word ['b']]) (us := [.word ['c']]) (by decide) (.var lb) (.var lc)

/-- The hypotheses of `C10_tree_partial` are met by a text whose tree needs all the rules. -/
example : ∃ m, Careful docPrec (['\n'] ++ render sampleExpr) sampleExprTree ∧ sampleExprTree.Unmixed ∧
    compileText (['\n'] ++ render sampleExpr) .eof = .ok m := by
  have h1 : sampleExprTree.Clear := by
    simp [sampleExprTree, Program.Clear, Program.ClearIn, Decl.Clear, St.Clear, Ex.Clear]
  have h2 : sampleExprTree.Unmixed := by
    simp [sampleExprTree, Program.Unmixed, Decl.Unmixed, St.Unmixed, Ex.Unmixed, Ex.IsShift, Bop.Shift]
  have h3 : Careful docPrec (['\n'] ++ render sampleExpr) sampleExprTree :=
    ⟨_, spaced_render (by decide +kernel) (by decide +kernel), sampleExpr_gram⟩
  obtain ⟨m, hm⟩ := (careful_accepted (careful_prec h3 h2) h1).2 (by
    simp [sampleExprTree, Program.Scoped, Decl.Scoped, Decl.CasesOk, St.CasesOk, St.Scoped, Ex.Wf, Ex.Lvalue, Env.Var, Env.enter, Env.empty])
  exact ⟨m, h3, h2, hm⟩

/-! ## C89: the levels of the compiler -/

/-- C89. With the levels of the compiler (shifts and relational operators are on one level) a token sequence has at most one tree, ... -/
theorem C89_one_tree {ts : List Tok} {p p' : Program} (h : ProgGram prec false ts p) (h' : ProgGram prec false ts p') : p = p' :=
  proggram_unique prec_bounds h h'

/-- C89. ... a careful text is accepted with the module `m` if and only if `m` is the code of this tree and no name of a function stands directly
before `==` or an assignment operator, ... -/
theorem C89_grouping {text : List Char} {p : Program} (h : Careful prec text p) (m : Module) :
    compileText text .eof = .ok m ↔ TreeOf text p m ∧ p.Clear := careful_iff h m

/-- C89. ... and of two operators of that level the left one comes first: `a o b o' c` is `(a o b) o' c`. -/
theorem C89_shift_relation {ts us vs : List Tok} {a b c e : Ex} {o o' : Bop} (ho : o.Shift ∨ o.Rel) (ho' : o'.Shift ∨ o'.Rel)
    (ha : EGram prec 2 ts a) (hb : EGram prec 2 us b) (hc : EGram prec 2 vs c)
    (h : EGram prec 15 (ts ++ .sym o.text :: us ++ .sym o'.text :: vs) e) : e = .bin o' (.bin o a b) c := by
  have e1 : prec o = 6 := by
    rcases ho with (h | h) | (h | h | h | h) <;> rw [h] <;> rfl
  have e2 : prec o' = 6 := by
    rcases ho' with (h | h) | (h | h | h | h) <;> rw [h] <;> rfl
  refine egram_unique prec_bounds h (.bin (by omega) (.bin (by omega) (ha.mono (by omega)) (hb.mono (by omega))) (hc.mono (by omega)))

/-- the hypotheses are met by `a < b << c` -/
example : ∃ e, EGram prec 15 ([.word ['a']] ++ .sym (Bop.text .lt) :: [.word ['b']] ++ .sym (Bop.text .shl) :: [.word ['c']]) e :=
  ⟨_, .bin (o := .shl) (by decide) (.bin (o := .lt) (by decide) (.var (by simp [StartsLetter, Letter])) (.var (by simp [StartsLetter, Letter]))) (.var (by simp [StartsLetter, Letter]))⟩

/-! ## C13, C21, C22 for texts -/

/-- C13, C21, C22. A careful text is accepted exactly when its tree obeys the static rules and no name of a function stands
directly before `==` or an assignment operator. -/
theorem C13_texts_accepted_iff {text : List Char} {p : Program} (h : Careful prec text p) :
    (∃ m, compileText text .eof = .ok m) ↔ (Program.Scoped Env.empty p ∧ ∀ d ∈ p, d.CasesOk) ∧ p.Clear :=
  careful_accepted_iff h

/-- C13. The last condition is not vacuous: `f == main` for two functions is rejected although both names are known (and
`f != main` is accepted). -/
theorem C13_function_compared : (∃ e, compileText "f(){} main(){return(f==main);}".toList .eof = .error e) ∧
    ∃ m, compileText "f(){} main(){return(f!=main);}".toList .eof = .ok m := by
  have h1 : (emitted "f(){} main(){return(f!=main);}").isSome = true := by decide +kernel
  have h2 : emitted "f(){} main(){return(f==main);}" = none := by decide +kernel
  obtain ⟨m, hm⟩ := Option.isSome_iff_exists.1 h1
  refine ⟨?_, ⟨m, compile_of_emitted hm⟩⟩
  simp only [emitted] at h2
  cases h : compileText "f(){} main(){return(f==main);}".toList .eof with
  | error e => exact ⟨e, rfl⟩
  | ok m => rw [h] at h2; cases h2

/-- C21. A careful text that obeys the other rules is accepted exactly when its `case`s are well placed. -/
theorem C21_text_iff {text : List Char} {p : Program} (h : Careful prec text p) (hc : p.Clear) (hs : Program.Scoped Env.empty p) :
    (∃ m, compileText text .eof = .ok m) ↔ ∀ f ps b, Decl.func f ps b ∈ p → b.CasesOk false := by
  rw [careful_accepted h hc]
  constructor
  · intro h f ps b hm; exact h.2 _ hm
  · intro h
    refine ⟨hs, fun d hd => ?_⟩
    cases d with
    | func f ps b => exact h f ps b hd
    | _ => trivial

/-- C21. A careful text with a misplaced or repeated `case` is rejected, whatever else is wrong with it. -/
theorem C21_text_rejected {text : List Char} {p : Program} (h : Careful prec text p) {f : Ident} {ps : List Ident} {b : St}
    (hm : Decl.func f ps b ∈ p) (hx : ¬ b.CasesOk false) : ∃ e, compileText text .eof = .error e := by
  cases ho : compileText text .eof with
  | error e => exact ⟨e, rfl⟩
  | ok m => exact absurd (((careful_accepted_iff h).1 ⟨m, ho⟩).1.2 _ hm) hx

/-- C22. A careful text in which an `auto` name clashes with another `auto` name or a parameter of its function
is rejected. -/
theorem C22_text_rejected {text : List Char} {p : Program} (h : Careful prec text p) {f : Ident} {ps : List Ident} {b : St}
    (hm : Decl.func f ps b ∈ p) (hx : ¬ (b.autos.Nodup ∧ ∀ x ∈ b.autos, x ∉ ps)) : ∃ e, compileText text .eof = .error e := by
  cases ho : compileText text .eof with
  | error e => exact ⟨e, rfl⟩
  | ok m =>
    obtain ⟨⟨h1, _⟩, _⟩ := (careful_accepted_iff h).1 ⟨m, ho⟩
    obtain ⟨E', k1, k2, k3⟩ := scoped_func h1 hm
    exact absurd (k1 ▸ st_autos b k3) hx

/-! ## C31 -/

/-- C31. Two careful layouts of the same tokens are accepted or rejected together, and yield the same
module.  Missing: layout in the places excluded by `Tight` and directly after `else`, and names excluded by `Plain`
(all described in Verif/Spec/Careful.lean); see the counterexamples. -/
theorem C31_layout_partial {text text' : List Char} {ts : List Tok} {p : Program} (h : Spaced text ts) (h' : Spaced text' ts)
    (hg : ProgGram prec false ts p) (m : Module) : compileText text .eof = .ok m ↔ compileText text' .eof = .ok m := by
  rw [careful_iff ⟨ts, h, hg⟩, careful_iff ⟨ts, h', hg⟩]
  constructor
  · rintro ⟨⟨_, h⟩, hc⟩; exact ⟨⟨careful_reads ⟨ts, h', hg⟩, h⟩, hc⟩
  · rintro ⟨⟨_, h1⟩, hc⟩; exact ⟨⟨careful_reads ⟨ts, h, hg⟩, h1⟩, hc⟩

/-- C31. In particular layout can be put before and after the text. -/
theorem C31_around_partial {text lay : List Char} {ts : List Tok} {p : Program} (h : Text text ts) (hl : Layout lay)
    (hg : ProgGram prec false ts p) (m : Module) : compileText text .eof = .ok m ↔ compileText (lay ++ text) .eof = .ok m :=
  C31_layout_partial ⟨[], text, rfl, .nil, h⟩ ⟨lay, text, rfl, hl, h⟩ hg m

/-- C31 is false for a blank between the parentheses of a call without arguments. -/
theorem C31_call_counterexample : (∃ m, compileText "main(){f();}".toList .eof = .ok m) ∧
    ∃ e, compileText "main(){f( );}".toList .eof = .error e := by
  have h1 : (emitted "main(){f();}").isSome = true := by decide +kernel
  have h2 : emitted "main(){f( );}" = none := by decide +kernel
  obtain ⟨m, hm⟩ := Option.isSome_iff_exists.1 h1
  refine ⟨⟨m, compile_of_emitted hm⟩, ?_⟩
  simp only [emitted] at h2
  cases h : compileText "main(){f( );}".toList .eof with
  | error e => exact ⟨e, rfl⟩
  | ok m => rw [h] at h2; cases h2

/-- C31 is false for a blank between the name and the parenthesis of a definition. -/
theorem C31_definition_counterexample : (∃ m, compileText "main(){}".toList .eof = .ok m) ∧
    ∃ e, compileText "main (){}".toList .eof = .error e := by
  have h1 : (emitted "main(){}").isSome = true := by decide +kernel
  have h2 : emitted "main (){}" = none := by decide +kernel
  obtain ⟨m, hm⟩ := Option.isSome_iff_exists.1 h1
  refine ⟨⟨m, compile_of_emitted hm⟩, ?_⟩
  simp only [emitted] at h2
  cases h : compileText "main (){}".toList .eof with
  | error e => exact ⟨e, rfl⟩
  | ok m => rw [h] at h2; cases h2

/-- Two tokens are not kept apart by a blank at the beginning of an expression statement: `a b = 1;` is
read as `ab = 1;`. -/
theorem C31_merge_counterexample : ∃ m, compileText "main(){auto ab; a b = 1;}".toList .eof = .ok m ∧
    compileText "main(){auto ab; ab = 1;}".toList .eof = .ok m := by
  have h1 : emitted "main(){auto ab; a b = 1;}" = emitted "main(){auto ab; ab = 1;}" := by decide +kernel
  have h3 : (emitted "main(){auto ab; a b = 1;}").isSome = true := by decide +kernel
  obtain ⟨m, hm⟩ := Option.isSome_iff_exists.1 h3
  exact ⟨m, compile_of_emitted hm, compile_of_emitted (h1 ▸ hm)⟩

/-- the hypotheses of `C31_layout_partial` are met by different layouts of the same tokens -/
example : Spaced (['\n'] ++ render sampleExpr) (sampleExpr.map (·.1)) ∧
    Spaced ([] ++ render (sampleExpr.map fun x => (x.1, []))) (sampleExpr.map (·.1)) ∧
    ['\n'] ++ render sampleExpr = "\nf( a, b,c)\n{ a = b =a+ b*c <<2 < c; }\n".toList ∧
    render (sampleExpr.map fun x => (x.1, [])) = "f(a,b,c){a=b=a+b*c<<2<c;}".toList := by
  refine ⟨spaced_render (by decide +kernel) (by decide +kernel), ?_, by decide +kernel, by decide +kernel⟩
  have := spaced_render (r := sampleExpr.map fun x => (x.1, [])) (lay := []) (by decide +kernel) (by decide +kernel)
  simpa [Function.comp_def] using this

/-! ## C32 -/

/-- C32. `if (c) t else e`: the whole statement `e` belongs to this `if`, when `t` does not itself end in an `if` without `else`. -/
theorem C32_else {ts us vs : List Tok} {c : Ex} {t e s : St} (hc : EGram prec 15 ts c) (ht : SGram prec false us t) (ho : openIf t = false)
    (he : SGram prec false vs e)
    (h : SGram prec false (.word "if".toList :: .sym ['('] :: ts ++ .sym [')'] :: us ++ .els :: vs) s) : s = .ifElse c t e :=
  (sgram_uni prec_bounds h (us := []) (us' := []) (.ifElse hc ht ho he) rfl (fun _ => by rintro ⟨r, e⟩; simp at e)
    (fun _ => by rintro ⟨r, e⟩; simp at e)).1

/-- C32. `if (c) if (d) t else e`: `else` belongs to the nearest `if`. -/
theorem C32_nearest {ts us vs ws : List Tok} {c d : Ex} {t e s : St} (hc : EGram prec 15 ts c) (hd : EGram prec 15 us d)
    (ht : SGram prec false vs t) (ho : openIf t = false) (he : SGram prec false ws e)
    (h : SGram prec false (.word "if".toList :: .sym ['('] :: ts ++ .sym [')'] ::
      (.word "if".toList :: .sym ['('] :: us ++ .sym [')'] :: vs ++ .els :: ws)) s) :
    s = .ifThen c (.ifElse d t e) :=
  (sgram_uni prec_bounds h (us := []) (us' := []) (.ifThen hc (.ifElse hd ht ho he)) rfl (fun _ => by rintro ⟨r, e⟩; simp at e)
    (fun _ => by rintro ⟨r, e⟩; simp at e)).1

/-- C32. Without `else` the statements after `if (c) t` are as if it were not there. -/
theorem C32_no_else {ts us vs : List Tok} {c : Ex} {t r s : St} (hc : EGram prec 15 ts c) (ht : SGram prec false us t)
    (hr : SsGram prec false vs r)
    (h : SsGram prec false ((.word "if".toList :: .sym ['('] :: ts ++ .sym [')'] :: us) ++ vs) s) : s = .seq (.ifThen c t) r :=
  (ssgram_uni prec_bounds h (us := []) (us' := []) (.cons (.ifThen hc ht) hr) rfl).1

/-- C32. The compiler reads a careful text according to its tree in this grammar (in which `else` belongs to the
nearest `if`: `C32_else`, `C32_nearest`, `C32_no_else`).  Missing: a character other than a blank directly after `else`. -/
theorem C32_tree_partial {text : List Char} {ts : List Tok} {p : Program} {m : Module} (h : Spaced text ts) (hg : ProgGram prec false ts p) :
    compileText text .eof = .ok m ↔ TreeOf text p m ∧ p.Clear :=
  careful_iff ⟨ts, h, hg⟩ m

/-- C32. What the compiler does in all cases: `else` swallows the character behind it, which is not a letter or digit (in
`SpacedE` the token `else` includes this character), and the rest is read according to its tree (and rejected if a name of a function stands directly before `==` or an assignment
operator).  So the statement
after `else` is complete exactly when this character is not part of it. -/
theorem C32_exact {text : List Char} {ts : List Tok} {p : Program} {m : Module} (h : SpacedE text ts) (hg : ProgGram prec false ts p) :
    compileText text .eof = .ok m ↔ TreeOf text p m ∧ p.Clear :=
  carefulE_iff ⟨ts, h, hg⟩ m

/-- C32. Hence it does not matter which character this is: texts with the same tokens yield the same module. -/
theorem C32_swallowed {text text' : List Char} {ts : List Tok} {p : Program} (h : SpacedE text ts) (h' : SpacedE text' ts)
    (hg : ProgGram prec false ts p) (m : Module) : compileText text .eof = .ok m ↔ compileText text' .eof = .ok m := by
  rw [carefulE_iff ⟨ts, h, hg⟩, carefulE_iff ⟨ts, h', hg⟩]
  constructor
  · rintro ⟨⟨_, h⟩, hc⟩; exact ⟨⟨carefulE_reads ⟨ts, h', hg⟩, h⟩, hc⟩
  · rintro ⟨⟨_, h1⟩, hc⟩; exact ⟨⟨carefulE_reads ⟨ts, h, hg⟩, h1⟩, hc⟩

/-- The hypotheses of `C32_swallowed` are met: whatever the character `c` that is not a letter or digit (such as `;`, `{`, `/`), the
texts `main(){if(1)f();else⟨c⟩g();}` have the same tokens, with the same tree. -/
example : ∃ ts p, ProgGram prec false ts p ∧ p.Clear ∧ p = [.func "main".toList [] (.seq (.ifElse (.num 1) (.expr (.callName ['f'] []))
      (.expr (.callName ['g'] []))) .skip)] ∧
    ∀ c, ¬ Letter c → ¬ Digit c → SpacedE ("main(){if(1)f();else".toList ++ c :: "g();}".toList) ts := by
  refine ⟨[.defn "main".toList, .sym ['('], .sym [')'], .sym ['{'], .word "if".toList, .sym ['('], .num ['1'], .sym [')'], .head ['f'], .sym ['('],
    .sym [')'], .sym [';'], .els, .head ['g'], .sym ['('], .sym [')'], .sym [';'], .sym ['}']], _, ?_, ?_, rfl, ?_⟩
  · refine ProgGram.cons (us := []) (.func (ts := [.sym [')']]) .none (.block (.cons (us := [.sym ['}']])
      (.ifElse (ts := [.num ['1']]) (us := [.head ['f'], .sym ['('], .sym [')'], .sym [';']]) (vs := [.head ['g'], .sym ['('], .sym [')'], .sym [';']])
        .num ?_ rfl ?_) .nil))) .nil
    · exact .exprHead (ts := [.sym ['('], .sym [')']]) (.callName (by decide) (by decide) .nil)
    · exact .exprHead (ts := [.sym ['('], .sym [')']]) (.callName (by decide) (by decide) .nil)
  · simp [Program.Clear, Program.ClearIn, Decl.Clear, St.Clear, Ex.Clear, Ex.ClearArgs]
  · intro c n1 n2
    have hs : ∀ {s : List Char} {rest : List Char} {ts : List Tok}, s ∈ symbols → extensions s = [] → TextE rest ts → TextE (s ++ rest) (.sym s :: ts) :=
      fun h1 h2 h => .cons (lay := []) (.doc (.sym h1 (by intro x hx; rw [h2] at hx; cases hx))) trivial .nil (fun _ _ _ _ => rfl) h
    have step : ∀ {inp rest : List Char} {t : Tok} {ts : List Tok}, Lexes false inp t rest → t.Plain → TextE rest ts → TextE inp (t :: ts) :=
      fun h hp hr => .cons (lay := []) (.doc h) hp .nil (fun _ _ _ _ => rfl) hr
    have e : "main(){if(1)f();else".toList ++ c :: "g();}".toList = ['m', 'a', 'i', 'n'] ++ (['('] ++ ([')'] ++ (['{'] ++ (['i', 'f'] ++ (['('] ++
      (['1'] ++ ([')'] ++ (['f'] ++ (['('] ++ ([')'] ++ ([';'] ++ ('e' :: 'l' :: 's' :: 'e' :: c :: (['g'] ++ (['('] ++ ([')'] ++ ([';'] ++
      (['}'] ++ []))))))))))))))))) := by
      have e1 : "main(){if(1)f();else".toList = ['m', 'a', 'i', 'n', '(', ')', '{', 'i', 'f', '(', '1', ')', 'f', '(', ')', ';', 'e', 'l', 's', 'e'] := by
        decide +kernel
      have e2 : "g();}".toList = ['g', '(', ')', ';', '}'] := by decide +kernel
      rw [e1, e2]; rfl
    rw [e]
    refine ⟨[], _, rfl, .nil, ?_⟩
    refine step (.defn (w := ['m', 'a', 'i', 'n']) (by decide) (by decide) (show ¬ IdentChar '(' by decide)) (by decide) ?_
    refine hs (by decide) (by decide) (hs (by decide) (by decide) (hs (by decide) (by decide) ?_))
    refine step (.word (w := ['i', 'f']) (by decide) (by decide) (show ¬ IdentChar '(' by decide)) (by decide) ?_
    refine hs (by decide) (by decide) ?_
    refine step (.num (ds := ['1']) (by decide) (by decide) (show ¬ Digit ')' by decide)) trivial ?_
    refine hs (by decide) (by decide) ?_
    refine step (.head (w := ['f']) (by decide) (by decide) (show ¬ IdentChar '(' by decide) (by decide)) (by decide) ?_
    refine hs (by decide) (by decide) (hs (by decide) (by decide) (hs (by decide) (by decide) ?_))
    refine .cons (lay := []) (.swallow n1 n2) trivial .nil (fun _ _ _ _ => rfl) ?_
    refine step (.head (w := ['g']) (by decide) (by decide) (show ¬ IdentChar '(' by decide) (by decide)) (by decide) ?_
    exact hs (by decide) (by decide) (hs (by decide) (by decide) (hs (by decide) (by decide) (hs (by decide) (by decide) .nil)))

/-- the hypotheses of `C32_else` and `C32_nearest` are met by `if(x)f();else ;` -/
example : SGram prec false [.word "if".toList, .sym ['('], .word ['x'], .sym [')'], .head ['f'], .sym ['('], .sym [')'], .sym [';'], .els, .sym [';']]
    (.ifElse (.var ['x']) (.expr (.callName ['f'] [])) .skip) :=
  .ifElse (ts := [.word ['x']]) (us := [.head ['f'], .sym ['('], .sym [')'], .sym [';']]) (.var (by decide))
    (.exprHead (ts := [.sym ['('], .sym [')']]) (.callName (by decide) (by decide) .nil)) rfl .empty

/-- C32 is false when `else` is not followed by a blank: the character is lost.  Here the empty statement after `else`
disappears and the next statement becomes the `else` part. -/
theorem C32_semicolon_counterexample : ∃ m m', compileText "main(){if(1)f();else;g();}".toList .eof = .ok m ∧
    compileText "main(){if(1)f();else g();}".toList .eof = .ok m ∧
    compileText "main(){if(1)f();else ;g();}".toList .eof = .ok m' ∧ m ≠ m' := by
  have h1 : emitted "main(){if(1)f();else;g();}" = emitted "main(){if(1)f();else g();}" := by decide +kernel
  have h2 : emitted "main(){if(1)f();else;g();}" ≠ emitted "main(){if(1)f();else ;g();}" := by decide +kernel
  have h3 : (emitted "main(){if(1)f();else;g();}").isSome = true := by decide +kernel
  have h4 : (emitted "main(){if(1)f();else ;g();}").isSome = true := by decide +kernel
  obtain ⟨m, hm⟩ := Option.isSome_iff_exists.1 h3
  obtain ⟨m', hm'⟩ := Option.isSome_iff_exists.1 h4
  exact ⟨m, m', compile_of_emitted hm, compile_of_emitted (h1 ▸ hm), compile_of_emitted hm', fun e => h2 (by rw [hm, hm', e])⟩

/-- C32. `else{` loses the brace, and with it the meaning of the text. -/
theorem C32_brace_counterexample : (∃ m, compileText "main(){if(1)f();else {g();h();}}".toList .eof = .ok m) ∧
    ∃ e, compileText "main(){if(1)f();else{g();h();}}".toList .eof = .error e := by
  have h1 : (emitted "main(){if(1)f();else {g();h();}}").isSome = true := by decide +kernel
  have h2 : emitted "main(){if(1)f();else{g();h();}}" = none := by decide +kernel
  obtain ⟨m, hm⟩ := Option.isSome_iff_exists.1 h1
  refine ⟨⟨m, compile_of_emitted hm⟩, ?_⟩
  simp only [emitted] at h2
  cases h : compileText "main(){if(1)f();else{g();h();}}".toList .eof with
  | error e => exact ⟨e, rfl⟩
  | ok m => rw [h] at h2; cases h2

end Blang.Props
