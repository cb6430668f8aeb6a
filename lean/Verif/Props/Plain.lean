import Verif.Proofs.Plain
import Verif.Props.Parsing
import Verif.Proofs.SameTree
import Verif.Proofs.RefParse
import Verif.Proofs.Decide
/-
C97: redundant punctuation leaves no trace in the emitted module.

What counts as redundant is in Verif/Spec/Plain.lean (`Program.Same`).
-/
namespace Blang.Props
open Blang Blang.Spec

/-- C97. Two texts whose programs differ only in redundant punctuation have the same module, to the letter. -/
theorem C97_module {text text' : List Char} {p q : Program} {m m' : Module} (h : TreeOf text p m) (h' : TreeOf text' q m') (hs : p.Same q) :
    m = m' := by
  obtain ⟨_, c, h1, rfl⟩ := h
  obtain ⟨_, c', h2, rfl⟩ := h'
  rw [Plain.genProg_same hs, h2] at h1
  cases h1
  rfl

/-- C97. If one of them is accepted then so is the other, provided that it is laid out as the compiler tolerates and that no name of a function
stands directly before `==` or an assignment operator. -/
theorem C97_accepted {text text' : List Char} {p q : Program} {m : Module} (h : TreeOf text p m) (hs : p.Same q) (h' : CarefulE prec text' q)
    (hc : q.Clear) : compileText text' .eof = .ok m := by
  obtain ⟨_, c, h1, rfl⟩ := h
  refine (carefulE_iff h' _).2 ⟨⟨carefulE_reads h', c, ?_, rfl⟩, hc⟩
  rw [← Plain.genProg_same hs]
  exact h1

/-- C97. For texts in the careful form and without such a name the outcome is the same: both are accepted, with one module, or both are rejected. -/
theorem C97_iff {text text' : List Char} {p q : Program} (h : CarefulE prec text p) (h' : CarefulE prec text' q) (hs : p.Same q) (hc : p.Clear)
    (hc' : q.Clear) (m : Module) : compileText text .eof = .ok m ↔ compileText text' .eof = .ok m := by
  have symm : q.Same p := by
    clear h h' hc hc'
    induction hs with
    | nil => exact .nil
    | cons hd _ ih => exact .cons (match hd with | .refl d => .refl d | .func h => .func h.symm) ih
  exact ⟨fun k => C97_accepted ((carefulE_iff h m).1 k).1 hs h' hc', fun k => C97_accepted ((carefulE_iff h' m).1 k).1 symm h hc⟩

/-- C97. An expression in parentheses is an expression, of every level, and the same expression. -/
theorem C97_parentheses {ts : List Tok} {e : Ex} (L : Nat) (h : EGram prec 15 ts e) (ht : ∀ t ∈ e.targets, ∀ u, t ≠ .paren u) :
    EGram prec L (.sym ['('] :: ts ++ [.sym [')']]) (.paren e) ∧ (Ex.paren e).Same e :=
  ⟨.paren h, by simp only [Ex.bare], by simpa only [Ex.targets] using ht, ht⟩

/-- C97. A statement in braces is a statement, and the same statement; so is a statement behind an empty one. -/
theorem C97_braces {ts : List Tok} {s : St} (h : SGram prec true ts s) :
    (SGram prec true (.sym ['{'] :: (ts ++ [.sym ['}']])) (.seq s .skip) ∧ (St.seq s .skip).Same s) ∧
    SGram prec true (.sym ['{'] :: ([.sym [';']] ++ (ts ++ [.sym ['}']]))) (.seq .skip (.seq s .skip)) ∧ (St.seq .skip (.seq s .skip)).Same s :=
  ⟨⟨.block (.cons h .nil), .braces s⟩, .block (.cons .empty (.cons h .nil)), .trans (.emptyBefore _) (.braces s)⟩

/-! ### two texts -/

def plainText : List Char := "main(){extrn g,h;auto i,j;i=1;if(i)g=i+2*3;l:while(i){i=0;}return;}".toList
def fancyText : List Char := "main(){extrn g;{extrn h;auto i;auto j;}i=(1);;if((i))g=(i)+((2)*3);else ;l:;while((i))i=((0));return(0);}".toList

def plainRest : St := .seq (.expr (.assign none (.var ['i']) (.num 1))) (.seq
  (.ifThen (.var ['i']) (.expr (.assign none (.var ['g']) (.bin .add (.var ['i']) (.bin .mul (.num 2) (.num 3))))))
  (.seq (.label ['l'] (.while (.var ['i']) (.seq (.expr (.assign none (.var ['i']) (.num 0))) .skip))) (.seq (.ret none) .skip)))
def plainBody : St := .seq (.extrn [['g'], ['h']]) (.seq (.auto [(['i'], none), (['j'], none)]) plainRest)
def plainProg : Program := [.func ['m', 'a', 'i', 'n'] [] plainBody]

def fancyRest : St := .seq (.expr (.assign none (.var ['i']) (.paren (.num 1)))) (.seq .skip (.seq
  (.ifElse (.paren (.var ['i'])) (.expr (.assign none (.var ['g']) (.bin .add (.paren (.var ['i']))
    (.paren (.bin .mul (.paren (.num 2)) (.num 3)))))) .skip)
  (.seq (.label ['l'] .skip) (.seq (.while (.paren (.var ['i'])) (.expr (.assign none (.var ['i']) (.paren (.paren (.num 0))))))
  (.seq (.ret (some (.num 0))) .skip)))))
def fancyBody : St := .seq (.extrn [['g']]) (.seq (.seq (.extrn [['h']]) (.seq (.auto [(['i'], none)]) (.seq (.auto [(['j'], none)]) .skip))) fancyRest)
def fancyProg : Program := [.func ['m', 'a', 'i', 'n'] [] fancyBody]

set_option maxRecDepth 20000 in
theorem plain_checks : Program.isSame plainProg (refParse prec plainText) = true ∧ Program.isSame fancyProg (refParse prec fancyText) = true ∧
    plainProg.Clear ∧ fancyProg.Clear ∧ (compileText plainText .eof).toOption.isSome = true := by
  decide +kernel

theorem fancy_rest : fancyRest.Same plainRest := by
  have open1 : ∀ {e : Ex} {x : Ident}, e.targets = [.var x] → ∀ t ∈ e.targets, ∀ u, t ≠ .paren u := by
    intro e x h t ht u
    rw [h, List.mem_singleton] at ht
    subst ht
    exact nofun
  have open0 : ∀ {e : Ex}, e.targets = [] → ∀ t ∈ e.targets, ∀ u, t ≠ .paren u := by
    intro e h t ht
    rw [h] at ht
    cases ht
  refine .seq (.expr ⟨rfl, open1 rfl, open1 rfl⟩) (.trans (.emptyBefore _) (.seq ?_ ?_))
  · exact .trans (.emptyElse _ _) (.ifThen ⟨rfl, open0 rfl, open0 rfl⟩ (.expr ⟨rfl, open1 rfl, open1 rfl⟩))
  · refine .trans (.symm (.nested _ _ _)) (.seq (.trans (.labelled _ _) (.label (.while ⟨rfl, open0 rfl, open0 rfl⟩ ?_))) (.seq .return0 (.refl _)))
    exact .trans (t := .expr (.assign none (.var ['i']) (.num 0))) (.expr ⟨rfl, open1 rfl, open1 rfl⟩) (.symm (.braces _))

theorem fancy_same : plainProg.Same fancyProg := by
  refine .cons (.func (.symm ?_)) .nil
  refine .trans (.seq (.refl _) (.trans (.nested _ _ _) (.seq (.refl _) (.seq (.seq (.refl _) (.braces _)) fancy_rest)))) ?_
  refine .trans (.symm (.nested _ _ _)) (.seq (.extrns _ _) (.seq (.autos _ _) (.refl _)))

/-- C97: the two texts have the same module. -/
example : ∃ m, compileText plainText .eof = .ok m ∧ compileText fancyText .eof = .ok m := by
  obtain ⟨h1, h2, h3, h4, h5⟩ := plain_checks
  cases h : compileText plainText .eof with
  | error e => rw [h] at h5; cases h5
  | ok m =>
    exact ⟨m, rfl, (C97_iff (careful_E (refParse_sound (Program.eq_of_same h1))) (careful_E (refParse_sound (Program.eq_of_same h2))) fancy_same h3 h4 m).1 h⟩

/-- C97: parentheses around the name of a function before `==` are not redundant, and parentheses around what is assigned are not allowed. -/
theorem C97_needed_counterexample : emitted "f(){return(f==f);}" = none ∧ (emitted "f(){return((f)==f);}").isSome = true ∧
    (emitted "f(){auto x;x=1;}").isSome = true ∧ emitted "f(){auto x;(x)=1;}" = none := by
  decide +kernel

end Blang.Props
