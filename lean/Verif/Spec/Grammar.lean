import Verif.Spec.Tokens
/-
Grammar of B: which token sequences are which syntax trees.

Expressions have a level, the loosest operator they may contain outside parentheses:
0 primary, 1 postfix, 2 unary, 3 `* / %`, 4 `+ -`, 6 shifts and relational operators, 7 `== !=`,
8 `&`, 10 `|`, 13 `?:`, 14 assignment, 15 everything.

`prec` is the operator table of the compiler. It differs from the documented one (`docPrec`) in one
point: shifts do not bind tighter than relational operators.
-/
namespace Blang.Spec

/-- level of a binary operator -/
def prec : Bop → Nat
  | .mul | .div | .mod => 3
  | .add | .sub => 4
  | .shl | .shr | .lt | .le | .gt | .ge => 6
  | .eq | .ne => 7
  | .band => 8
  | .bor => 10

/-- level of a binary operator in the B manual -/
def docPrec : Bop → Nat
  | .mul | .div | .mod => 3
  | .add | .sub => 4
  | .shl | .shr => 5
  | .lt | .le | .gt | .ge => 6
  | .eq | .ne => 7
  | .band => 8
  | .bor => 10

/-- Value of a character constant. (Characters are bytes, so `% 256` changes nothing.) -/
def charValue (vs : List Nat) : Word := BitVec.ofNat 64 (pack (vs.map (· % 256)))

section
variable (pr : Bop → Nat)

mutual
/-- `EGram pr L ts e`: the tokens `ts` are an expression of level `L` with tree `e`, operators having
the levels `pr`. Binary operators associate to the left, assignment and `?:` to the right. -/
inductive EGram : Nat → List Tok → Ex → Prop where
  | num {L : Nat} {ds : List Char} : EGram L [.num ds] (.num (BitVec.ofNat 64 (literalValue ds)))
  | chr {L : Nat} {vs : List Nat} : EGram L [.chr vs] (.num (charValue vs))
  | str {L : Nat} {vs : List Nat} : EGram L [.str vs] (.str vs)
  | var {L : Nat} {x : List Char} : StartsLetter x → EGram L [.word x] (.var x)
  | paren {L : Nat} {ts : List Tok} {e : Ex} : EGram 15 ts e →
      EGram L (.sym ['('] :: ts ++ [.sym [')']]) (.paren e)
  | index {L : Nat} {ts us : List Tok} {a i : Ex} : 1 ≤ L → EGram 1 ts a → EGram 15 us i →
      EGram L (ts ++ .sym ['['] :: us ++ [.sym [']']]) (.index a i)
  | callName {L : Nat} {x : List Char} {ts : List Tok} {as : List Ex} : 1 ≤ L → StartsLetter x →
      AGram ts as → EGram L (.word x :: .sym ['('] :: ts) (.callName x as)
  | call {L : Nat} {ts us : List Tok} {f : Ex} {as : List Ex} : 1 ≤ L → EGram 1 ts f →
      (∀ x, f ≠ .var x) → AGram us as → EGram L (ts ++ .sym ['('] :: us) (.call f as)
  | post {L : Nat} {ts : List Tok} {d : Dir} {e : Ex} : 1 ≤ L → EGram 1 ts e →
      EGram L (ts ++ [.sym d.text]) (.post d e)
  | pre {L : Nat} {ts : List Tok} {d : Dir} {e : Ex} : 2 ≤ L → EGram 2 ts e →
      EGram L (.sym d.text :: ts) (.pre d e)
  | not {L : Nat} {ts : List Tok} {e : Ex} : 2 ≤ L → EGram 2 ts e → EGram L (.sym ['!'] :: ts) (.not e)
  | neg {L : Nat} {ts : List Tok} {e : Ex} : 2 ≤ L → EGram 2 ts e → EGram L (.sym ['-'] :: ts) (.neg e)
  | deref {L : Nat} {ts : List Tok} {e : Ex} : 2 ≤ L → EGram 2 ts e →
      EGram L (.sym ['*'] :: ts) (.deref e)
  | addr {L : Nat} {ts : List Tok} {e : Ex} : 2 ≤ L → EGram 2 ts e → EGram L (.sym ['&'] :: ts) (.addr e)
  | bin {L : Nat} {ts us : List Tok} {o : Bop} {l r : Ex} : pr o ≤ L → EGram (pr o) ts l →
      EGram (pr o - 1) us r → EGram L (ts ++ .sym o.text :: us) (.bin o l r)
  | cond {L : Nat} {ts us vs : List Tok} {c t e : Ex} : 13 ≤ L → EGram 12 ts c → EGram 12 us t →
      EGram 13 vs e → EGram L (ts ++ .sym ['?'] :: us ++ .sym [':'] :: vs) (.cond c t e)
  | assign {L : Nat} {ts us : List Tok} {l r : Ex} : 14 ≤ L → EGram 2 ts l → EGram 14 us r →
      EGram L (ts ++ .sym ['='] :: us) (.assign none l r)
  | assignOp {L : Nat} {ts us : List Tok} {o : Bop} {l r : Ex} : 14 ≤ L → EGram 2 ts l → EGram 14 us r →
      EGram L (ts ++ .sym ('=' :: o.text) :: us) (.assign (some o) l r)

/-- The arguments of a call after the opening parenthesis, with the closing one.  A comma before the
closing parenthesis is tolerated by the compiler. -/
inductive AGram : List Tok → List Ex → Prop where
  | nil : AGram [.sym [')']] []
  | last {ts : List Tok} {e : Ex} : EGram 15 ts e → AGram (ts ++ [.sym [')']]) [e]
  | cons {ts us : List Tok} {e : Ex} {es : List Ex} : EGram 15 ts e → AGram us es →
      AGram (ts ++ .sym [','] :: us) (e :: es)
end
end

/-- The statement ends in an `if` without `else` that a following `else` would belong to. -/
def openIf : St → Bool
  | .ifThen _ _ => true
  | .ifElse _ _ e => openIf e
  | .while _ b => openIf b
  | .switch _ b => openIf b
  | .case _ s => openIf s
  | .label _ s => openIf s
  | _ => false

/-- constant of a vector size or case label -/
inductive CGram : Tok → Word → Prop where
  | num {ds : List Char} : CGram (.num ds) (BitVec.ofNat 64 (literalValue ds))
  | chr {vs : List Nat} : CGram (.chr vs) (charValue vs)

/-- one declaration of an `auto` statement -/
inductive DGram : List Tok → List Char × Option Word → Prop where
  | scalar {x : List Char} : DGram [.word x] (x, none)
  | vec0 {x : List Char} : DGram [.word x, .sym ['['], .sym [']']] (x, some 0)
  | vec {x : List Char} {t : Tok} {n : Word} : CGram t n →
      DGram [.word x, .sym ['['], t, .sym [']']] (x, some n)

/-- declarations of an `auto` statement, with the `;` -/
inductive DsGram : List Tok → List (List Char × Option Word) → Prop where
  | last {ts : List Tok} {d : List Char × Option Word} : DGram ts d → DsGram (ts ++ [.sym [';']]) [d]
  | cons {ts us : List Tok} {d : List Char × Option Word} {ds : List (List Char × Option Word)} :
      DGram ts d → DsGram us ds → DsGram (ts ++ .sym [','] :: us) (d :: ds)

/-- names separated by commas, with the closing symbol -/
inductive NsGram (close : List Char) : List Tok → List (List Char) → Prop where
  | last {x : List Char} : NsGram close [.word x, .sym close] [x]
  | cons {x : List Char} {ts : List Tok} {xs : List (List Char)} : NsGram close ts xs →
      NsGram close (.word x :: .sym [','] :: ts) (x :: xs)

section
variable (pr : Bop → Nat) (quirks : Bool)

mutual
/-- Statements.  In the documented language (`quirks = false`) the body of a `switch` does not begin
with a symbol other than `{` and `;` (which could be taken as the continuation of the expression). -/
inductive SGram : List Tok → St → Prop where
  | block {ts : List Tok} {s : St} : SsGram ts s → SGram (.sym ['{'] :: ts) s
  | empty : SGram [.sym [';']] .skip
  | exprHead {ts : List Tok} {x : List Char} {e : Ex} : EGram pr 15 (.word x :: ts) e →
      SGram (.head x :: ts ++ [.sym [';']]) (.expr e)
  | expr {ts : List Tok} {e : Ex} : EGram pr 15 ts e → (∀ x us, ts ≠ .word x :: us) →
      SGram (ts ++ [.sym [';']]) (.expr e)
  | ret0 : SGram [.word "return".toList, .sym [';']] (.ret none)
  | ret {ts : List Tok} {e : Ex} : EGram pr 15 ts e →
      SGram (.word "return".toList :: .sym ['('] :: ts ++ [.sym [')'], .sym [';']]) (.ret (some e))
  | auto {ts : List Tok} {ds : List (List Char × Option Word)} : DsGram ts ds →
      SGram (.word "auto".toList :: ts) (.auto ds)
  | extrn {ts : List Tok} {xs : List (List Char)} : NsGram [';'] ts xs →
      SGram (.word "extrn".toList :: ts) (.extrn xs)
  | ifThen {ts us : List Tok} {c : Ex} {t : St} : EGram pr 15 ts c → SGram us t →
      SGram (.word "if".toList :: .sym ['('] :: ts ++ .sym [')'] :: us) (.ifThen c t)
  /-- `else` belongs to the nearest `if`: the statement before it does not end in an `if` without
  `else` -/
  | ifElse {ts us vs : List Tok} {c : Ex} {t e : St} : EGram pr 15 ts c → SGram us t →
      openIf t = false → SGram vs e →
      SGram (.word "if".toList :: .sym ['('] :: ts ++ .sym [')'] :: us ++ .els :: vs) (.ifElse c t e)
  | while {ts us : List Tok} {c : Ex} {b : St} : EGram pr 15 ts c → SGram us b →
      SGram (.word "while".toList :: .sym ['('] :: ts ++ .sym [')'] :: us) (.while c b)
  | switch {ts us : List Tok} {e : Ex} {b : St} : EGram pr 15 ts e → SGram us b →
      (quirks = false → ∀ s vs, us = .sym s :: vs → s = ['{'] ∨ s = [';']) →
      SGram (.word "switch".toList :: ts ++ us) (.switch e b)
  | case {ts : List Tok} {t : Tok} {v : Word} {s : St} : CGram t v → SGram ts s →
      SGram (.word "case".toList :: t :: .sym [':'] :: ts) (.case v s)
  | label {ts : List Tok} {l : List Char} {s : St} : StartsLetter l → l ∉ keywords → SGram ts s →
      SGram (.word l :: .sym [':'] :: ts) (.label l s)
  | goto {l : List Char} : SGram [.word "goto".toList, .word l, .sym [';']] (.goto l)

/-- The statements of a block, with the closing brace. -/
inductive SsGram : List Tok → St → Prop where
  | nil : SsGram [.sym ['}']] .skip
  | cons {ts us : List Tok} {s t : St} : SGram ts s → SsGram us t → SsGram (ts ++ us) (.seq s t)
end

end

section
variable (quirks : Bool)

/-- Initial values. Deviation: the compiler reads nothing at all as 0. -/
inductive IGram : List Tok → Ival → Prop where
  | num {ds : List Char} : IGram [.num ds] (.int (BitVec.ofNat 64 (literalValue ds)))
  | neg {ds : List Char} : IGram [.sym ['-'], .num ds] (.int (-BitVec.ofNat 64 (literalValue ds)))
  | chr {vs : List Nat} : IGram [.chr vs] (.int (charValue vs))
  | str {vs : List Nat} : IGram [.str vs] (.str vs)
  | none : quirks = true → IGram [] (.int 0)
  | negNone : quirks = true → IGram [.sym ['-']] (.int 0)

/-- initial values separated by commas, with the `;` -/
inductive IsGram : List Tok → List Ival → Prop where
  | last {ts : List Tok} {v : Ival} : IGram quirks ts v → IsGram (ts ++ [.sym [';']]) [v]
  | cons {ts us : List Tok} {v : Ival} {vs : List Ival} : IGram quirks ts v → IsGram us vs →
      IsGram (ts ++ .sym [','] :: us) (v :: vs)

/-- optional initial values, with the `;` -/
inductive OIsGram : List Tok → List Ival → Prop where
  | none : OIsGram [.sym [';']] []
  | some {ts : List Tok} {vs : List Ival} : IsGram quirks ts vs → OIsGram ts vs
end

/-- size of a vector, with the closing bracket -/
inductive VGram : List Tok → Word → Prop where
  | none : VGram [.sym [']']] 0
  | num {ds : List Char} : VGram [.num ds, .sym [']']] (BitVec.ofNat 64 (literalValue ds))

/-- parameters, with the closing parenthesis -/
inductive PGram : List Tok → List (List Char) → Prop where
  | none : PGram [.sym [')']] []
  | some {ts : List Tok} {xs : List (List Char)} : NsGram [')'] ts xs → PGram ts xs

section
variable (pr : Bop → Nat) (quirks : Bool)

inductive DeclGram : List Tok → Decl → Prop where
  | global {x : List Char} {ts : List Tok} {vs : List Ival} : OIsGram quirks ts vs →
      DeclGram (.defn x :: ts) (.global x vs)
  | vector {x : List Char} {ts us : List Tok} {n : Word} {vs : List Ival} : VGram ts n → OIsGram quirks us vs →
      DeclGram (.defn x :: .sym ['['] :: ts ++ us) (.vector x n vs)
  | func {x : List Char} {ts us : List Tok} {ps : List (List Char)} {b : St} : PGram ts ps → SGram pr quirks us b →
      DeclGram (.defn x :: .sym ['('] :: ts ++ us) (.func x ps b)

inductive ProgGram : List Tok → Program → Prop where
  | nil : ProgGram [] []
  | cons {ts us : List Tok} {d : Decl} {p : Program} : DeclGram pr quirks ts d → ProgGram us p →
      ProgGram (ts ++ us) (d :: p)
end

/-- `text` is a program with tree `p`. -/
def Reads (quirks : Bool) (text : List Char) (p : Program) : Prop :=
  ∃ ts, TokSeq quirks text ts [] ∧ ProgGram prec quirks ts p

end Blang.Spec
