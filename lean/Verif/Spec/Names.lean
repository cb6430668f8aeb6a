import Verif.Spec.Lexical
import Verif.Spec.Syntax
/-
Names, strings and labels that occur in a program.
-/
namespace Blang.Spec

abbrev Ident := List Char

/-- a name as it can be written: a non-empty run of letters, digits and underscores -/
def NameOk (x : Ident) : Prop := x ≠ [] ∧ ∀ c ∈ x, IdentChar c

mutual
/-- every name in the expression satisfies `P` -/
def Ex.All (P : Ident → Prop) : Ex → Prop
  | .num _ | .str _ => True
  | .var x => P x
  | .paren e | .post _ e | .pre _ e | .not e | .neg e | .deref e | .addr e => e.All P
  | .index a i => a.All P ∧ i.All P
  | .callName f as => P f ∧ Ex.AllArgs P as
  | .call f as => f.All P ∧ Ex.AllArgs P as
  | .bin _ l r | .assign _ l r => l.All P ∧ r.All P
  | .cond c t e => c.All P ∧ t.All P ∧ e.All P

def Ex.AllArgs (P : Ident → Prop) : List Ex → Prop
  | [] => True
  | e :: es => e.All P ∧ Ex.AllArgs P es
end

/-- every name in the statement (variables, functions, labels) satisfies `P` -/
def St.All (P : Ident → Prop) : St → Prop
  | .skip => True
  | .seq s t => s.All P ∧ t.All P
  | .expr e => e.All P
  | .ret none => True
  | .ret (some e) => e.All P
  | .auto ds => ∀ d ∈ ds, P d.1
  | .extrn xs => ∀ x ∈ xs, P x
  | .ifThen c t => c.All P ∧ t.All P
  | .ifElse c t e => c.All P ∧ t.All P ∧ e.All P
  | .while c b => c.All P ∧ b.All P
  | .switch e b => e.All P ∧ b.All P
  | .case _ s => s.All P
  | .label l s => P l ∧ s.All P
  | .goto l => P l

def Decl.All (P : Ident → Prop) : Decl → Prop
  | .global x _ => P x
  | .vector x _ _ => P x
  | .func f ps b => P f ∧ (∀ x ∈ ps, P x) ∧ b.All P

mutual
/-- string literals of an expression, in the order of the text -/
def Ex.strings : Ex → List (List Nat)
  | .num _ | .var _ => []
  | .str s => [s]
  | .paren e | .post _ e | .pre _ e | .not e | .neg e | .deref e | .addr e => e.strings
  | .index a i => a.strings ++ i.strings
  | .callName _ as => Ex.stringsArgs as
  | .call f as => f.strings ++ Ex.stringsArgs as
  | .bin _ l r | .assign _ l r => l.strings ++ r.strings
  | .cond c t e => c.strings ++ t.strings ++ e.strings

def Ex.stringsArgs : List Ex → List (List Nat)
  | [] => []
  | e :: es => e.strings ++ Ex.stringsArgs es
end

/-- string literals of a statement, in the order of the text -/
def St.strings : St → List (List Nat)
  | .skip | .ret none | .auto _ | .extrn _ | .goto _ => []
  | .seq s t => s.strings ++ t.strings
  | .expr e | .ret (some e) => e.strings
  | .ifThen c t => c.strings ++ t.strings
  | .ifElse c t e => c.strings ++ t.strings ++ e.strings
  | .while c b => c.strings ++ b.strings
  | .switch e b => e.strings ++ b.strings
  | .case _ s | .label _ s => s.strings

def Ival.strings : Ival → List (List Nat)
  | .int _ => []
  | .str s => [s]

def Decl.strings : Decl → List (List Nat)
  | .global _ vs | .vector _ _ vs => vs.flatMap Ival.strings
  | .func _ _ b => b.strings

/-- labels defined in a statement, in the order of the text -/
def St.labels : St → List Ident
  | .seq s t => s.labels ++ t.labels
  | .ifThen _ t => t.labels
  | .ifElse _ t e => t.labels ++ e.labels
  | .while _ b | .switch _ b => b.labels
  | .case _ s => s.labels
  | .label l s => l :: s.labels
  | _ => []

/-- labels that a `goto` in the statement names -/
def St.gotos : St → List Ident
  | .seq s t => s.gotos ++ t.gotos
  | .ifThen _ t => t.gotos
  | .ifElse _ t e => t.gotos ++ e.gotos
  | .while _ b | .switch _ b => b.gotos
  | .case _ s | .label _ s => s.gotos
  | .goto l => [l]
  | _ => []

mutual
/-- names called directly in an expression -/
def Ex.callees : Ex → List Ident
  | .num _ | .str _ | .var _ => []
  | .paren e | .post _ e | .pre _ e | .not e | .neg e | .deref e | .addr e => e.callees
  | .index a i => a.callees ++ i.callees
  | .callName f as => f :: Ex.calleesArgs as
  | .call f as => f.callees ++ Ex.calleesArgs as
  | .bin _ l r | .assign _ l r => l.callees ++ r.callees
  | .cond c t e => c.callees ++ (t.callees ++ e.callees)

def Ex.calleesArgs : List Ex → List Ident
  | [] => []
  | e :: es => e.callees ++ Ex.calleesArgs es
end

/-- names called directly in a statement -/
def St.callees : St → List Ident
  | .expr e | .ret (some e) => e.callees
  | .seq s t => s.callees ++ t.callees
  | .ifThen c t => c.callees ++ t.callees
  | .ifElse c t e => c.callees ++ (t.callees ++ e.callees)
  | .while c b | .switch c b => c.callees ++ b.callees
  | .case _ s | .label _ s => s.callees
  | _ => []

end Blang.Spec
