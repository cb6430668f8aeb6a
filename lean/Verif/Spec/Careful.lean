import Verif.Spec.Grammar
import Verif.Spec.Scope
/-
Texts that the compiler reads as documented.

`Spaced text ts`: the text is the tokens `ts` of the documented lexical structure, with any layout
(blanks and comments) between them, except where the compiler does not tolerate layout
(`Tight`) and with names that it does not confuse (`Tok.Plain`).

`Program.Clear`: the two places where the compiler takes a documented program for something else.
Nothing here depends on the compiler.
-/
namespace Blang.Spec

/-- No name is `else` or begins with `else_` (which the compiler takes for the keyword), and a name at
the beginning of an expression statement consists of ASCII characters. -/
def Tok.Plain : Tok → Prop
  | .word w | .defn w => w ≠ "else".toList ∧ ¬ "else_".toList <+: w
  | .head w => (w ≠ "else".toList ∧ ¬ "else_".toList <+: w) ∧ ∀ c ∈ w, c.toNat < 128
  | _ => True

/-- Pairs of tokens between which no layout may stand: `(` or `,` and `)`; the name in a declaration
and `(`, `[` or `;`. -/
def Tight : Tok → Tok → Prop
  | .sym s, .sym t => (s = ['('] ∨ s = [',']) ∧ t = [')']
  | .defn _, .sym t => t = ['('] ∨ t = ['['] ∨ t = [';']
  | _, _ => False

/-- `Text inp ts`: `inp` begins with the first token of `ts` and consists of these tokens with layout
between and after them. -/
inductive Text : List Char → List Tok → Prop where
  | nil : Text [] []
  | cons {inp lay rest : List Char} {t : Tok} {ts : List Tok} : Lexes false inp t (lay ++ rest) → t.Plain → Layout lay →
      (∀ u us, ts = u :: us → Tight t u → lay = []) → Text rest ts → Text inp (t :: ts)

/-- the same with layout before the first token -/
def Spaced (text : List Char) (ts : List Tok) : Prop := ∃ lay rest, text = lay ++ rest ∧ Layout lay ∧ Text rest ts

/-! Texts in which another character than a blank follows `else`: as the compiler reads them, this character is part
of the word and lost. -/

/-- a token of the documented lexical structure, or `else` with the character after it, which is not a letter or digit -/
inductive LexesE : List Char → Tok → List Char → Prop where
  | doc {inp rest : List Char} {t : Tok} : Lexes false inp t rest → LexesE inp t rest
  | swallow {c : Char} {rest : List Char} : ¬ Letter c → ¬ Digit c →
      LexesE ('e' :: 'l' :: 's' :: 'e' :: c :: rest) .els rest

/-- `Text` with such tokens -/
inductive TextE : List Char → List Tok → Prop where
  | nil : TextE [] []
  | cons {inp lay rest : List Char} {t : Tok} {ts : List Tok} : LexesE inp t (lay ++ rest) → t.Plain → Layout lay →
      (∀ u us, ts = u :: us → Tight t u → lay = []) → TextE rest ts → TextE inp (t :: ts)

/-- `Spaced` with such tokens -/
def SpacedE (text : List Char) (ts : List Tok) : Prop := ∃ lay rest, text = lay ++ rest ∧ Layout lay ∧ TextE rest ts

/-- the name that is the last token of the expression, if it is one -/
def Ex.last : Ex → Option Ident
  | .var x => some x
  | .pre _ e | .not e | .neg e | .deref e | .addr e => e.last
  | .bin _ _ r | .assign _ _ r => r.last
  | .cond _ _ e => e.last
  | _ => none

/-- the expression is not immediately followed by the name of a function -/
def Ex.EndsVar (V : Ident → Prop) (e : Ex) : Prop := ∀ x, e.last = some x → V x

mutual
/-- No name of a function (that is, no name that is not in `V`) stands directly before `==` or an
assignment operator, as in `f == g` or `*f = 1`. (The compiler calls it an undefined identifier.) -/
def Ex.Clear (V : Ident → Prop) : Ex → Prop
  | .num _ | .str _ | .var _ => True
  | .paren e | .post _ e | .pre _ e | .not e | .neg e | .deref e | .addr e => e.Clear V
  | .index a i => a.Clear V ∧ i.Clear V
  | .callName _ as => Ex.ClearArgs V as
  | .call f as => f.Clear V ∧ Ex.ClearArgs V as
  | .bin o l r => (o = .eq → l.EndsVar V) ∧ l.Clear V ∧ r.Clear V
  | .cond c t e => c.Clear V ∧ t.Clear V ∧ e.Clear V
  | .assign _ l r => ((∀ x, l ≠ .var x) → l.EndsVar V) ∧ l.Clear V ∧ r.Clear V

def Ex.ClearArgs (V : Ident → Prop) : List Ex → Prop
  | [] => True
  | e :: es => e.Clear V ∧ Ex.ClearArgs V es
end

def St.Clear : St → Env → Prop
  | .seq s t, E => s.Clear E ∧ t.Clear (E.after s)
  | .expr e, E | .ret (some e), E => e.Clear E.Var
  | .ifThen c t, E => c.Clear E.Var ∧ t.Clear (E.afterEx c)
  | .ifElse c t e, E => c.Clear E.Var ∧ t.Clear (E.afterEx c) ∧ e.Clear ((E.afterEx c).after t)
  | .while c b, E => c.Clear E.Var ∧ b.Clear (E.afterEx c)
  | .switch e b, E => e.Clear E.Var ∧ b.Clear (E.afterEx e)
  | .case _ s, E => s.Clear E
  | .label _ s, E => s.Clear E
  | _, _ => True

def Decl.Clear (E : Env) : Decl → Prop
  | .func f ps b => b.Clear (E.enter f ps)
  | _ => True

def Program.ClearIn : Env → Program → Prop
  | _, [] => True
  | E, d :: p => d.Clear E ∧ Program.ClearIn (E.afterDecl d) p

/-- No name of a function stands directly before `==` or an assignment operator. -/
def Program.Clear (p : Program) : Prop := Program.ClearIn Env.empty p

/-- The text is the program `p`, laid out as the compiler tolerates; `pr` are the levels of the operators. -/
def Careful (pr : Bop → Nat) (text : List Char) (p : Program) : Prop :=
  ∃ ts, Spaced text ts ∧ ProgGram pr false ts p

/-- `Careful`, with `else` swallowing the character behind it -/
def CarefulE (pr : Bop → Nat) (text : List Char) (p : Program) : Prop :=
  ∃ ts, SpacedE text ts ∧ ProgGram pr false ts p

end Blang.Spec
