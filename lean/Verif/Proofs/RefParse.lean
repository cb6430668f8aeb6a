import Verif.Proofs.Render
import Verif.Proofs.SoundExpr
/-
A parser for concrete careful texts, for examples only.  Each function returns, with the tree, a proof
that the tree belongs to the tokens; `refParse_sound`: `refParse pr text = some p` implies
`Careful pr text p`.
-/
namespace Blang
open Spec

/-- the tokens used, the tree and the tokens that follow -/
structure Parsed {α : Type} (G : List Tok → α → Prop) where
  used : List Tok
  tree : α
  rest : List Tok
  ok : G used tree

section
variable (pr : Bop → Nat)

def refBops : List Bop := [.mul, .div, .mod, .add, .sub, .shl, .shr, .lt, .le, .gt, .ge, .eq, .ne, .band, .bor]

/-- the binary operator with that symbol -/
def refBop (s : List Char) : Option Bop := refBops.find? fun o => decide (s = o.text)

/-- the expression is not just a name -/
def refNotVar : (e : Ex) → Option (PLift (∀ x, e ≠ .var x))
  | .var _ => none
  | .num _ => some ⟨by simp⟩
  | .str _ => some ⟨by simp⟩
  | .paren _ => some ⟨by simp⟩
  | .index _ _ => some ⟨by simp⟩
  | .callName _ _ => some ⟨by simp⟩
  | .call _ _ => some ⟨by simp⟩
  | .post _ _ => some ⟨by simp⟩
  | .pre _ _ => some ⟨by simp⟩
  | .not _ => some ⟨by simp⟩
  | .neg _ => some ⟨by simp⟩
  | .deref _ => some ⟨by simp⟩
  | .addr _ => some ⟨by simp⟩
  | .bin _ _ _ => some ⟨by simp⟩
  | .cond _ _ _ => some ⟨by simp⟩
  | .assign _ _ _ => some ⟨by simp⟩

/-- the next token is that symbol -/
def refSym (s : List Char) : List Tok → Option (List Tok)
  | .sym t :: r => if t = s then some r else none
  | _ => none

mutual
/-- an expression of level `L` -/
def rpE : Nat → (L : Nat) → List Tok → Option (Parsed (EGram pr L))
  | 0, _, _ => none
  | n + 1, L, ts => do
    let p ← rpU n ts
    if h : 2 ≤ L then rpL n L 2 h p.used p.tree p.ok p.rest else none

/-- a unary expression -/
def rpU : Nat → List Tok → Option (Parsed (EGram pr 2))
  | 0, _ => none
  | n + 1, .sym s :: ts =>
    if s = ['('] then do
      let p ← rpE n 15 ts
      let r ← refSym [')'] p.rest
      let q ← rpP n _ _ (.paren (L := 1) p.ok) r
      pure ⟨q.used, q.tree, q.rest, q.ok.mono (by decide)⟩
    else do
      let p ← rpU n ts
      if s = Dir.inc.text then pure ⟨_, _, p.rest, .pre (d := .inc) (by decide) p.ok⟩
      else if s = Dir.dec.text then pure ⟨_, _, p.rest, .pre (d := .dec) (by decide) p.ok⟩
      else if s = ['!'] then pure ⟨_, _, p.rest, .not (by decide) p.ok⟩
      else if s = ['-'] then pure ⟨_, _, p.rest, .neg (by decide) p.ok⟩
      else if s = ['*'] then pure ⟨_, _, p.rest, .deref (by decide) p.ok⟩
      else if s = ['&'] then pure ⟨_, _, p.rest, .addr (by decide) p.ok⟩
      else none
  | n + 1, .num ds :: ts => do
    let q ← rpP n _ _ (.num (ds := ds)) ts
    pure ⟨q.used, q.tree, q.rest, q.ok.mono (by decide)⟩
  | n + 1, .chr vs :: ts => do
    let q ← rpP n _ _ (.chr (vs := vs)) ts
    pure ⟨q.used, q.tree, q.rest, q.ok.mono (by decide)⟩
  | n + 1, .str vs :: ts => do
    let q ← rpP n _ _ (.str (vs := vs)) ts
    pure ⟨q.used, q.tree, q.rest, q.ok.mono (by decide)⟩
  | n + 1, .word x :: ts =>
    if h : StartsLetter x then
      match refSym ['('] ts with
      | some r => do
        let a ← rpA n r
        let q ← rpP n _ _ (.callName (L := 1) (by decide) h a.ok) a.rest
        pure ⟨q.used, q.tree, q.rest, q.ok.mono (by decide)⟩
      | none => do
        let q ← rpP n _ _ (.var h) ts
        pure ⟨q.used, q.tree, q.rest, q.ok.mono (by decide)⟩
    else none
  | _, _ => none

/-- what follows a postfix expression -/
def rpP : Nat → (us : List Tok) → (e : Ex) → EGram pr 1 us e → List Tok → Option (Parsed (EGram pr 1))
  | 0, _, _, _, _ => none
  | n + 1, us, e, h, .sym s :: ts =>
    if s = ['['] then do
      let p ← rpE n 15 ts
      let r ← refSym [']'] p.rest
      rpP n _ _ (.index (by decide) h p.ok) r
    else if s = ['('] then do
      let v ← refNotVar e
      let a ← rpA n ts
      rpP n _ _ (.call (by decide) h v.down a.ok) a.rest
    else if s = Dir.inc.text then rpP n _ _ (.post (d := .inc) (by decide) h) ts
    else if s = Dir.dec.text then rpP n _ _ (.post (d := .dec) (by decide) h) ts
    else pure ⟨us, e, .sym s :: ts, h⟩
  | _ + 1, us, e, h, ts => pure ⟨us, e, ts, h⟩

/-- the operators that follow an expression of level `lv` -/
def rpL : Nat → (L lv : Nat) → lv ≤ L → (us : List Tok) → (e : Ex) → EGram pr lv us e → List Tok → Option (Parsed (EGram pr L))
  | 0, _, _, _, _, _, _, _ => none
  | n + 1, L, lv, hl, us, e, h, .sym s :: ts =>
    match refBop s with
    | some o =>
      if ho : pr o ≤ L ∧ lv ≤ pr o then do
        let p ← rpE n (pr o - 1) ts
        rpL n L (pr o) ho.1 _ _ (.bin (o := o) (Nat.le_refl _) (h.mono ho.2) p.ok) p.rest
      else pure ⟨us, e, .sym s :: ts, h.mono hl⟩
    | none =>
      if s = ['?'] then
        if ho : 13 ≤ L ∧ lv ≤ 12 then do
          let t ← rpE n 12 ts
          let r ← refSym [':'] t.rest
          let f ← rpE n 13 r
          rpL n L 13 ho.1 _ _ (.cond (Nat.le_refl _) (h.mono ho.2) t.ok f.ok) f.rest
        else pure ⟨us, e, .sym s :: ts, h.mono hl⟩
      else match s with
        | '=' :: s' =>
          if ho : 14 ≤ L ∧ lv ≤ 2 then do
            let y ← rpE n 14 ts
            if s' = [] then rpL n L 14 ho.1 _ _ (.assign (Nat.le_refl _) (h.mono ho.2) y.ok) y.rest
            else do
              let o ← refBop s'
              rpL n L 14 ho.1 _ _ (.assignOp (o := o) (Nat.le_refl _) (h.mono ho.2) y.ok) y.rest
          else pure ⟨us, e, .sym s :: ts, h.mono hl⟩
        | _ => pure ⟨us, e, .sym s :: ts, h.mono hl⟩
  | _ + 1, _, _, hl, us, e, h, ts => pure ⟨us, e, ts, h.mono hl⟩

/-- arguments -/
def rpA : Nat → List Tok → Option (Parsed (AGram pr))
  | 0, _ => none
  | n + 1, ts =>
    match refSym [')'] ts with
    | some r => pure ⟨_, _, r, .nil⟩
    | none => do
      let p ← rpE n 15 ts
      match refSym [')'] p.rest with
      | some r => pure ⟨_, _, r, .last p.ok⟩
      | none => do
        let r ← refSym [','] p.rest
        let q ← rpA n r
        pure ⟨_, _, q.rest, .cons p.ok q.ok⟩
end

/-- a constant -/
def rpC : (t : Tok) → Option {v : Word // CGram t v}
  | .num _ => some ⟨_, .num⟩
  | .chr _ => some ⟨_, .chr⟩
  | _ => none

/-- one declaration of `auto` -/
def rpD : List Tok → Option (Parsed DGram)
  | .word x :: ts =>
    match refSym ['['] ts with
    | none => pure ⟨_, _, ts, .scalar (x := x)⟩
    | some r => match refSym [']'] r with
      | some r => pure ⟨_, _, r, .vec0 (x := x)⟩
      | none => match r with
        | t :: r => do
          let ⟨_, hv⟩ ← rpC t
          let r ← refSym [']'] r
          pure ⟨_, _, r, .vec (x := x) hv⟩
        | [] => none
  | _ => none

def rpDs : Nat → List Tok → Option (Parsed DsGram)
  | 0, _ => none
  | n + 1, ts => do
    let d ← rpD ts
    match refSym [','] d.rest with
    | some r => do
      let q ← rpDs n r
      pure ⟨_, _, q.rest, .cons d.ok q.ok⟩
    | none => do
      let r ← refSym [';'] d.rest
      pure ⟨_, _, r, .last d.ok⟩

/-- names separated by commas -/
def rpN (close : List Char) : Nat → List Tok → Option (Parsed (NsGram close))
  | n + 1, .word x :: ts =>
    match refSym [','] ts with
    | some r => do
      let q ← rpN close n r
      pure ⟨_, _, q.rest, .cons (x := x) q.ok⟩
    | none => do
      let r ← refSym close ts
      pure ⟨_, _, r, .last (x := x)⟩
  | _, _ => none

/-- the first token is a symbol other than `{` and `;` -/
def refBad : (us : List Tok) → Option (PLift (∀ s vs, us = .sym s :: vs → s = ['{'] ∨ s = [';']))
  | .sym s :: _ => if h : s = ['{'] ∨ s = [';'] then some ⟨by rintro s' _ e; simp only [List.cons.injEq, Tok.sym.injEq] at e; exact e.1 ▸ h⟩ else none
  | [] => some ⟨by simp⟩
  | .num _ :: _ => some ⟨by simp⟩
  | .chr _ :: _ => some ⟨by simp⟩
  | .str _ :: _ => some ⟨by simp⟩
  | .word _ :: _ => some ⟨by simp⟩
  | .defn _ :: _ => some ⟨by simp⟩
  | .head _ :: _ => some ⟨by simp⟩
  | .els :: _ => some ⟨by simp⟩

def refWord (us : List Tok) : Option (PLift (∀ x vs, us ≠ .word x :: vs)) :=
  match us with
  | .word _ :: _ => none
  | .sym _ :: _ => some ⟨by simp⟩
  | [] => some ⟨by simp⟩
  | .num _ :: _ => some ⟨by simp⟩
  | .chr _ :: _ => some ⟨by simp⟩
  | .str _ :: _ => some ⟨by simp⟩
  | .defn _ :: _ => some ⟨by simp⟩
  | .head _ :: _ => some ⟨by simp⟩
  | .els :: _ => some ⟨by simp⟩

/-- the used tokens begin with a word -/
def refHead {L : Nat} (p : Parsed (EGram pr L)) : Option {q : List Char × List Tok // p.used = .word q.1 :: q.2} :=
  match _h : p.used with
  | .word x :: us => some ⟨(x, us), rfl⟩
  | _ => none

mutual
/-- a statement; the tokens used have the kinds (`head`, `els`) that the grammar demands -/
def rpS : Nat → List Tok → Option (Parsed (SGram pr false))
  | 0, _ => none
  | n + 1, ts =>
    match refSym ['{'] ts with
    | some r => do
      let p ← rpSs n r
      pure ⟨_, _, p.rest, .block p.ok⟩
    | none => match refSym [';'] ts with
    | some r => pure ⟨_, _, r, .empty⟩
    | none =>
    match ts with
    | .word w :: ts' =>
      if w = "return".toList then
        match refSym [';'] ts' with
        | some r => pure ⟨_, _, r, .ret0⟩
        | none => do
          let r ← refSym ['('] ts'
          let p ← rpE pr n 15 r
          let r ← refSym [')'] p.rest
          let r ← refSym [';'] r
          pure ⟨_, _, r, .ret p.ok⟩
      else if w = "auto".toList then do
        let p ← rpDs n ts'
        pure ⟨_, _, p.rest, .auto p.ok⟩
      else if w = "extrn".toList then do
        let p ← rpN [';'] n ts'
        pure ⟨_, _, p.rest, .extrn p.ok⟩
      else if w = "goto".toList then
        match ts' with
        | .word l :: r => do
          let r ← refSym [';'] r
          pure ⟨_, _, r, .goto (l := l)⟩
        | _ => none
      else if w = "case".toList then
        match ts' with
        | t :: r => do
          let ⟨_, hv⟩ ← rpC t
          let r ← refSym [':'] r
          let s ← rpS n r
          pure ⟨_, _, s.rest, .case hv s.ok⟩
        | _ => none
      else if w = "while".toList then do
        let r ← refSym ['('] ts'
        let p ← rpE pr n 15 r
        let r ← refSym [')'] p.rest
        let b ← rpS n r
        pure ⟨_, _, b.rest, .while p.ok b.ok⟩
      else if w = "switch".toList then do
        let p ← rpE pr n 15 ts'
        let b ← rpS n p.rest
        let h ← refBad b.used
        pure ⟨_, _, b.rest, .switch p.ok b.ok fun _ => h.down⟩
      else if w = "if".toList then do
        let r ← refSym ['('] ts'
        let p ← rpE pr n 15 r
        let r ← refSym [')'] p.rest
        let t ← rpS n r
        match t.rest with
        | .word x :: r =>
          if x = "else".toList then
            if h : openIf t.tree = false then do
              let e ← rpS n r
              pure ⟨_, _, e.rest, .ifElse p.ok t.ok h e.ok⟩
            else none
          else pure ⟨_, _, t.rest, .ifThen p.ok t.ok⟩
        | _ => pure ⟨_, _, t.rest, .ifThen p.ok t.ok⟩
      else
        match refSym [':'] ts' with
        | some r =>
          if h : StartsLetter w ∧ w ∉ keywords then do
            let s ← rpS n r
            pure ⟨_, _, s.rest, .label h.1 h.2 s.ok⟩
          else none
        | none => do
          let p ← rpE pr n 15 ts
          let r ← refSym [';'] p.rest
          let ⟨_, hq⟩ ← refHead pr p
          pure ⟨_, _, r, .exprHead (hq ▸ p.ok)⟩
    | _ => do
      let p ← rpE pr n 15 ts
      let r ← refSym [';'] p.rest
      let h ← refWord p.used
      pure ⟨_, _, r, .expr p.ok h.down⟩

/-- the statements of a block -/
def rpSs : Nat → List Tok → Option (Parsed (SsGram pr false))
  | 0, _ => none
  | n + 1, ts =>
    match refSym ['}'] ts with
    | some r => pure ⟨_, _, r, .nil⟩
    | none => do
      let s ← rpS n ts
      let p ← rpSs n s.rest
      pure ⟨_, _, p.rest, .cons s.ok p.ok⟩
end

/-- an initial value -/
def rpI : List Tok → Option (Parsed (IGram false))
  | .num ds :: r => pure ⟨_, _, r, .num (ds := ds)⟩
  | .chr vs :: r => pure ⟨_, _, r, .chr (vs := vs)⟩
  | .str vs :: r => pure ⟨_, _, r, .str (vs := vs)⟩
  | .sym s :: .num ds :: r => if s = ['-'] then pure ⟨_, _, r, .neg (ds := ds)⟩ else none
  | _ => none

def rpIs : Nat → List Tok → Option (Parsed (IsGram false))
  | 0, _ => none
  | n + 1, ts => do
    let i ← rpI ts
    match refSym [','] i.rest with
    | some r => do
      let p ← rpIs n r
      pure ⟨_, _, p.rest, .cons i.ok p.ok⟩
    | none => do
      let r ← refSym [';'] i.rest
      pure ⟨_, _, r, .last i.ok⟩

def rpO (n : Nat) (ts : List Tok) : Option (Parsed (OIsGram false)) :=
  match refSym [';'] ts with
  | some r => pure ⟨_, _, r, .none⟩
  | none => do
    let p ← rpIs n ts
    pure ⟨_, _, p.rest, .some p.ok⟩

def rpDecl (n : Nat) : List Tok → Option (Parsed (DeclGram pr false))
  | .word x :: ts =>
    match refSym ['('] ts with
    | some r => match refSym [')'] r with
      | some r => do
        let b ← rpS pr n r
        pure ⟨_, _, b.rest, .func (x := x) .none b.ok⟩
      | none => do
        let p ← rpN [')'] n r
        let b ← rpS pr n p.rest
        pure ⟨_, _, b.rest, .func (x := x) (.some p.ok) b.ok⟩
    | none => match refSym ['['] ts with
    | some r => match refSym [']'] r with
      | some r => do
        let i ← rpO n r
        pure ⟨_, _, i.rest, .vector (x := x) .none i.ok⟩
      | none => match r with
        | .num ds :: r => do
          let r ← refSym [']'] r
          let i ← rpO n r
          pure ⟨_, _, i.rest, .vector (x := x) (.num (ds := ds)) i.ok⟩
        | _ => none
    | none => do
      let i ← rpO n ts
      pure ⟨_, _, i.rest, .global (x := x) i.ok⟩
  | _ => none

def rpProg : Nat → List Tok → Option (Parsed (ProgGram pr false))
  | _, [] => pure ⟨_, _, [], .nil⟩
  | 0, _ => none
  | n + 1, ts => do
    let d ← rpDecl pr n ts
    let p ← rpProg n d.rest
    pure ⟨_, _, p.rest, .cons d.ok p.ok⟩
end

/-- the layout at the beginning (`true`: the rest of a comment comes first), and the rest -/
def splitLay : Bool → List Char → List Char × List Char
  | _, [] => ([], [])
  | false, '/' :: '*' :: cs => let r := splitLay true cs; ('/' :: '*' :: r.1, r.2)
  | true, '*' :: '/' :: cs => let r := splitLay false cs; ('*' :: '/' :: r.1, r.2)
  | true, c :: cs => let r := splitLay true cs; (c :: r.1, r.2)
  | false, c :: cs => if Blank c then let r := splitLay false cs; (c :: r.1, r.2) else ([], c :: cs)

/-- the characters up to the quote `q`, and the rest -/
def readItems (q : Char) : Bool → List Char → Option (List Nat × List Char)
  | _, [] => none
  | true, c :: cs => match escapes.lookup c with
    | some v => (readItems q false cs).map fun r => (v :: r.1, r.2)
    | none => none
  | false, c :: cs => if c = q then some ([], cs) else if c = '*' then readItems q true cs
    else (readItems q false cs).map fun r => (c.toNat :: r.1, r.2)

/-- division into tokens; all words are `Tok.word` -/
def refTok : Nat → List Char → Option (List (Tok × List Char))
  | 0, _ => none
  | _, [] => some []
  | n + 1, c :: cs =>
    let go (t : Tok) (r : List Char) := (refTok n (splitLay false r).2).map ((t, (splitLay false r).1) :: ·)
    if Digit c then go (.num ((c :: cs).takeWhile fun c => decide (Digit c))) ((c :: cs).dropWhile fun c => decide (Digit c))
    else if IdentChar c then
      let w := (c :: cs).takeWhile fun c => decide (IdentChar c)
      let r := (c :: cs).dropWhile fun c => decide (IdentChar c)
      go (.word w) r
    else if c = '"' then match readItems '"' false cs with | some r => go (.str r.1) r.2 | none => none
    else if c = '\'' then match readItems '\'' false cs with | some r => go (.chr r.1) r.2 | none => none
    else match [3, 2, 1].find? fun k => decide ((c :: cs).take k ∈ symbols ∧ ((c :: cs).take k).length = k) with
      | some k => go (.sym ((c :: cs).take k)) ((c :: cs).drop k)
      | none => none

/-- the tree of a text, if it can be found -/
def refParse (pr : Bop → Nat) (text : List Char) : Option Program := do
  let l := splitLay false text
  let ts ← refTok (text.length + 1) l.2
  let p ← rpProg pr (2 * text.length + 20) (ts.map (·.1))
  let r := p.used.zip (ts.map (·.2))
  if p.used.length = ts.length ∧ renderOk r = true ∧ layoutOk false l.1 = true ∧ l.1 ++ render r = text then some p.tree else none

theorem refParse_sound {pr : Bop → Nat} {text : List Char} {p : Program} (h : refParse pr text = some p) : Careful pr text p := by
  simp only [refParse, bind, Option.bind_eq_some_iff] at h
  obtain ⟨ts, _, q, _, h⟩ := h
  split at h
  case isFalse => cases h
  case isTrue hc =>
    cases h
    obtain ⟨h1, h2, h3, h5⟩ := hc
    have h4 : (q.used.zip (ts.map (·.2))).map (·.1) = q.used := List.map_fst_zip (by simp [h1])
    refine ⟨q.used, ?_, q.ok⟩
    have := spaced_render h3 h2
    rwa [h4, h5] at this

end Blang
