import Verif.Spec.Syntax
/-
Comparison of trees, for examples.
-/
namespace Blang.Spec

mutual
/-- a proof that two expressions are equal, if they are -/
def Ex.same : (a b : Ex) → Option (PLift (a = b))
  | .num v, .num w => if h : v = w then some ⟨by rw [h]⟩ else none
  | .str v, .str w => if h : v = w then some ⟨by rw [h]⟩ else none
  | .var v, .var w => if h : v = w then some ⟨by rw [h]⟩ else none
  | .paren a, .paren b => do let h ← a.same b; pure ⟨by rw [h.down]⟩
  | .index a i, .index b j => do let h ← a.same b; let h' ← i.same j; pure ⟨by rw [h.down, h'.down]⟩
  | .callName f as, .callName g bs => if h : f = g then do let h' ← Ex.sameArgs as bs; pure ⟨by rw [h, h'.down]⟩ else none
  | .call f as, .call g bs => do let h ← f.same g; let h' ← Ex.sameArgs as bs; pure ⟨by rw [h.down, h'.down]⟩
  | .post d a, .post e b => if h : d = e then do let h' ← a.same b; pure ⟨by rw [h, h'.down]⟩ else none
  | .pre d a, .pre e b => if h : d = e then do let h' ← a.same b; pure ⟨by rw [h, h'.down]⟩ else none
  | .not a, .not b => do let h ← a.same b; pure ⟨by rw [h.down]⟩
  | .neg a, .neg b => do let h ← a.same b; pure ⟨by rw [h.down]⟩
  | .deref a, .deref b => do let h ← a.same b; pure ⟨by rw [h.down]⟩
  | .addr a, .addr b => do let h ← a.same b; pure ⟨by rw [h.down]⟩
  | .bin o a i, .bin o' b j => if h0 : o = o' then do let h ← a.same b; let h' ← i.same j; pure ⟨by rw [h0, h.down, h'.down]⟩ else none
  | .cond c a i, .cond c' b j => do let h0 ← c.same c'; let h ← a.same b; let h' ← i.same j; pure ⟨by rw [h0.down, h.down, h'.down]⟩
  | .assign o a i, .assign o' b j => if h0 : o = o' then do let h ← a.same b; let h' ← i.same j; pure ⟨by rw [h0, h.down, h'.down]⟩ else none
  | _, _ => none

def Ex.sameArgs : (a b : List Ex) → Option (PLift (a = b))
  | [], [] => some ⟨rfl⟩
  | a :: as, b :: bs => do let h ← a.same b; let h' ← Ex.sameArgs as bs; pure ⟨by rw [h.down, h'.down]⟩
  | _, _ => none
end

def St.same : (a b : St) → Option (PLift (a = b))
  | .skip, .skip => some ⟨rfl⟩
  | .seq s t, .seq s' t' => do let h ← s.same s'; let h' ← t.same t'; pure ⟨by rw [h.down, h'.down]⟩
  | .expr a, .expr b => do let h ← a.same b; pure ⟨by rw [h.down]⟩
  | .ret none, .ret none => some ⟨rfl⟩
  | .ret (some a), .ret (some b) => do let h ← a.same b; pure ⟨by rw [h.down]⟩
  | .auto v, .auto w => if h : v = w then some ⟨by rw [h]⟩ else none
  | .extrn v, .extrn w => if h : v = w then some ⟨by rw [h]⟩ else none
  | .ifThen c t, .ifThen c' t' => do let h ← c.same c'; let h' ← t.same t'; pure ⟨by rw [h.down, h'.down]⟩
  | .ifElse c t e, .ifElse c' t' e' => do
    let h ← c.same c'; let h' ← t.same t'; let h'' ← e.same e'; pure ⟨by rw [h.down, h'.down, h''.down]⟩
  | .while c t, .while c' t' => do let h ← c.same c'; let h' ← t.same t'; pure ⟨by rw [h.down, h'.down]⟩
  | .switch c t, .switch c' t' => do let h ← c.same c'; let h' ← t.same t'; pure ⟨by rw [h.down, h'.down]⟩
  | .case v t, .case w t' => if h : v = w then do let h' ← t.same t'; pure ⟨by rw [h, h'.down]⟩ else none
  | .label v t, .label w t' => if h : v = w then do let h' ← t.same t'; pure ⟨by rw [h, h'.down]⟩ else none
  | .goto v, .goto w => if h : v = w then some ⟨by rw [h]⟩ else none
  | _, _ => none

deriving instance DecidableEq for Ival

def Decl.same : (a b : Decl) → Option (PLift (a = b))
  | .global x v, .global y w => if h : x = y ∧ v = w then some ⟨by rw [h.1, h.2]⟩ else none
  | .vector x n v, .vector y m w => if h : x = y ∧ n = m ∧ v = w then some ⟨by rw [h.1, h.2.1, h.2.2]⟩ else none
  | .func f ps b, .func g qs c => if h : f = g ∧ ps = qs then do let h' ← b.same c; pure ⟨by rw [h.1, h.2, h'.down]⟩ else none
  | _, _ => none

def Program.same : (a b : List Decl) → Option (PLift (a = b))
  | [], [] => some ⟨rfl⟩
  | a :: as, b :: bs => do let h ← a.same b; let h' ← Program.same as bs; pure ⟨by rw [h.down, h'.down]⟩
  | _, _ => none

/-- compared with an explicit tree -/
def Program.isSame (p : List Decl) : Option (List Decl) → Bool
  | none => false
  | some q => (Program.same q p).isSome

theorem Program.eq_of_same {o : Option (List Decl)} {p : List Decl} (h : Program.isSame p o = true) : o = some p := by
  cases o with
  | none => cases h
  | some q =>
    simp only [Program.isSame] at h
    cases hs : Program.same q p with
    | none => rw [hs] at h; cases h
    | some e => rw [e.down]

end Blang.Spec
