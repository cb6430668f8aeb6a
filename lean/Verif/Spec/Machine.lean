import Verif.Spec.Names
/-
Memory and machine that both the meaning of B programs (Spec/BSem.lean) and the meaning of the
emitted code (Spec/IRSem.lean) refer to.
-/
namespace Blang.Spec

abbrev Byte := BitVec 8

/-- Byte-addressed memory. -/
abbrev Mem := Word → Byte

/-- the word at address `a`: 8 bytes, the least significant first -/
def loadW (m : Mem) (a : Word) : Word :=
  BitVec.ofNat 64 ((m a).toNat + (m (a + 1)).toNat * 2 ^ 8 + (m (a + 2)).toNat * 2 ^ 16 + (m (a + 3)).toNat * 2 ^ 24 +
    (m (a + 4)).toNat * 2 ^ 32 + (m (a + 5)).toNat * 2 ^ 40 + (m (a + 6)).toNat * 2 ^ 48 + (m (a + 7)).toNat * 2 ^ 56)

/-- the memory after writing the word `v` at address `a` -/
def storeW (m : Mem) (a v : Word) : Mem := fun b =>
  if (b - a).toNat < 8 then BitVec.ofNat 8 (v.toNat / 2 ^ (8 * (b - a).toNat)) else m b

/-- the words at `a` and `b` do not overlap -/
def Apart (a b : Word) : Prop := 8 ≤ (b - a).toNat ∧ 8 ≤ (a - b).toNat

/-- What a running program can change: the memory, and the rest of the world (which storage is
reserved, what has been read and written, ...), about which nothing is assumed. -/
structure Store (World : Type) where
  mem : Mem
  world : World

def Store.store {World : Type} (s : Store World) (a v : Word) : Store World := { s with mem := storeW s.mem a v }

/-- What calling the function at an address with arguments may do: a result and a new store. -/
abbrev Calls (World : Type) := Word → List Word → Store World → Word → Store World → Prop

end Blang.Spec
