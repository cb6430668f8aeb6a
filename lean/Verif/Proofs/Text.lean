/-
Checks about particular texts: the kernel is slow at turning a string literal into the list of its characters (it decodes the bytes), so
the literal is replaced by the list first.
-/
namespace Blang

theorem lit_toList (l : List Char) : (String.ofList l).toList = l := String.toList_ofList

/-- `decide +kernel` for a goal about the text `t`, a definition of the form `"...".toList` -/
macro "decide_text " t:ident : tactic => `(tactic| (rw [show $t = _ from lit_toList _]; decide +kernel))

end Blang
