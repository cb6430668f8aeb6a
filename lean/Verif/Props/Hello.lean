import Verif.Spec.Linked
import Verif.Props.Parsing
import Verif.Props.Runtime
import Verif.Props.Module
/-
Property C53: printing a literal string, end to end over the compiler and the runtime library.
-/
namespace Blang.Props
open Blang Blang.Spec

/-- the program `main(){printf("...");}` where the literal has the character values `vs` -/
def helloTree (vs : List Nat) : Program :=
  [.func "main".toList [] (.seq (.expr (.callName "printf".toList [.str vs])) .skip)]

/-- its text, with the literal written as `t` -/
def helloText (t : List Char) : List Char := "main(){printf(\"".toList ++ t ++ "\");}".toList

/-- no symbol is a proper extension of these -/
theorem munch_punct {s r : List Char} (h : extensions s = []) : MaxMunch s r := by
  intro x hx; rw [h] at hx; cases hx

theorem main_chars : "main".toList = ['m', 'a', 'i', 'n'] := by decide +kernel
theorem printf_chars : "printf".toList = ['p', 'r', 'i', 'n', 't', 'f'] := by decide +kernel

theorem text_cons {inp rest : List Char} {t : Tok} {ts : List Tok} (h : Lexes false inp t rest) (hp : t.Plain) (hr : Text rest ts) :
    Text inp (t :: ts) := .cons (lay := []) h hp .nil (fun _ _ _ _ => rfl) hr

theorem helloText_eq (t : List Char) : helloText t = "main(){printf(\"".toList ++ t ++ "\");}".toList := rfl

theorem hello_chars (t : List Char) : helloText t = ['m', 'a', 'i', 'n'] ++ (['('] ++ ([')'] ++ (['{'] ++ (['p', 'r', 'i', 'n', 't', 'f'] ++ (['('] ++
    ('"' :: t ++ '"' :: ([')'] ++ ([';'] ++ (['}'] ++ []))))))))) := by
  have e1 : "main(){printf(\"".toList = ['m', 'a', 'i', 'n', '(', ')', '{', 'p', 'r', 'i', 'n', 't', 'f', '(', '"'] := by decide +kernel
  have e2 : "\");}".toList = ['"', ')', ';', '}'] := by decide +kernel
  refine (helloText_eq t).trans ?_
  rw [e1, e2]; simp

theorem hello_careful {t : List Char} {vs : List Nat} (h : Items '"' t vs) : Careful prec (helloText t) (helloTree vs) := by
  have e := hello_chars t
  rw [e, helloTree, main_chars, printf_chars]
  have k1 : ['m', 'a', 'i', 'n'] ≠ "else".toList ∧ ¬ "else_".toList <+: ['m', 'a', 'i', 'n'] := by decide +kernel
  have k2 : (['p', 'r', 'i', 'n', 't', 'f'] ≠ "else".toList ∧ ¬ "else_".toList <+: ['p', 'r', 'i', 'n', 't', 'f']) ∧
    ∀ c ∈ ['p', 'r', 'i', 'n', 't', 'f'], c.toNat < 128 := by decide +kernel
  refine ⟨[.defn ['m', 'a', 'i', 'n'], .sym ['('], .sym [')'], .sym ['{'], .head ['p', 'r', 'i', 'n', 't', 'f'], .sym ['('], .str vs, .sym [')'], .sym [';'],
    .sym ['}']], ⟨[], _, rfl, .nil, ?_⟩, ?_⟩
  · refine text_cons (.defn (w := ['m', 'a', 'i', 'n']) (by simp) (by decide +kernel) (by show ¬ IdentChar '('; decide)) k1 ?_
    refine text_cons (.sym (s := ['(']) (by decide +kernel) (munch_punct (by decide +kernel))) trivial ?_
    refine text_cons (.sym (s := [')']) (by decide +kernel) (munch_punct (by decide +kernel))) trivial ?_
    refine text_cons (.sym (s := ['{']) (by decide +kernel) (munch_punct (by decide +kernel))) trivial ?_
    refine text_cons (.head (w := ['p', 'r', 'i', 'n', 't', 'f']) (by decide +kernel) (by decide +kernel) (by show ¬ IdentChar '('; decide) (by decide +kernel)) k2 ?_
    refine text_cons (.sym (s := ['(']) (by decide +kernel) (munch_punct (by decide +kernel))) trivial ?_
    refine text_cons (.str h) trivial ?_
    refine text_cons (.sym (s := [')']) (by decide +kernel) (munch_punct (by decide +kernel))) trivial ?_
    refine text_cons (.sym (s := [';']) (by decide +kernel) (munch_punct (by decide +kernel))) trivial ?_
    exact text_cons (.sym (s := ['}']) (by decide +kernel) (munch_punct (by decide +kernel))) trivial .nil
  · refine ProgGram.cons (us := []) (.func (ts := [.sym [')']]) .none (.block (.cons (us := [.sym ['}']])
      (.exprHead (ts := [.sym ['('], .str vs, .sym [')']]) ?_) .nil))) .nil
    exact .callName (by decide) (by decide +kernel) (AGram.last (ts := [.str vs]) .str)

theorem hello_clear (vs : List Nat) : (helloTree vs).Clear := by
  simp [helloTree, Program.Clear, Program.ClearIn, Decl.Clear, St.Clear, Ex.Clear, Ex.ClearArgs]

theorem hello_tame (vs : List Nat) : (helloTree vs).Tame := by
  refine ⟨?_, ?_⟩
  · intro f ps b h
    simp only [helloTree, List.mem_singleton, Decl.func.injEq] at h
    obtain ⟨rfl, rfl, rfl⟩ := h
    refine ⟨rfl, by simp [St.labels], by simp [St.Distinct], by simp [St.autos], by simp [St.sizes]⟩
  · simp [helloTree, Program.place, Env.afterDecl, Env.enter, Env.after, Env.afterEx, Env.empty]

theorem hello_module {t : List Char} {vs : List Nat} (h : Items '"' t vs) :
    ∃ m, compileText (helloText t) .eof = .ok m ∧ TreeOf (helloText t) (helloTree vs) m ∧
      ((∀ v ∈ vs, v < 128) → ∃ g ∈ m.globals, g.sym = strSym 0 ∧ g.init = .bytes (cString vs)) := by
  have hc := hello_careful h
  obtain ⟨m, hm⟩ := (careful_accepted hc (hello_clear vs)).2 (by
    simp [helloTree, Program.Scoped, Decl.Scoped, Decl.CasesOk, St.CasesOk, St.Scoped, Ex.Wf, Ex.WfArgs, Env.empty])
  have ht := (careful_tree hc (hello_clear vs) m).1 hm
  refine ⟨m, hm, ht, fun hv => ?_⟩
  obtain ⟨c, hb, rfl⟩ := tree_between ht
  obtain ⟨s1, _⟩ := (hb.mid (reads_names ht.1)).str
  have : strConst vs 0 ∈ c.globals.filter (·.priv) := by
    rw [s1]; simp [helloTree, Decl.strings, St.strings, Ex.strings, Ex.stringsArgs]
  refine ⟨strConst vs 0, (List.mem_filter.1 this).1, rfl, ?_⟩
  simp only [strConst, stringBytes_ascii hv]

theorem expand_plain {str : BitVec 64 → List (BitVec 8) → Prop} {bs : List (BitVec 8)} (h : ∀ b ∈ bs, b ≠ 37#8) : Expand str bs [] bs := by
  induction bs with
  | nil => exact .done
  | cons b bs ih => exact .plain (h b (by simp)) (ih fun c hc => h c (by simp [hc]))

/-- C53. Let `t` be the text of a string literal whose characters are ASCII characters other than NUL and
`%`.  Then `main(){printf("t");}` is accepted, and its module, linked with the runtime library and loaded
into memory, does the following when `main` is called with `fout` 0: it returns 0 and writes exactly these characters to file descriptor 1. -/
theorem C53_hello {t : List Char} {vs : List Nat} (h : Items '"' t vs) (hv : ∀ v ∈ vs, 0 < v ∧ v < 128 ∧ v ≠ '%'.toNat) :
    ∃ m, compileText (helloText t) .eof = .ok m ∧
      ∀ (M : IRMachine) (X : Calls M.World) (see : Store M.World → RTState) (sc : Bool), RuntimeAt M X see sc →
        ∀ σ, StringsIn m M σ.mem → (see σ).fout = 0 →
          ∃ σ', Module.Does m M X "main".toList [] σ 0 σ' ∧
            writtenTo 1 (see σ').trace = writtenTo 1 (see σ).trace ++ vs.map (BitVec.ofNat 8) ∧
            ∀ fd, fd ≠ 1 → writtenTo fd (see σ').trace = writtenTo fd (see σ).trace := by
  obtain ⟨m, hm, ht, hg⟩ := hello_module h
  refine ⟨m, hm, ?_⟩
  intro M X see sc hr σ hs h0
  obtain ⟨g, hgm, hsym, hinit⟩ := hg fun v hv' => (hv v hv').2.1
  have nz : ∀ b ∈ vs.map (BitVec.ofNat 8), b ≠ 0 ∧ b ≠ 37#8 ∧ b.toNat < 128 := by
    intro b hb
    obtain ⟨v, hv', rfl⟩ := List.mem_map.1 hb
    obtain ⟨a1, a2, a3⟩ := hv v hv'
    have e : (BitVec.ofNat 8 v).toNat = v := by simp [BitVec.toNat_ofNat]; omega
    refine ⟨fun e' => ?_, fun e' => ?_, by omega⟩
    · rw [e'] at e; simp at e; omega
    · rw [e'] at e; simp at e; exact a3 (by rw [← e]; decide)
  -- the format string
  have hstr : StrAt σ.mem (M.addr (strSym 0)) (vs.map (BitVec.ofNat 8)) := by
    have key := hs g hgm _ hinit
    rw [hsym] at key
    constructor
    · intro i hi
      have := key i (by simp [cString] at hi ⊢; omega)
      simp only [cString, List.getElem_append_left hi] at this
      exact ⟨this, (nz _ (List.getElem_mem hi)).1⟩
    · have := key vs.length (by simp [cString])
      simpa [cString] using this
  -- what printf does
  have hem : ∀ junk stream, Emits (rtPrintf sc (26 + vs.length) junk (M.addr (strSym 0)) stream) (see σ) () (vs.map (BitVec.ofNat 8)) := by
    intro junk stream
    refine C49_printf_partial (as := []) (by rw [hr.mem]; exact hstr) ?_ (by simp) (expand_plain fun b hb => (nz b hb).2.1) (by simp) (by omega)
      (by simp)
    intro b hb _; exact (nz b hb).2.2
  obtain ⟨junk, stream, _, hrt⟩ := hr.printf (M.addr (strSym 0)) [] σ
  obtain ⟨ws, e1, e2, e3⟩ := hem junk stream
  obtain ⟨v, σ1, hX, hsee⟩ := hrt _ _ e1
  refine ⟨.back M.leave σ σ1, ?_, ?_⟩
  · refine C15_control_flow ht (hello_tame vs) (n := 0) ⟨[], _, _, ⟨[], [], rfl, by simp, rfl⟩, by simp, ?_⟩
    have hp : (M.toB.params σ.world 0) = ([], σ.world) := rfl
    refine .head .seq (.head (.expr (v := v) (σ' := σ1) ⟨.val v, ?_, rfl⟩) (.head .endSeq (.head .endFun .refl)))
    refine ⟨.val (M.addr (symbolOf "printf".toList)), [M.addr (strSym 0)], σ, v, ?_, ?_, hX, rfl⟩
    · simp [nameRes, Env.enter]
    · exact ⟨_, _, [], ⟨rfl, rfl⟩, ⟨rfl, rfl⟩, rfl⟩
  · have htr : (see (Store.back M.leave σ σ1)).trace = (see σ).trace ++ ws := by
      rw [Store.back, hr.leave, hsee]
    rw [htr]
    have hws : ∀ w ∈ ws, w.1 = 1 := by intro w hw; rw [e2 w hw, h0]; rfl
    constructor
    · have : ws.filter (fun x => decide (x.1 = 1)) = ws := List.filter_eq_self.2 fun w hw => by simpa using hws w hw
      simp only [writtenTo, List.filter_append, this, List.map_append, List.flatten_append, e3]
    · intro fd hfd
      have : ws.filter (fun x => decide (x.1 = fd)) = [] := List.filter_eq_nil_iff.2 fun w hw => by
        simp only [decide_eq_true_eq]; rw [hws w hw]; exact fun e => hfd e.symm
      simp only [writtenTo, List.filter_append, this, List.append_nil]

/-- the literal `"hello*n"` -/
example : Items '"' "hello*n".toList [104, 101, 108, 108, 111, 10] :=
  .cons (t := ['h']) (.plain (by decide) (by decide)) (.cons (t := ['e']) (.plain (by decide) (by decide))
    (.cons (t := ['l']) (.plain (by decide) (by decide)) (.cons (t := ['l']) (.plain (by decide) (by decide))
      (.cons (t := ['o']) (.plain (by decide) (by decide)) (.cons (t := ['*', 'n']) (.esc (by decide)) .nil)))))

/-- A machine with the runtime library: the world is what the runtime library sees; `alloca` yields address 0 and is never used here. -/
def rtMachine : IRMachine where
  World := RTState
  alloc w _ := (0, w)
  leave _ w := w
  addr s := if s = strSym 0 then 4096 else 65536

/-- its external functions: only `printf` -/
def rtCalls : Calls rtMachine.World := fun a args σ v σ' =>
  a = rtMachine.addr (symbolOf "printf".toList) ∧ v = 0 ∧ ∃ fmt as fuel s, args = fmt :: as ∧
    rtPrintf true fuel (fun _ => 0) fmt (fun i => as[i]?.getD 0) { σ.world with mem := σ.mem } = .ok () s ∧ σ' = ⟨s.mem, s⟩

/-- the hypotheses on the machine in `C53_hello` are met -/
example : RuntimeAt rtMachine rtCalls (fun σ => { σ.world with mem := σ.mem }) true where
  mem _ := rfl
  printf fmt args σ := by
    refine ⟨fun _ => 0, fun i => args[i]?.getD 0, fun i h => by simp [h], fun fuel s hs => ?_⟩
    exact ⟨0, ⟨s.mem, s⟩, ⟨rfl, rfl, fmt, args, fuel, s, rfl, hs, rfl⟩, rfl⟩
  leave σ w := rfl

end Blang.Props
