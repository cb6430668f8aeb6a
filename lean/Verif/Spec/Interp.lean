import Verif.Spec.Room
import Verif.Spec.Module
/-
An interpreter for B programs: it computes what a program prints, without knowing where things are in memory.

Memory consists of blocks of words; a value is a number, a pointer to a word of a block, (the address of) a string literal, or
something unknown.  Whatever would depend on the placement of things in memory is refused (`none`), as is what has no meaning in B.
-/
namespace Blang.Spec
namespace Interp

/-- a value -/
inductive AV where
  | int (w : Word)
  | ptr (b o : Nat)
  | lit (n : Nat)
  | fn (f : Ident)
  | unk
  deriving DecidableEq, Repr

/-- the value does not point to a block beyond the first `n` -/
def AV.ok (n : Nat) : AV → Bool
  | .ptr b _ => decide (b < n)
  | _ => true

/-- what the interpreter keeps: the blocks of memory, what has been printed, and how many more blocks may be reserved -/
structure AS where
  mem : List (List AV)
  out : List Byte
  room : Nat

/-- the word at place `o` of the block `b` -/
def AS.load (s : AS) (b o : Nat) : Option AV := s.mem[b]?.bind (·[o]?)

def AS.store (s : AS) (b o : Nat) (v : AV) : Option AS :=
  if (s.load b o).isSome then some { s with mem := s.mem.modify b (·.set o v) } else none

/-- no word of memory points beyond the first `n` blocks -/
def AS.ok (n : Nat) (s : AS) : Bool := s.mem.all (·.all (AV.ok n))

/-- a new block of `n` words -/
def AS.alloc (N : Nat) (s : AS) (n : Nat) : Option AS := match s.room with
  | 0 => none
  | r + 1 => if n ≤ N ∧ s.ok s.mem.length = true then some ⟨s.mem ++ [List.replicate n .unk], s.out, r⟩ else none

/-- what an expression yields -/
inductive AR where
  | cell (b o : Nat)
  | val (v : AV)

def AR.value (s : AS) : AR → Option AV
  | .cell b o => s.load b o
  | .val v => some v

/-- the number, if it is one -/
def AV.num : AV → Option Word
  | .int w => some w
  | _ => none

/-- where the variables of a function are -/
abbrev AF := List (Ident × Nat)

def AF.find (fr : AF) (x : Ident) : Option Nat := (fr.find? (·.1 = x)).map (·.2)

def AR.cell? : AR → Option (Nat × Nat)
  | .cell b o => some (b, o)
  | _ => none

def AV.ptr? : AV → Option (Nat × Nat)
  | .ptr b o => some (b, o)
  | _ => none

/-- the function, if it is one -/
def AV.fn? : AV → Option Ident
  | .fn f => some f
  | _ => none

/-- the value of an operation: on numbers, and the distance in bytes of two words of a block -/
def operate : Bop → AV → AV → Option AV
  | o, .int x, .int y => (o.sem x y).map .int
  | .sub, .ptr b i, .ptr c j => if b = c then some (.int (8 * BitVec.ofNat 64 i - 8 * BitVec.ofNat 64 j)) else none
  | _, _, _ => none

/-- what a name denotes -/
def named (gl : AF) (E : Env) (fr : AF) (x : Ident) : Option AR :=
  if x ∈ E.locals then (fr.find x).map (.cell · 0)
  else if x ∈ E.exts then (gl.find x).map (.cell · 0)
  else some (.val (.fn x))

section
variable (call : Ident → List AV → AS → Option (AV × AS)) (gl : AF) (E : Env) (fr : AF)

mutual
def eval : Ex → Nat → AS → Option (AR × AS)
  | .num v, _, s => some (.val (.int v), s)
  | .str _, n, s => some (.val (.lit n), s)
  | .var x, _, s => (named gl E fr x).bind fun d => some (d, s)
  | .paren e, n, s => (eval e n s).bind fun (d, s1) => (d.value s1).bind fun v => some (.val v, s1)
  | .index a i, n, s =>
    (eval a n s).bind fun (d1, s1) => (d1.value s1).bind fun v1 => v1.ptr?.bind fun (b, o) =>
    (eval i (n + a.strings.length) s1).bind fun (d2, s2) => (d2.value s2).bind fun v2 => v2.num.bind fun k =>
    some (.cell b (o + k.toNat), s2)
  | .callName f as, n, s =>
    (named gl E fr f).bind fun d => (d.value s).bind fun u => u.fn?.bind fun g =>
    (evalArgs as n s).bind fun (vs, s1) => (call g vs s1).bind fun (v, s2) => some (.val v, s2)
  | .call f as, n, s =>
    (eval f n s).bind fun (d, s1) => (d.value s1).bind fun u => u.fn?.bind fun g =>
    (evalArgs as (n + f.strings.length) s1).bind fun (vs, s2) => (call g vs s2).bind fun (v, s3) => some (.val v, s3)
  | .post d e, n, s =>
    (eval e n s).bind fun (r, s1) => r.cell?.bind fun (b, o) => (s1.load b o).bind fun v => v.num.bind fun x =>
    (s1.store b o (.int (d.sem x))).bind fun s2 => some (.val (.int x), s2)
  | .pre d e, n, s =>
    (eval e n s).bind fun (r, s1) => r.cell?.bind fun (b, o) => (s1.load b o).bind fun v => v.num.bind fun x =>
    (s1.store b o (.int (d.sem x))).bind fun s2 => some (.cell b o, s2)
  | .not e, n, s => (eval e n s).bind fun (d, s1) => (d.value s1).bind fun v => v.num.bind fun x =>
    some (.val (.int (truth (x = 0))), s1)
  | .neg e, n, s => (eval e n s).bind fun (d, s1) => (d.value s1).bind fun v => v.num.bind fun x =>
    some (.val (.int (BitVec.ofInt 64 (-x.toInt))), s1)
  | .deref e, n, s => (eval e n s).bind fun (d, s1) => (d.value s1).bind fun v => v.ptr?.bind fun (b, o) =>
    some (.cell b o, s1)
  | .addr e, n, s => (eval e n s).bind fun (d, s1) => d.cell?.bind fun (b, o) => some (.val (.ptr b o), s1)
  | .bin o x y, n, s =>
    (eval x n s).bind fun (d1, s1) => (d1.value s1).bind fun v1 =>
    (eval y (n + x.strings.length) s1).bind fun (d2, s2) => (d2.value s2).bind fun v2 =>
    (operate o v1 v2).bind fun v => some (.val v, s2)
  | .cond c t e, n, s =>
    (eval c n s).bind fun (d, s1) => (d.value s1).bind fun v => v.num.bind fun w =>
    (if w ≠ 0 then eval t (n + c.strings.length) s1 else eval e (n + c.strings.length + t.strings.length) s1).bind fun (d2, s2) =>
    (d2.value s2).bind fun v2 => some (.val v2, s2)
  | .assign none x y, n, s =>
    (eval x n s).bind fun (d1, s1) => d1.cell?.bind fun (b, o) =>
    (eval y (n + x.strings.length) s1).bind fun (d2, s2) => (d2.value s2).bind fun v =>
    (s2.store b o v).bind fun s3 => some (.val v, s3)
  | .assign (some op) x y, n, s =>
    (eval x n s).bind fun (d1, s1) => d1.cell?.bind fun (b, o) =>
    (eval y (n + x.strings.length) s1).bind fun (d2, s2) => (d2.value s2).bind fun v => v.num.bind fun w2 =>
    (s2.load b o).bind fun u => u.num.bind fun w1 => (op.sem w1 w2).bind fun w =>
    (s2.store b o (.int w)).bind fun s3 => some (.val (.int w), s3)

def evalArgs : List Ex → Nat → AS → Option (List AV × AS)
  | [], _, s => some ([], s)
  | e :: es, n, s =>
    (eval e n s).bind fun (d, s1) => (d.value s1).bind fun v =>
    (evalArgs es (n + e.strings.length) s1).bind fun (vs, s2) => some (v :: vs, s2)
end

/-- the value of an expression at a place -/
def value (P : Place) (e : Ex) (s : AS) : Option (AV × AS) :=
  (eval call gl P.env fr e P.lits s).bind fun (d, s1) => (d.value s1).bind fun v => some (v, s1)

end

/-- a new block for a variable; all variables known are among the blocks there are, of which the first `k` belong to the callers -/
def newVar (N k : Nat) (gl : AF) (fr : AF) (s : AS) (n : Nat) : Option AS :=
  if k ≤ s.mem.length ∧ (fr ++ gl).all (fun p => decide (p.2 < s.mem.length)) = true then s.alloc N n else none

/-- the declarations of an `auto` statement -/
def declare (N k : Nat) (gl : AF) : List (Ident × Option Word) → AF → AS → Option (AF × AS)
  | [], fr, s => some (fr, s)
  | (x, none) :: ds, fr, s =>
    (newVar N k gl fr s 1).bind fun s1 => (s1.store s.mem.length 0 (.int 0)).bind fun s2 => declare N k gl ds ((x, s.mem.length) :: fr) s2
  | (x, some n) :: ds, fr, s =>
    (newVar N k gl fr s ((if n = 0 then 1 else n.toNat) + 1)).bind fun s1 =>
    (s1.store s.mem.length 0 (.ptr s.mem.length 1)).bind fun s2 => declare N k gl ds ((x, s.mem.length) :: fr) s2

/-- states of a running function -/
inductive AC where
  | run (P : Place) (t : St) (k : Cont) (fr : AF) (s : AS)
  | done (v : AV) (s : AS)

section
variable (call : Ident → List AV → AS → Option (AV × AS)) (N k0 : Nat) (gl : AF) (P0 : Place) (body : St)

/-- one step -/
def step : AC → Option AC
  | .done _ _ => none
  | .run _ .skip .stop _ s => some (.done (.int 0) s)
  | .run _ .skip (.seq Q t k) fr s => some (.run Q t k fr s)
  | .run _ .skip (.loop Q c b k) fr s => some (.run Q (.while c b) k fr s)
  | .run P (.seq t u) k fr s => some (.run P t (.seq (P.after t) u k) fr s)
  | .run P (.expr e) k fr s => (value call gl fr P e s).bind fun (_, s1) => some (.run P .skip k fr s1)
  | .run _ (.ret none) _ _ s => some (.done (.int 0) s)
  | .run P (.ret (some e)) _ fr s => (value call gl fr P e s).bind fun (v, s1) => some (.done v s1)
  | .run P (.auto ds) k fr s => (declare N k0 gl ds fr s).bind fun (fr1, s1) => some (.run P .skip k fr1 s1)
  | .run P (.extrn _) k fr s => some (.run P .skip k fr s)
  | .run P (.ifThen c t) k fr s => (value call gl fr P c s).bind fun (v, s1) => v.num.bind fun w =>
    some (if w ≠ 0 then .run (P.afterEx c) t k fr s1 else .run P .skip k fr s1)
  | .run P (.ifElse c t e) k fr s => (value call gl fr P c s).bind fun (v, s1) => v.num.bind fun w =>
    some (if w ≠ 0 then .run (P.afterEx c) t k fr s1 else .run ((P.afterEx c).after t) e k fr s1)
  | .run P (.while c b) k fr s => (value call gl fr P c s).bind fun (v, s1) => v.num.bind fun w =>
    some (if w ≠ 0 then .run (P.afterEx c) b (.loop P c b k) fr s1 else .run P .skip k fr s1)
  | .run P (.switch e b) k fr s => (value call gl fr P e s).bind fun (v, s1) => v.num.bind fun w =>
    some (match findCase w b (P.afterEx e) k with
      | some (Q, t, k') => .run Q t k' fr s1
      | none => .run P .skip k fr s1)
  | .run P (.case _ t) k fr s => some (.run P t k fr s)
  | .run P (.label _ t) k fr s => some (.run P t k fr s)
  | .run _ (.goto l) _ fr s => (findLabel l body P0 .stop).bind fun (Q, t, k') => some (.run Q t k' fr s)

/-- steps until the function returns -/
def steps : Nat → AC → Option (AV × AS)
  | 0, _ => none
  | _ + 1, .done v s => some (v, s)
  | n + 1, x => (step call N k0 gl P0 body x).bind fun y => steps n y
end

/-- new blocks for `n` more parameters -/
def cells (N k : Nat) (gl : AF) : List Ident → AF → AS → Option (AF × AS)
  | [], fr, s => some (fr, s)
  | p :: ps, fr, s => (newVar N k gl fr s 1).bind fun s1 => cells N k gl ps ((p, s.mem.length) :: fr) s1

/-- new blocks for the parameters (behind the first of several, one for what the calling convention needs) -/
def params (N k : Nat) (gl : AF) : List Ident → AS → Option (AF × AS)
  | [], s => some ([], s)
  | [p], s => cells N k gl [p] [] s
  | p :: q :: ps, s => (cells N k gl [p] [] s).bind fun (fr, s1) => (newVar N k gl fr s1 6).bind fun s2 => cells N k gl (q :: ps) fr s2

/-- the arguments are stored -/
def storeArgs : List Nat → List AV → AS → Option AS
  | b :: bs, v :: vs, s => (s.store b 0 v).bind fun s1 => storeArgs bs vs s1
  | _, _, s => some s

/-- the numeral of an integer in base `b` -/
def numeral (b : Nat) (n : Int) : List Char := if n < 0 then '-' :: Nat.toDigits b n.natAbs else Nat.toDigits b n.natAbs

/-- the characters packed in `n` -/
def chars (n : Nat) : List Byte :=
  if n = 0 then [0] else ((List.range 8).reverse.map fun i => BitVec.ofNat 8 (n / 256 ^ i)).dropWhile (· = 0)

instance (b n : Nat) (ds : List Char) : Decidable (Numeral b n ds) := by unfold Numeral; infer_instance
instance (w : Word) (bs : List Byte) : Decidable (PackedChars w bs) := by unfold PackedChars; infer_instance

/-- the bytes of a string literal of ASCII characters -/
def ascii (lits : List (List Nat)) (n : Nat) : Option (List Byte) :=
  lits[n]?.bind fun l => if l.all (fun v => decide (v < 128 ∧ v ≠ 0)) = true then some (l.map (BitVec.ofNat 8)) else none

section
variable (lits : List (List Nat))

/-- what `printf` prints: plain characters, `%d`, `%o`, `%c`, `%s`, `%%`, and others as they stand -/
def format : List Byte → List AV → Option (List Byte)
  | [], _ => some []
  | [c], _ => if c ≠ 37#8 ∧ c.toNat < 128 then some [c] else none
  | c :: d :: f, as =>
    if c ≠ 37#8 then if c.toNat < 128 then (format (d :: f) as).bind fun o => some (c :: o) else none
    else if d = 37#8 then (format f as).bind fun o => some (37#8 :: o)
    else if d ∉ [100#8, 111#8, 99#8, 115#8] then (format (d :: f) as).bind fun o => some (37#8 :: o)
    else match as with
    | .int x :: as =>
      if d = 100#8 then
        if x ≠ BitVec.intMin 64 ∧ Numeral 10 x.toInt.natAbs (Nat.toDigits 10 x.toInt.natAbs) then
          (format f as).bind fun o => some (codes (numeral 10 x.toInt) ++ o) else none
      else if d = 111#8 then
        if Numeral 8 x.toInt.natAbs (Nat.toDigits 8 x.toInt.natAbs) then
          (format f as).bind fun o => some (codes (numeral 8 x.toInt) ++ o) else none
      else if d = 99#8 then
        if PackedChars x (chars x.toNat) then (format f as).bind fun o => some (chars x.toNat ++ o) else none
      else none
    | .lit n :: as => if d = 115#8 then (ascii lits n).bind fun bs => (format f as).bind fun o => some (bs ++ o) else none
    | _ => none

/-- calls of the library: `printf`, `write`, `char` of a string literal, and `nwrite` of a string literal to the standard output -/
def library (f : Ident) (args : List AV) (s : AS) : Option (AV × AS) :=
  match args with
  | .lit n :: as =>
    if f = "printf".toList then (ascii lits n).bind fun l => (format lits l as).bind fun o => some (.unk, { s with out := s.out ++ o })
    else if f = "char".toList then match as with
      | .int i :: _ => (ascii lits n).bind fun l => (l ++ [0#8])[i.toNat]?.bind fun b => some (.int (BitVec.ofNat 64 b.toNat), s)
      | _ => none
    else none
  | .int x :: as =>
    if f = "write".toList then
      if PackedChars x (chars x.toNat) then some (.unk, { s with out := s.out ++ chars x.toNat }) else none
    else if f = "nwrite".toList ∧ x = 1 then match as with
      | .lit n :: .int k :: _ => (ascii lits n).bind fun l =>
        if k.toNat ≤ l.length then some (.unk, { s with out := s.out ++ l.take k.toNat }) else none
      | _ => none
    else none
  | _ => none
end

/-- the last definition of a function, and where it stands (`pre` stands in front of the program) -/
def definition (f : Ident) : Program → Program → Option (List Ident × St × Place)
  | _, [] => none
  | pre, d :: post => (definition f (pre ++ [d]) post).or <| match d with
    | .func g ps b => if g = f then some (ps, b, ⟨(Program.place pre).env.enter f ps, (Program.place pre).lits⟩) else none
    | _ => none

/-- Calls of functions, at most `n` deep: a call reserves blocks that are gone when it returns; nothing may point to them then. -/
def call (p : Program) (N fuel : Nat) (gl : AF) : Nat → Ident → List AV → AS → Option (AV × AS)
  | 0, f, args, s => library (p.flatMap Decl.strings) f args s
  | n + 1, f, args, s => match definition f [] p with
    | none => library (p.flatMap Decl.strings) f args s
    | some (ps, body, P) =>
      if ps.length ≤ args.length ∧ args.all (AV.ok s.mem.length) = true then
        (params N s.mem.length gl ps s).bind fun (fr, s1) =>
        (storeArgs (fr.map (·.2)).reverse args s1).bind fun s2 =>
        (steps (call p N fuel gl n) N s.mem.length gl P body fuel (.run P body .stop fr s2)).bind fun (v, s3) =>
        let mem := s3.mem.take s.mem.length
        if mem.map List.length = s.mem.map List.length ∧ mem.all (·.all (AV.ok s.mem.length)) = true ∧ v.ok s.mem.length = true then
          some (v, ⟨mem, s3.out, s.room⟩)
        else none
      else none

/-- a word of initialised data (`n`: the number of string literals) -/
def ofConst (gs : List (List Char × GInit)) (n : Nat) : Const → AV
  | .int w => .int w
  | .addr x ty i => match gs.findIdx? (·.1 = x) with
    | some b => if elemSize ty = 8 then .ptr b i else if i = 0 then
        match (List.range n).find? (strSym · = x) with
        | some k => .lit k
        | none => .unk
      else .unk
    | none => .unk

/-- memory at the start: a block for each global (none for strings) -/
def start (gs : List (List Char × GInit)) (n room : Nat) : AS :=
  ⟨gs.map fun g => ((wordsOf g.2).getD []).map (ofConst gs n), [], room⟩

/-- where the global variables are -/
def globals (gs : List (List Char × GInit)) (names : List Ident) : AF :=
  names.filterMap fun x => (gs.findIdx? (·.1 = symbolOf x)).map fun b => (x, b)

/-- The globals are fit for the interpreter: different names, none too large, and each string literal in its place with its end. -/
def fit (gs : List (List Char × GInit)) (lits : List (List Nat)) : Bool :=
  decide (gs.map (·.1)).Nodup && gs.all (fun g => decide (((wordsOf g.2).getD []).length ≤ 2 ^ 60)) &&
  (List.range lits.length).all fun n => gs.any fun g => decide (g.1 = strSym n) &&
    match g.2 with
    | .bytes bs => decide ((lits[n]?.getD []).length < bs.length)
    | _ => false

/-- What the program prints, if the interpreter can tell (calls at most `depth` deep, at most `fuel` steps in each, at most `room` blocks of at
most `N` words reserved at any time) and `main` returns 0.  `gs` are the globals of its module. -/
def run (p : Program) (gs : List (List Char × GInit)) (N fuel room depth : Nat) : Option (List Byte) :=
  if fit gs (p.flatMap Decl.strings) = true then
    (call p N fuel (globals gs p.place.env.vars) depth "main".toList [] (start gs (p.flatMap Decl.strings).length room)).bind fun (v, s) =>
    if v = .int 0 then some s.out else none
  else none

end Interp

/-- The machine has room for `k` more blocks of at most `N` words, wherever a program goes from here: each block that it reserves overlaps neither
itself nor anything in use, and what a function has reserved is available again when it has returned. -/
def Computer.Roomy (C : Computer) (N k : Nat) (w : C.Stack) (used : Word → Prop) : Prop :=
  ∃ G : Nat → C.Stack → (Word → Prop) → Prop, G k w used ∧
    (∀ k w used, G (k + 1) w used → ∀ n ≤ N,
      8 * n ≤ 2 ^ 64 ∧ (∀ b, (b - (C.alloc w (8 * n)).1).toNat < 8 * n → ¬ used b) ∧
      G k (C.alloc w (8 * n)).2 fun b => used b ∨ (b - (C.alloc w (8 * n)).1).toNat < 8 * n) ∧
    ∀ k w used, G k w used → ∀ w', G k (C.leave w w') used

end Blang.Spec
