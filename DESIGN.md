# Formal model of blang in Lean 4 — design

`MANIFEST.json` is the authoritative list of which theorem covers which property; `properties.jsonl` has the English
statements; `seeded/LOG.jsonl` the wrong programs the theorems were tested against (`tools/` has the scripts).

The first version of this file was committed before the proofs; this one describes what exists.

## 1. What is modelled

Everything under `lean/Verif/Model` follows the Go/C source function by function; each definition cites its file and lines.

| module | models |
|---|---|
| `Model/Monad.lean` | state + error monad (`R.ok`/`R.err`), loops with fuel |
| `Model/Lexer.lean` | `lexer.go`; a reader delivers runes and then EOF or an I/O error |
| `Model/LexerBuf.lean` | the pushback buffer of the lexer as it is (slice on top of the reader); C07 relates it to `Lexer.lean` |
| `Model/IR.lean` | the data types of llir/llvm that are used: module, global, function, block, instruction, terminator |
| `Model/Builder.lean` | `irbuilder.go`: struct `Compiler` and all its methods |
| `Model/Expr.lean` | `expressions.go` |
| `Model/Stmt.lean` | `parser_stmt.go` |
| `Model/Decl.lean` | `parser_decls.go`, and `compileFile` / `compileText` = the front end on a file (driver.go:47-59) |
| `Model/MapOrder.lean` | `StartFunction` with an arbitrary iteration order of the function map |
| `Model/Driver.lean` | `driver.go`, `options.go`, the option handling of `main.go`, over an abstract file system in which each operation can fail and `clang` is an arbitrary function |
| `Model/Runtime.lean` | `runtime/*.c` on 64-bit words, byte memory, a trace of writes and arbitrary answers of the system |

Parsing and code generation are one pass in Go and so in the model (`parseExpr` etc. emit instructions while reading).

Not modelled: printing of the module as text (`Module.String` of llir; in the driver an arbitrary partial function `print`),
`clang`/LLVM beyond the meaning given to the instructions in `Spec/IRSem.lean`, the operating system beyond the file operations of
`Model/Driver.lean`, error message texts (only that there is an error), cobra's parsing of the command line into flag values,
`test_utils.go`. Source files are byte sequences; runes are bytes (`lexer.go` reads bytes as runes).

## 2. Specifications (`lean/Verif/Spec`, no reference to the compiler unless they speak about its output)

| module | content |
|---|---|
| `Lexical`, `Numerals`, `Comments` | blanks, layout, identifiers, digit values, escapes, decimal/octal numerals, where comments begin |
| `Syntax`, `Tokens`, `Grammar`, `Names` | syntax trees; tokens by longest match; the B grammar as inductive relation token list – tree, parametrised by the operator levels (`prec` of the compiler, `docPrec` documented) |
| `Precedence`, `Careful` | where the two level tables differ; texts laid out as the compiler tolerates |
| `Scope` | static rules: what a name denotes, lvalues, places of `case`, clashes |
| `Machine`, `BSem` | meaning of B: expressions by an evaluation relation, statements by small steps with continuations (goto, switch, loops) |
| `IRSem` | small-step meaning of the emitted instructions |
| `Target`, `Runs`, `Flow` | how a compiled program fills in what B leaves open; "the module does what the program does"; standing conditions |
| `Module`, `Paths`, `Typing`, `Ssa` | vocabulary about emitted modules: symbols, paths, types, validity |
| `Events`, `Wrong` | calls that are made, runs that do not end, runs that go wrong |
| `Image`, `Library` | the data of a module in memory; the library functions as documented, machines, processes and how they end |
| `Driver`, `Linked`, `Files` | vocabulary for the driver; a module linked with the runtime library; several modules linked |

## 3. Technique

1. *Totality.* Loops and recursion of the model take fuel; C08 proves that `8·length+32` is never exhausted, for every input.
2. *Parser soundness* (`Proofs/SoundExpr/SoundStmt/SoundDecl`, `compileText_sound`): every accepted text is a token sequence, the token
   sequence is in the grammar (with the compiler's quirks as extra rules), and the module is `genProg` of the tree. So statements about
   all accepted texts reduce to statements about all trees.
3. *Parser completeness* (`Proofs/Comp*`, `compileText_complete`): every careful text of a tree that obeys the static rules is accepted and yields the
   code of that tree. *Uniqueness* (`Proofs/Unique*`): a token sequence has one tree.
4. *Code generation* (`Proofs/SimExpr … SimProg`, `Static*`, `Det`): forward simulation of the B small steps by IR steps, and determinism of the
   IR, which together give "this and nothing else".
5. *Invariants over all trees* (`Proofs/GenInv … ProgMain`, `Names`, `BlockNames`, `Terminated`, `Undefined`, `Locals`, …): Hoare-style triples over the generator monad.
6. *Driver*: equations and invariants for all worlds, inputs and failure oracles. *Runtime*: loop invariants over `BitVec 64`.

Property theorems are in `Verif/Props/*.lean`, beside them `example`s with concrete programs that satisfy the hypotheses. For the theorems about runs
(`Props/Semantics`, `Props/Endless`) these are in `Props/Samples` and `Props/SamplesEndless`: the tree of the sample text comes from a proof-carrying reference parser
(`Proofs/RefParse`: its result is a tree of the text), the run from an interpreter whose results are proved to be runs of `Spec/BSem` (`Proofs/Interp`), and the kernel
evaluates both. These are only used in samples; no property theorem depends on them.

## 4. Properties

* C01–C07 (`Props/Lexer`, `Props/Comments`): functional equations of the lexer against `Spec/Lexical`. C02 holds for texts without an unclosed comment right
  behind `else`; C06 for ASCII characters.
* C08, C09 (`Props/Termination`): for every byte sequence and tail.
* C10, C13, C21, C22, C31, C32 (`Props/Parsing`, `Props/Scope`): one tree per token sequence; the module is the code of that tree; acceptance iff the static
  rules hold (and no function name stands before `==` or an assignment operator: `Proofs/ClearExpr`, `ClearStmt`). C10 excepts unparenthesised shifts right of a relational operator; C31/C32 except the places where the compiler does not tolerate layout.
* C11, C12, C14–C18, C23, C30, C33, C34, C53 (`Props/Semantics`, `Props/Hello`): simulation theorems, for all programs under the standing conditions `Program.Tame`
  (nothing behind a `return` in the same line of control; no label or case twice; locals not called by name; no size 2^64-1; no name both variable and function),
  for all machines, stores, arguments and external functions.
* C19, C20, C54, C56–C60 (`Props/Blocks`, `Props/Valid`): validity of the emitted code: names, terminators, types (`Spec/Typing`), references (`Spec/Symbols`), numbers of arguments (`Spec/Calls`),
  single assignment, branches and phi instructions (`Spec/Ssa`). C57/C58 by an invariant with ghost state (`Proofs/Ssa`, `SsaSt`, `SsaEx`, `SsaStmt`): the registers known
  at the entry of the blocks of `?:` and of the comparison block of `switch`; these are the only values that live across blocks.
* C61, C62 (`Props/Endless`): the same simulation, for runs that need not end (`Spec/Events`): calls that are made but do not return, and non-termination, the latter by a
  measure that bounds the steps of the program without a step of the code.
* C65, C66 (`Props/Exact`): the converse. A run of the program ends, gets stuck or is endless (classical logic); in each case the simulation and the determinism of the code leave no other
  outcome for the code. For C66 the run is cut off at the call in question by letting it not return (`Proofs/Less`). `Spec/Wrong` says when a program goes wrong (its meaning is undefined).
* C67 (`Spec/Image`, `Props/Image`): the data of the module as bytes and words in memory, from the layout theorems behind C06, C28 and C29; combined with C65 for the exit status.
* C63, C64 (`Props/Files`): the simulation for each function of each file (it is generic in the calls), and a proof that the meaning of a function does not depend on what
  precedes it except for the numbers of the string literals (`Proofs/Files`); texts on separate lines are read one after the other (`Proofs/Join`); which symbols a module defines (`Proofs/Owns`).
* C25, C64 exactly (`Props/Once`): when a symbol is defined twice, in one module or in two.
* C24–C29, C27, C52 (`Props/Module`, `Props/Globals`, `Props/MapOrder`): the emitted globals and functions.
* C35–C45 (`Props/Driver`): the driver and the command line.
* C46–C51, C55, C68 (`Props/Runtime`): the runtime library, for every answer of the operating system to its `read` and `write` calls.
* C71, C72 (`Spec/Library`, `Props/Process`, `Props/Copy`): processes. C65 and C66 with the library functions as external functions; each library function, in every state,
  does what is documented (`Proofs/Library`, from C46–C51); a call of `exit`, which does not return, is the last thing that happens. C72: one program, for every input.
* C73 (`Spec/Alike`, `Proofs/Alike`, `Props/Alike`): order and names. A simulation in both directions between the runs of a function and of its renamed
  copy elsewhere in another program (local variables, labels and names of globals renamed by bijections, literals renumbered); it keeps results, calls made and
  going wrong; with C65 and C66 this holds of the modules. Permutations of declarations and renamings are instances.
* C74 (`Spec/Room`, `Spec/Fib`, `Props/Examples`, `Props/Fibonacci`, `Props/Fizzbuzz`, `Props/SamplesExamples`): four example programs of the repository,
  from their text to the bytes that the process writes, by C71 and loop invariants about the prescribed behaviour.
* C75 (`Spec/Euler`, `Proofs/Spigot`, `Proofs/EulerReal`, `Props/Euler*`, `Props/SamplesEuler`): `e-2.b` in the same way; that what it writes are the decimals of the
  real number e - 2 is proved with Mathlib's `Real.exp` (the only use of Mathlib).
* C76, C36 exactly (`Spec/Honest`, `Props/Honest`): the exit status and what is left behind. What success and failure mean is defined by the steps of a run (files created, written, closed, removed, clang run) as the
  environment answers them; by induction over the inputs.
* C77 (`Spec/Size`, `Proofs/Size`, `Proofs/SizeText`, `Props/Size`): the size of the module. A bound for each builder operation, added up over the tree, then the tree against the tokens and
  the tokens against the text. The bound has a term for the declared sizes of vectors with initial values, which are written out word by word (proved: `v[N] 1;` gives N + 2 units).
* C16 for all programs (`Spec/Effective`, `Proofs/Effective`, `Props/Effective`, `Props/SamplesEffective`): the generator only looks at the end of the current block where a label, case or the end of a
  branch, loop, switch or function follows (`Blind`, `Cuts`: equations of the generator with the end of the current block taken away), so a `return` with another turn of control behind it generates what its
  expression generates; with C15, C65, C66, C71 this gives what such a program does.
* C69 (`Props/Outputs`): several inputs, each with its own output; what happens when names coincide.
* C70 (`Props/Touched`): every event of every run is one of those permitted.

* C78–C96: where a property above is false of the code as a user would state it, its exact form, which is true: C78 (C06), C79 (C19), C80 (C20), C81 (C25), C82 (C29), C83 (C32), C84 (C36), C85 (C49),
  C86 (C60), C87 (C64), C88 (C16), C89 (C10), C90 (C54; sufficient in `Proofs/Declared*.lean`, necessary in `Proofs/Necessary*.lean`),
  C91 (C34; `Proofs/Apart`: renaming the called locals changes neither the code nor the symbols, by a lock-step relation between the two generators),
  C92 (C35, C37, C40, C42; `Props/Leaves`: induction over the inputs before the first unusable one; C95 in `Props/LeavesOne` is its counterpart for the modes with one output per input), C93 (C02; `Props/Else`),
  C94 (C31; `Proofs/Blanks*.lean`: the parser is run on both texts side by side, function by function, with a relation between the two rests of text; C96 is the same proof with two different blanks, where both runs may fail with different messages). The theorems keep the number of the property they make exact.
* C97: `Spec/Plain.lean` defines which trees differ in redundant punctuation only; `Proofs/Plain.lean` shows that the code generator does the same on both (equality of the generators, by induction over the trees); soundness and completeness of the parser carry this over to texts.
* C98: `Props/Appended.lean`: between two declarations the builder only adds, or replaces what is defined anew (`Between.keepsF`, `Between.keepsG`); the static rules are monotone in what is known as a variable and antitone in what is known as a function, which gives acceptance of the parts and of the whole.
* C99: `Spec/Interp.lean`: the interpreter (symbolic blocks, fuel for steps and depth); `Props/Interp.lean`: a relation between its states and the stores of a machine (`Inv`: a place for each block, all words apart, literals kept, what has been written) is kept by expressions, declarations, steps, calls and returns; the result is a run of the program, hence of the process (C71). `Props/Showcase.lean` runs it, in the kernel, on examples/showcase.b; `Props/SamplesShowcase.lean` gives a machine with room.
* C100: `Props/TestPrograms*.lean` (generated by a script from the Go test files): for each of 80 tests its text, its syntax tree (equal to what the reference parser yields, by kernel computation), the globals of its module and the interpreter's output (C99), computed by the kernel; `Props/SamplesTests.lean` runs four of them on a concrete machine. `tools/tests.py` compares texts and expectations with the Go sources.

Each exception of a `_partial` theorem is itself proved, as a `_counterexample` theorem with a concrete program.

## 5. Behaviour of the code found on the way

Proved in the model (theorem names in `MANIFEST.json`):
* Code behind `return` in the same block overwrites the return: `main(){return(1); return(2);}` returns 2; straight code behind it is executed: `main(){return(1); f();}` calls `f` (C16).
* `v[N] 1;` writes out N words: a text of 15 characters can make the compiler write out a trillion (C77).
* The character behind `else` is swallowed unless it is a letter or digit: `else{`, `else;g();`, `else/*…` (C02, C32); also `else_x`.
* `f == g` for two functions is rejected as an undefined identifier, `f != g` is accepted (C13_function_compared).
* `a b;` as a statement is read as `ab;` (C31). `f( )`, `f( ){}` are rejected (C31).
* `a < b << c` is parsed as `(a<b)<<c` (C10).
* Bytes ≥ 0x80 in strings become two bytes (C06).
* A label or parameter called `entry`, or a label equal to the first parameter, gives duplicate names (C19); `goto` to an undefined label an unterminated block (C20).
* `v[3]; v[3];` leaves two `.data` globals; `f; f(){}` a global and a function of one symbol (C25).
* `extrn x` emits a definition of `x`, not a declaration: two files that share a variable, or a file with `extrn fout` linked with the part of the runtime library that defines it,
  define the symbol twice, which a linker rejects (C64).
* Initial values beyond the size of a vector are dropped (C29).
* A local variable cannot be called: `auto f; f();` calls the external `b.f` (C34).
* `auto` in a branch and used behind it: the address is not computed on all paths (C54).
* `f(a){} main(){f();}` emits a call with too few arguments (LLVM rejects it), `f(){} main(){f(1);}` one with too many (C60).
* Driver: temporary left when writing it fails; executable mode with an unsupported extension leaves temporaries (C36, C42); an input or `-o` named like a temporary is
  overwritten and deleted (C35, C40).
* Runtime: `printf("%d")` of the smallest number prints two minus signs; `%c` of a byte ≥ 0x80 prints 8 bytes where `char` is signed (C49).

Seen, described in the specifications, not separate theorems: `f(a,)` accepted; names may begin with a digit; `x =-1` is compound assignment; `f == 3` with `f` a function is
"undefined identifier"; `auto x[18446744073709551615]` is a scalar; sizes can wrap to negative; label defined twice and duplicate cases accepted; a global that is used without
`extrn` is declared as a function; NUL behind binary `+`/`-` swallowed; equal base names overwrite each other's outputs; the default optimisation of the command is 0, of the library 1;
an unparenthesised `?:` in the middle of `?:` is rejected; `&f` of a function is rejected.

## 6. Trusted base

* Lean 4.33.0's kernel. Axioms: at most `propext`, `Classical.choice`, `Quot.sound` (checked by `vcheck`; concrete examples use `decide +kernel`, which is
  kernel evaluation). No `native_decide`, no `bv_decide`, no axioms of our own.
* That `Model/*` says what the Go/C source says (read by hand; no extraction), including the behaviour of llir's constructors and of Go's `bufio`, `strconv`-free number reading, maps and `filepath`
  functions as cited in the comments. As a check of this (not part of any proof) `tools/validate` runs the B programs of the project's own tests
  (`lang_expr_test.go`, `lang_prog_test.go`, `examples_test.go`, `driver_test.go`, `parser_test.go`) through the model: `compileFile`, an interpreter of the
  emitted code that follows `Spec/IRSem.lean`, and the model of the runtime library. All 101 programs give the output the tests demand (among them the historical B compiler
  compiling itself, and the digits of e), and all 32 texts that must or must not compile do so, with the message demanded. To repeat:
  `python3 tools/validate/extract.py /tmp/val.json; cd lean; lake env lean --run ../tools/validate/Run.lean.txt /tmp/val.json`.
* That `Spec/IRSem.lean` is a sound reading of LLVM for the instructions used: pointers are words, flat memory, `undef`/poison = no result, the `va_list` an abstract list.
* For C71, C72: a function of the library that has no result leaves an arbitrary word depending on the state (`Library.void`); a library function called with too few arguments
  has no outcome (except missing variadic arguments of `printf`, which are arbitrary); the variable `fout` and the buffers of the library are not part of the memory of the program.
  `_start` (runtime/start.c) passes the result of `main` to the system; reading of registers and system calls (inline assembly) are not modelled.
* That the `Spec` files say what the English properties say.
