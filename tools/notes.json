{
 "C02": [
  "partial",
  "Proved for every text except those in which the keyword `else` is directly followed by a quote or operator character: the compiler swallows the character after `else`, and C02_else_counterexample proves that such a text is accepted. The exact form, for ASCII texts, is C93."
 ],
 "C49": [
  "partial",
  "C49_printed and C49_total: exactly what is printed in all cases. The English claim (the expansion of the format) holds except for %d of the smallest number and bytes >= 128 where char is signed (C49_min_misprinted, C49_signed_char_misprinted)."
 ],
 "C35": [
  "partial",
  "Proved for single inputs in all modes (world unchanged), for lists of inputs in the IR/assembly/object modes, and for links up to the temporaries; C35_temp_counterexample: an output requested under the name of a temporary is lost. The exact effect of every link, file by file, is C92. For the other modes it is C95."
 ],
 "C36": [
  "partial",
  "C36_exact: which of the created files are left, for every outcome and every I/O error: none after success; after an error the file that could not be written or closed, all of them if an input of the wrong kind is found in executable mode, otherwise none. C36_partial says that they are gone from the file system (without I/O errors). Both exceptions are real (counterexamples), so the English claim is false of the code."
 ],
 "C37": [
  "partial",
  "Proved when output names and temporaries do not coincide and the temporaries can be written; C37_output_counterexample shows that the first condition is needed. The exact effect of every link, file by file, is C92. For the other modes it is C95."
 ],
 "C40": [
  "partial",
  "Temporaries pairwise different and never a source; C40_collision_partial: a temporary is an input only if the user names an input `<stem>.tmp.<k>.ll` where input k is `<stem>.b`; C40_counterexample: then it is overwritten and deleted. The exact effect of every link, file by file, is C92."
 ],
 "C42": [
  "partial",
  "Proved for the command in all modes and for Compile in the IR/assembly/object modes; Compile in executable mode violates it (C42_library_counterexample); C42_link: what it does then (no success, no run of clang, nothing changed but temporaries). The exact effect of every link, file by file, is C92."
 ],
 "C11": [
  null,
  "Under the standing conditions stated in properties.jsonl (`Program.Tame` in Verif/Spec/Runs.lean): what is outside them is C16 (statements behind a return) and C34 (calling a local by name)."
 ],
 "C12": [
  null,
  "Under the standing conditions stated in properties.jsonl (`Program.Tame` in Verif/Spec/Runs.lean): what is outside them is C16 (statements behind a return) and C34 (calling a local by name)."
 ],
 "C14": [
  null,
  "Under the standing conditions stated in properties.jsonl (`Program.Tame` in Verif/Spec/Runs.lean): what is outside them is C16 (statements behind a return) and C34 (calling a local by name)."
 ],
 "C15": [
  null,
  "Under the standing conditions stated in properties.jsonl (`Program.Tame` in Verif/Spec/Runs.lean): what is outside them is C16 (statements behind a return) and C34 (calling a local by name)."
 ],
 "C17": [
  null,
  "Under the standing conditions stated in properties.jsonl (`Program.Tame` in Verif/Spec/Runs.lean): what is outside them is C16 (statements behind a return) and C34 (calling a local by name)."
 ],
 "C18": [
  null,
  "Under the standing conditions stated in properties.jsonl (`Program.Tame` in Verif/Spec/Runs.lean): what is outside them is C16 (statements behind a return) and C34 (calling a local by name)."
 ],
 "C30": [
  null,
  "Under the standing conditions stated in properties.jsonl (`Program.Tame` in Verif/Spec/Runs.lean): what is outside them is C16 (statements behind a return) and C34 (calling a local by name)."
 ],
 "C33": [
  null,
  "Under the standing conditions stated in properties.jsonl (`Program.Tame` in Verif/Spec/Runs.lean): what is outside them is C16 (statements behind a return) and C34 (calling a local by name)."
 ],
 "C23": [
  null,
  "Static half for all accepted texts; run-time half under the standing conditions."
 ],
 "C10": [
  "partial",
  "Every token sequence has one tree in the documented grammar, and the code is that of this tree, except that an unparenthesised shift as right operand of a relational operator is grouped differently (C10_shift_counterexample). For texts laid out as the compiler tolerates (see C31)."
 ],
 "C13": [
  null,
  "For every accepted text; conversely trees (C13_trees_accepted_iff) and careful texts (C13_texts_accepted_iff) are accepted exactly when they obey the rules (for texts also: no name of a function directly before `==` or an assignment operator, which the compiler calls an undefined identifier; C13_function_compared)."
 ],
 "C31": [
  "partial",
  "Proved for all layouts in the places where the compiler tolerates layout; the other places are described by `Tight`/`Plain` in Verif/Spec/Careful.lean, with three counterexamples proved. C94 is the exact form for places where there is a blank already."
 ],
 "C32": [
  "partial",
  "C32_exact: what the compiler does with every character after `else` (it is swallowed). The English claim holds when it is a blank (C32_tree_partial); false otherwise (two counterexamples proved)."
 ],
 "C53": [
  null,
  "For every machine linked with the model of the runtime library (`RuntimeAt`) and every literal of ASCII characters other than % and NUL."
 ],
 "C06": [
  "partial",
  "C06_bytes: what is emitted for every literal whose bytes are below 256 (all of them): ASCII bytes verbatim, the others as two bytes; the English claim holds for ASCII (C06 for the rest: C06_latin1_counterexample)."
 ],
 "C16": [
  "partial",
  "Proved when no statement stands directly behind the return; false otherwise, in two ways (C16_second_return_counterexample, C16_code_behind_counterexample). C16_effective_*: for every program, a return that another turn of control follows in the same line of control counts as its expression; Program.effective is the program without those returns, it has the same module (C16_effective_module), and the module does exactly what it prescribes: results, calls, end of the process. What is missing is a description of returns with only straight code behind them (that code is executed before the return)."
 ],
 "C19": [
  "partial",
  "C19_exact: the names are apart if and only if no label (defined or jumped to) and no first parameter is called `entry` and no label is called like the first parameter. The exceptions are real (three counterexamples), so the English claim is false of the code."
 ],
 "C20": [
  "partial",
  "C20_exact: all blocks of a function are terminated if and only if every goto label is defined in it; the exception is real (counterexample), so the English claim is false of the code."
 ],
 "C25": [
  "partial",
  "Proved for programs that declare no name twice; C25_exact: when a symbol is defined twice, exactly. The English claim is false of the code (counterexamples)."
 ],
 "C29": [
  "partial",
  "C29_layout: exactly what is emitted for every size and list of values. The English claim holds when there are not more initial values than the size; otherwise the rest is dropped (counterexample)."
 ],
 "C34": [
  "partial",
  "Proved for functions, extrn variables and computed callees; calling a parameter or auto variable by name calls an external function instead (counterexample). What such a call does do is C91."
 ],
 "C54": [
  "partial",
  "Proved when the auto statements of the function come before its other statements; an auto inside an if branch that is used after it can be reached without the declaration (counterexample). C90 proves it for every function that declares its variables first on every way through its text."
 ],
 "C60": [
  "partial",
  "C60_exact: all calls pass what is demanded if and only if every call by name fits the definition of the called function that precedes it (no arguments iff no parameters). The English claim is false of the code for the others (two counterexamples)."
 ],
 "C63": [
  null,
  "Spec/Files.lean: LinkedCall runs each file's code with its own string constants and shared symbols. C63_linked is the simulation; C63_one_text and C63_same relate it to the one-file program. Under Program.Tame for each file. Whether the linker accepts the files is C64."
 ],
 "C64": [
  "partial",
  "C64_symbols says exactly which symbols a module defines: those of names it defines or declares extrn, and .data blocks of its vectors. Hence the claim for files without shared variables (C64_apart_partial); C64_extrn_counterexample: `extrn x` emits a definition of x, so two files that share a variable both define it. C64_exact: two files define a symbol in common if and only if some name is defined or declared extrn in both."
 ],
 "C65": [
  null,
  "Spec/Wrong.lean says when a call goes wrong. C65_exact_results is the equivalence; C65_outcomes, C65_unique, C65_returns_right, C65_forever_right show that the notion is the right one. Under Program.Tame and Loaded."
 ],
 "C66": [
  null,
  "Equivalence of Module.Makes and Program.Makes (Spec/Events.lean) for calls that do not go wrong; the direction from the program to the module is C61 and needs no such condition. Under Program.Tame and Loaded."
 ],
 "C67": [
  null,
  "Program.Initial (Spec/Image.lean) is the B view of memory, Module.DataIn the view of the loader. C67_exit_status combines it with C65 for main; C67_loadable shows that the hypothesis can be met. Vectors declared twice and sizes of 2^63 words or more are left out."
 ],
 "C68": [
  null,
  "Deaf: the function does the same for every system. Failed reads: C51_nread_error, C51_read_one."
 ],
 "C69": [
  "proved",
  "C69_ir, C69_clang: Builds says that clang does its job, ClangPolite that it writes only its output. C69_same_name is the behaviour for equal base names. An .ll input that is itself named like a temporary is left out (C40_counterexample)."
 ],
 "C70": [
  "proved",
  "Events are recorded in order, so a statement about all events of a run holds at every point of interruption. C70_executable_named_like_source: without -o the executable of a.b.b is called a.b."
 ],
 "C71": [
  "proved",
  "C71_process: iff, for Tame programs that do not go wrong; C71_prescribed: without that hypothesis if the program prescribes an end. C71_documented, C71_meanwhile, C71_library replace the code of the library by what is documented (Spec/Library: Documented). Concrete processes: Props/Copy."
 ],
 "C72": [
  "proved",
  "From the text to the bytes, by C71 and induction on the input; only what is documented of read and write is used. A machine that meets Links: boot."
 ],
 "C73": [
  null,
  "C73_alike is the general statement (Spec/Alike: Program.Alike); C73_order: any permutation of the declarations, when no function and no variable is declared twice (the literals are renumbered; symbols are placed accordingly; C73_process the same for whole processes); C73_names: any renaming, function by function, that keeps addresses; C73_locals: parameters, auto variables and labels of one function. Returns and calls are compared if the function does not go wrong; that it goes wrong in the one program iff in the other is part of C73_alike. Samples: three texts that are related in these ways."
 ],
 "C74": [
  "proved",
  "The texts are those of the repository (tools/examples.py compares). By C71 and induction; only what is documented of write and printf is used. Hypotheses: the module links, its data are loaded (for the programs with literals or globals), the stack has room for 5 (1) words apart from them (Spec/Room). All hold on the machine of Props/SamplesExamples."
 ],
 "C75": [
  "proved",
  "From the text to the bytes: loop invariants for the three loops by C71, the arithmetic of the program (numbers with the bases 2, 3, ..., 2001 after the point, multiplied by 10) in Proofs/Spigot, the error of the partial sum of the series of Mathlib's Real.exp in Proofs/EulerReal (a kernel computation with big numbers shows that it does not reach the 4000th decimal). Hypotheses: the module links, its data are loaded and do not overlap, the stack has room for 4 words apart from them. All hold on the machine of Props/SamplesEuler."
 ],
 "C76": [
  "proved",
  "C76_success and C76_failure are about Compile, C76_main about the program. Spec/Honest: Smooth (all steps succeeded), Served, Failed. Opening and reading are not recorded as events; that they succeeded is part of Served. A panic while printing the module (status 2) is neither."
 ],
 "C77": [
  "proved",
  "Spec/Size counts the units of a module; every operation of the builder adds a bounded number (Proofs/Size), the tree costs at most six units a token and the tokens are no longer than the text (Proofs/SizeText: also where the compiler rewrites the text, Lexes.headQuirk). C77_vector and C77_exponential show that the term for vectors with initial values is needed. Names and the digits of block names are not counted."
 ],
 "C78": [
  "proved",
  "The true form of C06, for all literals.",
  [
   "Blang.Props.C06_bytes"
  ]
 ],
 "C79": [
  "proved",
  "The exact form of C19.",
  [
   "Blang.Props.C19_exact"
  ]
 ],
 "C80": [
  "proved",
  "The exact form of C20.",
  [
   "Blang.Props.C20_exact"
  ]
 ],
 "C81": [
  "proved",
  "The exact form of C25.",
  [
   "Blang.Props.C25_exact"
  ]
 ],
 "C82": [
  "proved",
  "The true form of C29, with more values than the size, too.",
  [
   "Blang.Props.C29_layout"
  ]
 ],
 "C83": [
  "proved",
  "The exact form of C32: the character behind else is swallowed.",
  [
   "Blang.Props.C32_exact",
   "Blang.Props.C32_swallowed"
  ]
 ],
 "C84": [
  "proved",
  "The exact form of C36.",
  [
   "Blang.Props.C36_exact"
  ]
 ],
 "C85": [
  "proved",
  "The exact form of C49.",
  [
   "Blang.Props.C49_printed",
   "Blang.Props.C49_total"
  ]
 ],
 "C86": [
  "proved",
  "The exact form of C60.",
  [
   "Blang.Props.C60_exact"
  ]
 ],
 "C87": [
  "proved",
  "The exact form of C64.",
  [
   "Blang.Props.C64_exact",
   "Blang.Props.C64_symbols"
  ]
 ],
 "C88": [
  "proved",
  "Says what happens where C16 fails because a later turn replaces the return.",
  [
   "Blang.Props.C16_effective_module",
   "Blang.Props.C16_effective_flow",
   "Blang.Props.C16_effective_results",
   "Blang.Props.C16_effective_calls",
   "Blang.Props.C16_effective_process",
   "Blang.Props.C16_effective_same"
  ]
 ],
 "C89": [
  "proved",
  "The exact form of C10."
 ],
 "C90": [
  "proved",
  "The condition under which the conclusion of C54 holds, by the rule of definite declaration; it covers the functions of C54 and those with an auto in a branch or loop. C90_exact adds the converse: the condition is also necessary (functions with nothing after a return in the same line, no repeated label or case)."
 ],
 "C91": [
  "proved",
  "The exact form of C34: the rules of the B semantics applied to the program in which each called parameter or auto variable has a name of its own (Spec/Apart). Up to the names of parameters the compiler makes the same module of that program (C91_module); for programs that call no such name it is the program itself (C91_same)."
 ],
 "C92": [
  "proved",
  "The exact form of C35, C37, C40 and C42 for links (out named with -o; C38_default_executable reduces the default name to this): Untroubled says that nothing fails but compilations and clang. Either all inputs are Usable (C92_linked, C92_output) or there is a first one that is not (C92_stopped)."
 ],
 "C93": [
  "proved",
  "The exact form of C02, for ASCII texts: by C02_else_counterexample the replacement is needed. Texts with other characters are covered by C02_program_partial."
 ],
 "C94": [
  "proved",
  "The exact form of C31 for places where there is a blank already: every text, accepted or not, and the same error. The exceptions are shown needed by C94_inside_counterexample, C94_else_counterexample and C31_call_counterexample (no blank)."
 ],
 "C95": [
  "proved",
  "The counterpart of C92 for one input; a list is processed one input after the other (C43), and an input of the wrong kind stops everything (C42_library_partial)."
 ],
 "C96": [
  "proved",
  "With C94: outside literals only the presence of a blank matters. C96_message_counterexample shows why messages are left out."
 ],
 "C97": [
  "proved",
  "C97_module: equal modules; C97_accepted and C97_iff: acceptance is carried over; C97_parentheses and C97_braces: the redundant forms are in the grammar; C97_needed_counterexample: where parentheses are not redundant for this compiler (f == g is rejected, (f) == g is accepted; (x) = 1 is rejected)."
 ],
 "C98": [
  "proved",
  "C98_kept: for any program p and p++q (by the invariants of the builder between declarations); C98_front and C98_together: for texts, with acceptance, through soundness and completeness of the parser; C98_extrn_counterexample: why the condition on extrn is needed. C98_runs and C98_process: runs of the code kept are runs in the longer module, too."
 ],
 "C99": [
  "proved",
  "Interpreter: Spec/Interp.lean, about 350 lines, checked once here; it is executable, and for examples/showcase.b (C74_showcase) and the tests of the repository (C100) it is run by the kernel. It knows calls through function values, write, nwrite and char of string literals, and printf, as far as it can determine the values; `Computer.Roomy` says that the stack has room for the blocks."
 ],
 "C100": [
  "proved",
  "The interpreter of C99 is run by the kernel on each program; the texts and expected outputs are compared with the test files by tools/tests.py. Not included: tests whose output depends on the placement of variables (local_scalars, local_vectors, local_mix), tests that need what the interpreter refuses (lchar, exit) and two with escape sequences that the checking parser does not know (char_literals, string_literals)."
 ]
}