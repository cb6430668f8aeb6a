{"claims": [
{"property": "C01", "status": "proved", "theorems": ["Blang.Props.C01_layout_skipped", "Blang.Props.C01_only_layout_skipped", "Blang.Props.C01_unique", "Blang.Props.C01_idempotent"], "note": ""},
{"property": "C02", "status": "partial", "theorems": ["Blang.Props.C02_program_partial", "Blang.Props.C02_else_counterexample", "Blang.Props.C02_unclosed_comment", "Blang.Props.C02_only_unclosed"], "note": "Proved for every text except those in which the keyword `else` is directly followed by a quote or operator character: the compiler swallows the character after `else`, and C02_else_counterexample proves that such a text is accepted. The exact form, for ASCII texts, is C93."},
{"property": "C03", "status": "proved", "theorems": ["Blang.Props.C03_identifier", "Blang.Props.C03_identifier_sound"], "note": ""},
{"property": "C04", "status": "proved", "theorems": ["Blang.Props.C04_number", "Blang.Props.C04_number_exact", "Blang.Props.C04_number_sound"], "note": ""},
{"property": "C05", "status": "proved", "theorems": ["Blang.Props.C05_char_const", "Blang.Props.C05_char_const_exact", "Blang.Props.C05_char_const_sound", "Blang.Props.C05_too_long"], "note": ""},
{"property": "C06", "status": "partial", "theorems": ["Blang.Props.C06_bytes", "Blang.Props.C06_strings_partial", "Blang.Props.C06_latin1_counterexample"], "note": "C06_bytes: what is emitted for every literal whose bytes are below 256 (all of them): ASCII bytes verbatim, the others as two bytes; the English claim holds for ASCII (C06 for the rest: C06_latin1_counterexample)."},
{"property": "C07", "status": "proved", "theorems": ["Blang.Props.C07_pushback", "Blang.Props.C07_delivers_file", "Blang.Props.C07_abstraction"], "note": ""},
{"property": "C08", "status": "proved", "theorems": ["Blang.Props.C08_terminates", "Blang.Props.C08_terminates_bytes", "Blang.Props.C08_bound_irrelevant"], "note": ""},
{"property": "C09", "status": "proved", "theorems": ["Blang.Props.C09_read_error"], "note": ""},
{"property": "C10", "status": "partial", "theorems": ["Blang.Props.C10_one_tree", "Blang.Props.C10_one_tree_expr", "Blang.Props.C10_tree_partial", "Blang.Props.C10_meaning_partial", "Blang.Props.C10_left", "Blang.Props.C10_tighter", "Blang.Props.C10_assign", "Blang.Props.C10_cond", "Blang.Props.C10_shift_counterexample"], "note": "Every token sequence has one tree in the documented grammar, and the code is that of this tree, except that an unparenthesised shift as right operand of a relational operator is grouped differently (C10_shift_counterexample). For texts laid out as the compiler tolerates (see C31)."},
{"property": "C11", "status": "proved", "theorems": ["Blang.Props.C11_value", "Blang.Props.C11_effects"], "note": "Under the standing conditions stated in properties.jsonl (`Program.Tame` in Verif/Spec/Runs.lean): what is outside them is C16 (statements behind a return) and C34 (calling a local by name)."},
{"property": "C12", "status": "proved", "theorems": ["Blang.Props.C12_compound"], "note": "Under the standing conditions stated in properties.jsonl (`Program.Tame` in Verif/Spec/Runs.lean): what is outside them is C16 (statements behind a return) and C34 (calling a local by name)."},
{"property": "C13", "status": "proved", "theorems": ["Blang.Props.C13_texts_accepted_iff", "Blang.Props.C13_function_compared", "Blang.Props.C13_only_lvalues", "Blang.Props.C13_trees_accepted_iff"], "note": "For every accepted text; conversely trees (C13_trees_accepted_iff) and careful texts (C13_texts_accepted_iff) are accepted exactly when they obey the rules (for texts also: no name of a function directly before `==` or an assignment operator, which the compiler calls an undefined identifier; C13_function_compared)."},
{"property": "C14", "status": "proved", "theorems": ["Blang.Props.C14_comparison", "Blang.Props.C14_not"], "note": "Under the standing conditions stated in properties.jsonl (`Program.Tame` in Verif/Spec/Runs.lean): what is outside them is C16 (statements behind a return) and C34 (calling a local by name)."},
{"property": "C15", "status": "proved", "theorems": ["Blang.Props.C15_control_flow", "Blang.Props.C15_if_true", "Blang.Props.C15_if_false", "Blang.Props.C15_if_else", "Blang.Props.C15_while_true", "Blang.Props.C15_while_again", "Blang.Props.C15_while_false", "Blang.Props.C15_block", "Blang.Props.C15_next"], "note": "Under the standing conditions stated in properties.jsonl (`Program.Tame` in Verif/Spec/Runs.lean): what is outside them is C16 (statements behind a return) and C34 (calling a local by name)."},
{"property": "C16", "status": "partial", "theorems": ["Blang.Props.C16_effective_module", "Blang.Props.C16_effective_flow", "Blang.Props.C16_effective_results", "Blang.Props.C16_effective_calls", "Blang.Props.C16_effective_process", "Blang.Props.C16_effective_same", "Blang.Props.C16_code_behind_counterexample", "Blang.Props.C16_return_partial", "Blang.Props.C16_return_nothing_partial", "Blang.Props.C16_fall_off_partial", "Blang.Props.C16_second_return_counterexample"], "note": "Proved when no statement stands directly behind the return; false otherwise, in two ways (C16_second_return_counterexample, C16_code_behind_counterexample). C16_effective_*: for every program, a return that another turn of control follows in the same line of control counts as its expression; Program.effective is the program without those returns, it has the same module (C16_effective_module), and the module does exactly what it prescribes: results, calls, end of the process. What is missing is a description of returns with only straight code behind them (that code is executed before the return)."},
{"property": "C17", "status": "proved", "theorems": ["Blang.Props.C17_switch", "Blang.Props.C17_no_case", "Blang.Props.C17_fall_through", "Blang.Props.C17_usual"], "note": "Under the standing conditions stated in properties.jsonl (`Program.Tame` in Verif/Spec/Runs.lean): what is outside them is C16 (statements behind a return) and C34 (calling a local by name)."},
{"property": "C18", "status": "proved", "theorems": ["Blang.Props.C18_goto", "Blang.Props.C18_found"], "note": "Under the standing conditions stated in properties.jsonl (`Program.Tame` in Verif/Spec/Runs.lean): what is outside them is C16 (statements behind a return) and C34 (calling a local by name)."},
{"property": "C19", "status": "partial", "theorems": ["Blang.Props.C19_block_names_partial", "Blang.Props.C19_exact", "Blang.Props.C19_entry_label_counterexample", "Blang.Props.C19_parameter_label_counterexample", "Blang.Props.C19_entry_parameter_counterexample"], "note": "C19_exact: the names are apart if and only if no label (defined or jumped to) and no first parameter is called `entry` and no label is called like the first parameter. The exceptions are real (three counterexamples), so the English claim is false of the code."},
{"property": "C20", "status": "partial", "theorems": ["Blang.Props.C20_terminated_partial", "Blang.Props.C20_exact", "Blang.Props.C20_goto_counterexample"], "note": "C20_exact: all blocks of a function are terminated if and only if every goto label is defined in it; the exception is real (counterexample), so the English claim is false of the code."},
{"property": "C21", "status": "proved", "theorems": ["Blang.Props.C21_text_iff", "Blang.Props.C21_text_rejected", "Blang.Props.C21_case_places", "Blang.Props.C21_case_iff"], "note": ""},
{"property": "C22", "status": "proved", "theorems": ["Blang.Props.C22_text_rejected", "Blang.Props.C22_autos", "Blang.Props.C22_clash_rejected"], "note": ""},
{"property": "C23", "status": "proved", "theorems": ["Blang.Props.C23_targets", "Blang.Props.C23_local", "Blang.Props.C23_extrn", "Blang.Props.C23_function", "Blang.Props.C23_own_names"], "note": "Static half for all accepted texts; run-time half under the standing conditions."},
{"property": "C24", "status": "proved", "theorems": ["Blang.Props.C24_functions_distinct", "Blang.Props.C24_last_definition"], "note": ""},
{"property": "C25", "status": "partial", "theorems": ["Blang.Props.C25_globals_partial", "Blang.Props.C25_vector_twice_counterexample", "Blang.Props.C25_variable_and_function_counterexample", "Blang.Props.C25_exact"], "note": "Proved for programs that declare no name twice; C25_exact: when a symbol is defined twice, exactly. The English claim is false of the code (counterexamples)."},
{"property": "C26", "status": "proved", "theorems": ["Blang.Props.C26_injective", "Blang.Props.C26_prefix", "Blang.Props.C26_functions", "Blang.Props.C26_globals"], "note": ""},
{"property": "C27", "status": "proved", "theorems": ["Blang.Props.C27_own_constant"], "note": ""},
{"property": "C28", "status": "proved", "theorems": ["Blang.Props.C28_scalars"], "note": ""},
{"property": "C29", "status": "partial", "theorems": ["Blang.Props.C29_layout", "Blang.Props.C29_vectors_partial", "Blang.Props.C29_excess_counterexample"], "note": "C29_layout: exactly what is emitted for every size and list of values. The English claim holds when there are not more initial values than the size; otherwise the rest is dropped (counterexample)."},
{"property": "C30", "status": "proved", "theorems": ["Blang.Props.C30_arguments", "Blang.Props.C30_returned"], "note": "Under the standing conditions stated in properties.jsonl (`Program.Tame` in Verif/Spec/Runs.lean): what is outside them is C16 (statements behind a return) and C34 (calling a local by name)."},
{"property": "C31", "status": "partial", "theorems": ["Blang.Props.C31_layout_partial", "Blang.Props.C31_around_partial", "Blang.Props.C31_call_counterexample", "Blang.Props.C31_definition_counterexample", "Blang.Props.C31_merge_counterexample"], "note": "Proved for all layouts in the places where the compiler tolerates layout; the other places are described by `Tight`/`Plain` in Verif/Spec/Careful.lean, with three counterexamples proved. C94 is the exact form for places where there is a blank already."},
{"property": "C32", "status": "partial", "theorems": ["Blang.Props.C32_else", "Blang.Props.C32_nearest", "Blang.Props.C32_no_else", "Blang.Props.C32_tree_partial", "Blang.Props.C32_exact", "Blang.Props.C32_swallowed", "Blang.Props.C32_semicolon_counterexample", "Blang.Props.C32_brace_counterexample"], "note": "C32_exact: what the compiler does with every character after `else` (it is swallowed). The English claim holds when it is a blank (C32_tree_partial); false otherwise (two counterexamples proved)."},
{"property": "C33", "status": "proved", "theorems": ["Blang.Props.C33_auto"], "note": "Under the standing conditions stated in properties.jsonl (`Program.Tame` in Verif/Spec/Runs.lean): what is outside them is C16 (statements behind a return) and C34 (calling a local by name)."},
{"property": "C34", "status": "partial", "theorems": ["Blang.Props.C34_function", "Blang.Props.C34_extrn_partial", "Blang.Props.C34_pointer", "Blang.Props.C34_parameter_counterexample"], "note": "Proved for functions, extrn variables and computed callees; calling a parameter or auto variable by name calls an external function instead (counterexample). What such a call does do is C91."},
{"property": "C35", "status": "partial", "theorems": ["Blang.Props.C35_single", "Blang.Props.C35_several", "Blang.Props.C35_link_partial", "Blang.Props.C35_temp_counterexample"], "note": "Proved for single inputs in all modes (world unchanged), for lists of inputs in the IR/assembly/object modes, and for links up to the temporaries; C35_temp_counterexample: an output requested under the name of a temporary is lost. The exact effect of every link, file by file, is C92. For the other modes it is C95."},
{"property": "C36", "status": "partial", "theorems": ["Blang.Props.C36_partial", "Blang.Props.C36_write_error_counterexample", "Blang.Props.C36_extension_counterexample", "Blang.Props.C36_exact"], "note": "C36_exact: which of the created files are left, for every outcome and every I/O error: none after success; after an error the file that could not be written or closed, all of them if an input of the wrong kind is found in executable mode, otherwise none. C36_partial says that they are gone from the file system (without I/O errors). Both exceptions are real (counterexamples), so the English claim is false of the code."},
{"property": "C37", "status": "partial", "theorems": ["Blang.Props.C37_link_partial", "Blang.Props.C37_files_partial", "Blang.Props.C37_output_counterexample"], "note": "Proved when output names and temporaries do not coincide and the temporaries can be written; C37_output_counterexample shows that the first condition is needed. The exact effect of every link, file by file, is C92. For the other modes it is C95."},
{"property": "C38", "status": "proved", "theorems": ["Blang.Props.C38_default_output", "Blang.Props.C38_default_executable", "Blang.Props.C38_ir_output", "Blang.Props.C38_clang_output"], "note": ""},
{"property": "C39", "status": "proved", "theorems": ["Blang.Props.C39_refused"], "note": ""},
{"property": "C40", "status": "partial", "theorems": ["Blang.Props.C40_partial", "Blang.Props.C40_collision_partial", "Blang.Props.C40_counterexample"], "note": "Temporaries pairwise different and never a source; C40_collision_partial: a temporary is an input only if the user names an input `<stem>.tmp.<k>.ll` where input k is `<stem>.b`; C40_counterexample: then it is overwritten and deleted. The exact effect of every link, file by file, is C92."},
{"property": "C41", "status": "proved", "theorems": ["Blang.Props.C41_link_command"], "note": ""},
{"property": "C42", "status": "partial", "theorems": ["Blang.Props.C42_library_partial", "Blang.Props.C42_command", "Blang.Props.C42_library_counterexample", "Blang.Props.C42_link"], "note": "Proved for the command in all modes and for Compile in the IR/assembly/object modes; Compile in executable mode violates it (C42_library_counterexample); C42_link: what it does then (no success, no run of clang, nothing changed but temporaries). The exact effect of every link, file by file, is C92."},
{"property": "C43", "status": "proved", "theorems": ["Blang.Props.C43_first_failure", "Blang.Props.C43_all_succeed"], "note": ""},
{"property": "C44", "status": "proved", "theorems": ["Blang.Props.C44_main"], "note": ""},
{"property": "C45", "status": "proved", "theorems": ["Blang.Props.C45_library_dirs", "Blang.Props.C45_main"], "note": ""},
{"property": "C46", "status": "proved", "theorems": ["Blang.Props.C46_printd", "Blang.Props.C46_unique"], "note": ""},
{"property": "C47", "status": "proved", "theorems": ["Blang.Props.C47_printo", "Blang.Props.C47_unique"], "note": ""},
{"property": "C48", "status": "proved", "theorems": ["Blang.Props.C48_write", "Blang.Props.C48_unique", "Blang.Props.C48_write_constant"], "note": ""},
{"property": "C49", "status": "partial", "theorems": ["Blang.Props.C49_printed", "Blang.Props.C49_total", "Blang.Props.C49_printf_partial", "Blang.Props.C49_min_misprinted", "Blang.Props.C49_signed_char_misprinted"], "note": "C49_printed and C49_total: exactly what is printed in all cases. The English claim (the expansion of the format) holds except for %d of the smallest number and bytes >= 128 where char is signed (C49_min_misprinted, C49_signed_char_misprinted)."},
{"property": "C50", "status": "proved", "theorems": ["Blang.Props.C50_lchar_char", "Blang.Props.C50_char_ascii"], "note": ""},
{"property": "C51", "status": "proved", "theorems": ["Blang.Props.C51_read_one", "Blang.Props.C51_read", "Blang.Props.C51_nread", "Blang.Props.C51_nread_error"], "note": ""},
{"property": "C52", "status": "proved", "theorems": ["Blang.Props.C52_map_order"], "note": ""},
{"property": "C53", "status": "proved", "theorems": ["Blang.Props.C53_hello"], "note": "For every machine linked with the model of the runtime library (`RuntimeAt`) and every literal of ASCII characters other than % and NUL."},
{"property": "C54", "status": "partial", "theorems": ["Blang.Props.C54_locals_partial", "Blang.Props.C54_branch_counterexample", "Blang.Props.C54_dominated_partial"], "note": "Proved when the auto statements of the function come before its other statements; an auto inside an if branch that is used after it can be reached without the declaration (counterexample). C90 proves it for every function that declares its variables first on every way through its text."},
{"property": "C55", "status": "proved", "theorems": ["Blang.Props.C55_forward", "Blang.Props.C55_exit_status", "Blang.Props.C55_exit", "Blang.Props.C55_exit_now"], "note": ""},
{"property": "C56", "status": "proved", "theorems": ["Blang.Props.C56_well_typed"], "note": ""},
{"property": "C57", "status": "proved", "theorems": ["Blang.Props.C57_assigned_once", "Blang.Props.C57_computed_before_use"], "note": ""},
{"property": "C58", "status": "proved", "theorems": ["Blang.Props.C58_flow"], "note": ""},
{"property": "C59", "status": "proved", "theorems": ["Blang.Props.C59_symbols_declared"], "note": ""},
{"property": "C60", "status": "partial", "theorems": ["Blang.Props.C60_arity_partial", "Blang.Props.C60_fitting_calls_partial", "Blang.Props.C60_exact", "Blang.Props.C60_few_counterexample", "Blang.Props.C60_many_counterexample"], "note": "C60_exact: all calls pass what is demanded if and only if every call by name fits the definition of the called function that precedes it (no arguments iff no parameters). The English claim is false of the code for the others (two counterexamples)."},
{"property": "C61", "status": "proved", "theorems": ["Blang.Props.C61_calls_made", "Blang.Props.C61_stores"], "note": ""},
{"property": "C62", "status": "proved", "theorems": ["Blang.Props.C62_no_end"], "note": ""},
{"property": "C63", "status": "proved", "theorems": ["Blang.Props.C63_linked", "Blang.Props.C63_one_text", "Blang.Props.C63_same"], "note": "Spec/Files.lean: LinkedCall runs each file's code with its own string constants and shared symbols. C63_linked is the simulation; C63_one_text and C63_same relate it to the one-file program. Under Program.Tame for each file. Whether the linker accepts the files is C64."},
{"property": "C64", "status": "partial", "theorems": ["Blang.Props.C64_symbols", "Blang.Props.C64_apart_partial", "Blang.Props.C64_extrn_counterexample", "Blang.Props.C64_exact"], "note": "C64_symbols says exactly which symbols a module defines: those of names it defines or declares extrn, and .data blocks of its vectors. Hence the claim for files without shared variables (C64_apart_partial); C64_extrn_counterexample: `extrn x` emits a definition of x, so two files that share a variable both define it. C64_exact: two files define a symbol in common if and only if some name is defined or declared extrn in both."},
{"property": "C65", "status": "proved", "theorems": ["Blang.Props.C65_exact_results", "Blang.Props.C65_outcomes", "Blang.Props.C65_unique", "Blang.Props.C65_returns_right", "Blang.Props.C65_forever_right"], "note": "Spec/Wrong.lean says when a call goes wrong. C65_exact_results is the equivalence; C65_outcomes, C65_unique, C65_returns_right, C65_forever_right show that the notion is the right one. Under Program.Tame and Loaded."},
{"property": "C66", "status": "proved", "theorems": ["Blang.Props.C66_exact_calls"], "note": "Equivalence of Module.Makes and Program.Makes (Spec/Events.lean) for calls that do not go wrong; the direction from the program to the module is C61 and needs no such condition. Under Program.Tame and Loaded."},
{"property": "C67", "status": "proved", "theorems": ["Blang.Props.C67_initial", "Blang.Props.C67_exit_status", "Blang.Props.C67_loadable"], "note": "Program.Initial (Spec/Image.lean) is the B view of memory, Module.DataIn the view of the loader. C67_exit_status combines it with C65 for main; C67_loadable shows that the hypothesis can be met. Vectors declared twice and sizes of 2^63 words or more are left out."},
{"property": "C68", "status": "proved", "theorems": ["Blang.Props.C68_nwrite", "Blang.Props.C68_writeb", "Blang.Props.C68_deaf"], "note": "Deaf: the function does the same for every system. Failed reads: C51_nread_error, C51_read_one."},
{"property": "C69", "status": "proved", "theorems": ["Blang.Props.C69_ir", "Blang.Props.C69_clang", "Blang.Props.C69_same_name"], "note": "C69_ir, C69_clang: Builds says that clang does its job, ClangPolite that it writes only its output. C69_same_name is the behaviour for equal base names. An .ll input that is itself named like a temporary is left out (C40_counterexample)."},
{"property": "C70", "status": "proved", "theorems": ["Blang.Props.C70_permitted", "Blang.Props.C70_sources", "Blang.Props.C70_executable_named_like_source"], "note": "Events are recorded in order, so a statement about all events of a run holds at every point of interruption. C70_executable_named_like_source: without -o the executable of a.b.b is called a.b."},
{"property": "C71", "status": "proved", "theorems": ["Blang.Props.C71_process", "Blang.Props.C71_documented", "Blang.Props.C71_meanwhile", "Blang.Props.C71_unique", "Blang.Props.C71_prescribed", "Blang.Props.C71_library", "Blang.Props.C71_library_returns"], "note": "C71_process: iff, for Tame programs that do not go wrong; C71_prescribed: without that hypothesis if the program prescribes an end. C71_documented, C71_meanwhile, C71_library replace the code of the library by what is documented (Spec/Library: Documented). Concrete processes: Props/Copy."},
{"property": "C72", "status": "proved", "theorems": ["Blang.Props.C72_copy", "Blang.Props.C72_exit"], "note": "From the text to the bytes, by C71 and induction on the input; only what is documented of read and write is used. A machine that meets Links: boot."},
{"property": "C73", "status": "proved", "theorems": ["Blang.Props.C73_alike", "Blang.Props.C73_order", "Blang.Props.C73_names", "Blang.Props.C73_locals", "Blang.Props.C73_process"], "note": "C73_alike is the general statement (Spec/Alike: Program.Alike); C73_order: any permutation of the declarations, when no function and no variable is declared twice (the literals are renumbered; symbols are placed accordingly; C73_process the same for whole processes); C73_names: any renaming, function by function, that keeps addresses; C73_locals: parameters, auto variables and labels of one function. Returns and calls are compared if the function does not go wrong; that it goes wrong in the one program iff in the other is part of C73_alike. Samples: three texts that are related in these ways."},
{"property": "C74", "status": "proved", "theorems": ["Blang.Props.C74_hello", "Blang.Props.C74_helloworld", "Blang.Props.C74_fib", "Blang.Props.C74_fibonacci", "Blang.Props.C74_fizzbuzz", "Blang.Props.C74_showcase"], "note": "The texts are those of the repository (tools/examples.py compares). By C71 and induction; only what is documented of write and printf is used. Hypotheses: the module links, its data are loaded (for the programs with literals or globals), the stack has room for 5 (1) words apart from them (Spec/Room). All hold on the machine of Props/SamplesExamples."},
{"property": "C75", "status": "proved", "theorems": ["Blang.Props.C75_euler"], "note": "From the text to the bytes: loop invariants for the three loops by C71, the arithmetic of the program (numbers with the bases 2, 3, ..., 2001 after the point, multiplied by 10) in Proofs/Spigot, the error of the partial sum of the series of Mathlib's Real.exp in Proofs/EulerReal (a kernel computation with big numbers shows that it does not reach the 4000th decimal). Hypotheses: the module links, its data are loaded and do not overlap, the stack has room for 4 words apart from them. All hold on the machine of Props/SamplesEuler."},
{"property": "C76", "status": "proved", "theorems": ["Blang.Props.C76_success", "Blang.Props.C76_failure", "Blang.Props.C76_main"], "note": "C76_success and C76_failure are about Compile, C76_main about the program. Spec/Honest: Smooth (all steps succeeded), Served, Failed. Opening and reading are not recorded as events; that they succeeded is part of Served. A panic while printing the module (status 2) is neither."},
{"property": "C77", "status": "proved", "theorems": ["Blang.Props.C77_linear", "Blang.Props.C77_careful", "Blang.Props.C77_vector", "Blang.Props.C77_exponential"], "note": "Spec/Size counts the units of a module; every operation of the builder adds a bounded number (Proofs/Size), the tree costs at most six units a token and the tokens are no longer than the text (Proofs/SizeText: also where the compiler rewrites the text, Lexes.headQuirk). C77_vector and C77_exponential show that the term for vectors with initial values is needed. Names and the digits of block names are not counted."},
{"property": "C78", "status": "proved", "theorems": ["Blang.Props.C06_bytes"], "note": "The true form of C06, for all literals."},
{"property": "C79", "status": "proved", "theorems": ["Blang.Props.C19_exact"], "note": "The exact form of C19."},
{"property": "C80", "status": "proved", "theorems": ["Blang.Props.C20_exact"], "note": "The exact form of C20."},
{"property": "C81", "status": "proved", "theorems": ["Blang.Props.C25_exact"], "note": "The exact form of C25."},
{"property": "C82", "status": "proved", "theorems": ["Blang.Props.C29_layout"], "note": "The true form of C29, with more values than the size, too."},
{"property": "C83", "status": "proved", "theorems": ["Blang.Props.C32_exact", "Blang.Props.C32_swallowed"], "note": "The exact form of C32: the character behind else is swallowed."},
{"property": "C84", "status": "proved", "theorems": ["Blang.Props.C36_exact"], "note": "The exact form of C36."},
{"property": "C85", "status": "proved", "theorems": ["Blang.Props.C49_printed", "Blang.Props.C49_total"], "note": "The exact form of C49."},
{"property": "C86", "status": "proved", "theorems": ["Blang.Props.C60_exact"], "note": "The exact form of C60."},
{"property": "C87", "status": "proved", "theorems": ["Blang.Props.C64_exact", "Blang.Props.C64_symbols"], "note": "The exact form of C64."},
{"property": "C88", "status": "proved", "theorems": ["Blang.Props.C16_effective_module", "Blang.Props.C16_effective_flow", "Blang.Props.C16_effective_results", "Blang.Props.C16_effective_calls", "Blang.Props.C16_effective_process", "Blang.Props.C16_effective_same"], "note": "Says what happens where C16 fails because a later turn replaces the return."},
{"property": "C89", "status": "proved", "theorems": ["Blang.Props.C89_one_tree", "Blang.Props.C89_grouping", "Blang.Props.C89_shift_relation"], "note": "The exact form of C10."},
{"property": "C90", "status": "proved", "theorems": ["Blang.Props.C90_declared_first", "Blang.Props.C90_exact", "Blang.Props.C90_covers", "Blang.Props.C90_branch", "Blang.Props.C90_loop", "Blang.Props.C90_not_met"], "note": "The condition under which the conclusion of C54 holds, by the rule of definite declaration; it covers the functions of C54 and those with an auto in a branch or loop. C90_exact adds the converse: the condition is also necessary (functions with nothing after a return in the same line, no repeated label or case)."},
{"property": "C91", "status": "proved", "theorems": ["Blang.Props.C91_module", "Blang.Props.C91_tame", "Blang.Props.C91_same", "Blang.Props.C91_flow", "Blang.Props.C91_results", "Blang.Props.C91_calls", "Blang.Props.C91_process", "Blang.Props.C91_callee"], "note": "The exact form of C34: the rules of the B semantics applied to the program in which each called parameter or auto variable has a name of its own (Spec/Apart). Up to the names of parameters the compiler makes the same module of that program (C91_module); for programs that call no such name it is the program itself (C91_same)."},
{"property": "C92", "status": "proved", "theorems": ["Blang.Props.C92_stopped", "Blang.Props.C92_linked", "Blang.Props.C92_output"], "note": "The exact form of C35, C37, C40 and C42 for links (out named with -o; C38_default_executable reduces the default name to this): Untroubled says that nothing fails but compilations and clang. Either all inputs are Usable (C92_linked, C92_output) or there is a first one that is not (C92_stopped)."},
{"property": "C93", "status": "proved", "theorems": ["Blang.Props.C93_else"], "note": "The exact form of C02, for ASCII texts: by C02_else_counterexample the replacement is needed. Texts with other characters are covered by C02_program_partial."},
{"property": "C94", "status": "proved", "theorems": ["Blang.Props.C94_blank", "Blang.Props.C94_layouts", "Blang.Props.C94_front", "Blang.Props.C94_inside_counterexample", "Blang.Props.C94_else_counterexample"], "note": "The exact form of C31 for places where there is a blank already: every text, accepted or not, and the same error. The exceptions are shown needed by C94_inside_counterexample, C94_else_counterexample and C31_call_counterexample (no blank)."},
{"property": "C95", "status": "proved", "theorems": ["Blang.Props.C95_fails", "Blang.Props.C95_ir", "Blang.Props.C95_source", "Blang.Props.C95_other"], "note": "The counterpart of C92 for one input; a list is processed one input after the other (C43), and an input of the wrong kind stops everything (C42_library_partial)."},
{"property": "C96", "status": "proved", "theorems": ["Blang.Props.C96_blank", "Blang.Props.C96_layouts", "Blang.Props.C96_front", "Blang.Props.C96_message_counterexample"], "note": "With C94: outside literals only the presence of a blank matters. C96_message_counterexample shows why messages are left out."},
{"property": "C97", "status": "proved", "theorems": ["Blang.Props.C97_module", "Blang.Props.C97_accepted", "Blang.Props.C97_iff", "Blang.Props.C97_parentheses", "Blang.Props.C97_braces", "Blang.Props.C97_needed_counterexample"], "note": "C97_module: equal modules; C97_accepted and C97_iff: acceptance is carried over; C97_parentheses and C97_braces: the redundant forms are in the grammar; C97_needed_counterexample: where parentheses are not redundant for this compiler (f == g is rejected, (f) == g is accepted; (x) = 1 is rejected)."},
{"property": "C98", "status": "proved", "theorems": ["Blang.Props.C98_kept", "Blang.Props.C98_front", "Blang.Props.C98_together", "Blang.Props.C98_runs", "Blang.Props.C98_process", "Blang.Props.C98_extrn_counterexample"], "note": "C98_kept: for any program p and p++q (by the invariants of the builder between declarations); C98_front and C98_together: for texts, with acceptance, through soundness and completeness of the parser; C98_extrn_counterexample: why the condition on extrn is needed. C98_runs and C98_process: runs of the code kept are runs in the longer module, too."},
{"property": "C99", "status": "proved", "theorems": ["Blang.Props.C99_interpreted"], "note": "Interpreter: Spec/Interp.lean, about 350 lines, checked once here; it is executable, and for examples/showcase.b (C74_showcase) and the tests of the repository (C100) it is run by the kernel. It knows calls through function values, write, nwrite and char of string literals, and printf, as far as it can determine the values; `Computer.Roomy` says that the stack has room for the blocks."},
{"property": "C100", "status": "proved", "theorems": ["Blang.Props.C100_test_programs"], "note": "The interpreter of C99 is run by the kernel on each program; the texts and expected outputs are compared with the test files by tools/tests.py. Not included: tests whose output depends on the placement of variables (local_scalars, local_vectors, local_mix), tests that need what the interpreter refuses (lchar, exit) and two with escape sequences that the checking parser does not know (char_literals, string_literals)."}
]}
