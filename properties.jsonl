{"id": "C01", "title": "Layout between tokens is skipped exactly", "statement": "Skipping layout consumes every leading blank and every complete /* */ comment, and nothing else: afterwards the next character is the first character of the source that belongs to neither, and it can still be read. Skipping twice is the same as skipping once.", "quantifier": "every source text, every mixture of blanks, nested stars and comments, every following text", "why_tests_cant": "the set of layouts is infinite; stars and slashes at comment borders are the classic off-by-one cases", "anchors": ["lexer.go:Whitespace", "lexer.go:Comment"]}
{"id": "C02", "title": "A comment that is never closed is rejected", "statement": "If the text at a token boundary opens a comment and no '*/' follows, compilation fails; it never succeeds by treating the rest of the file as a comment.", "quantifier": "every source prefix and every unclosed comment body", "why_tests_cant": "needs all bodies, including ones ending in '*'", "anchors": ["lexer.go:Comment", "lexer.go:Whitespace", "parser_decls.go:ParseDeclarations"]}
{"id": "C03", "title": "Identifiers are read by longest match", "statement": "Reading an identifier returns exactly the longest run of letters, digits and underscores at the (layout-skipped) position and leaves the rest of the source untouched.", "quantifier": "every source text", "why_tests_cant": "all run lengths and all following characters", "anchors": ["lexer.go:Identifier"]}
{"id": "C04", "title": "Integer literals denote their value", "statement": "A literal without leading 0 denotes its decimal value, a literal with leading 0 its base-8 digit expansion, modulo 2^64, for any number of digits; the character after the last digit is not consumed.", "quantifier": "every digit string of any length and every following text", "why_tests_cant": "unbounded digit strings, wrap-around at 2^64", "anchors": ["lexer.go:Number"]}
{"id": "C05", "title": "Character constants are packed big-endian, at most 8 per word", "statement": "'c1...cn' (n<=8, each a plain character or a *-escape) denotes sum ci*256^(n-i) as a 64-bit word; with more than 8 characters, an undefined escape, or no closing quote the compiler reports an error.", "quantifier": "every sequence of characters/escapes", "why_tests_cant": "all lengths, all bytes, all escapes, sign bit of the 64-bit word", "anchors": ["lexer.go:Character", "lexer.go:Escape"]}
{"id": "C06", "title": "String literals are emitted verbatim, decoded and NUL-terminated", "statement": "The data emitted for a string literal is exactly the source bytes between the quotes with each *-escape replaced by the byte it denotes, followed by one 0 byte.", "quantifier": "every string literal", "why_tests_cant": "all byte strings and escapes; non-ASCII bytes", "anchors": ["lexer.go:String", "lexer.go:Escape", "irbuilder.go:CreateStringConstant"]}
{"id": "C07", "title": "Pushback is lossless and last-in first-out", "statement": "Any interleaving of reading and unreading characters behaves like a stack on top of the unread source: every character is delivered once, in order, none lost or duplicated.", "quantifier": "every sequence of read/unread operations and every source", "why_tests_cant": "all operation histories", "anchors": ["lexer.go:ReadChar", "lexer.go:UnreadChar", "lexer.go:runeReaderAdapter"]}
{"id": "C08", "title": "The compiler front end terminates on every input", "statement": "For every byte sequence, parsing and code generation finishes, with a module or an error; the work is bounded by a fixed function of the input length.", "quantifier": "every byte sequence, including malformed ones", "why_tests_cant": "non-termination can hide in any unlucky input", "anchors": ["parser_decls.go:ParseDeclarations", "parser_stmt.go:parseStatementWithSwitch", "expressions.go:parseExpressionWithLevel", "lexer.go"]}
{"id": "C09", "title": "A read error never turns into a successful compilation", "statement": "If reading the source fails at any point with an error other than end of file, compilation reports an error.", "quantifier": "every prefix of readable bytes before the failure", "why_tests_cant": "all failure points; several call sites swallow read errors", "anchors": ["lexer.go:ReadChar", "parser_stmt.go:parseIf", "expressions.go"]}
{"id": "C10", "title": "Expressions are parsed with the documented precedence and associativity", "statement": "Whenever an expression is accepted, the code generated is that of the one parse tree the B grammar assigns to its text: unary/postfix, then * / %, + -, << >>, relational, ==/!=, &, |, ?:, assignment; binary operators associate to the left, assignment and ?: to the right.", "quantifier": "every expression text of any depth", "why_tests_cant": "infinitely many operator combinations", "anchors": ["expressions.go:parseExpressionWithLevel", "expressions.go:parseUnary", "expressions.go:parsePostfix"]}
{"id": "C11", "title": "Compiled expressions compute the value and effects of the B expression", "statement": "Running the generated code for an expression yields the value, and performs the loads, stores and calls in the order, given by the B semantics (64-bit wrap-around arithmetic, left-to-right evaluation, word-scaled indexing, address-of and indirection). Standing conditions (of C11, C12, C14, C15, C17, C18, C23, C30, C33, C34): the program is a valid B program (no label of a function, no case value of a switch and no external name is defined twice or as both variable and function, no auto vector has 2^64-1 words), no statement stands directly behind a return (what happens then is C16) and no parameter or auto variable is called by its name (that is C34); undefined operations (division by 0, shifts by 64 or more) have no meaning.", "quantifier": "every expression, every memory state, every callee behaviour", "why_tests_cant": "nesting, aliasing and evaluation order cannot be enumerated", "anchors": ["expressions.go:parseExpressionWithLevel", "expressions.go:parseUnary", "expressions.go:parsePostfix", "expressions.go:parsePrimary", "irbuilder.go:GetAddress"]}
{"id": "C12", "title": "x =op y stores and returns x op y, evaluating x's address once", "statement": "For each of the 15 compound assignment operators the cell designated by the left operand receives (old value op right value) and this is the value of the expression; the address of the left operand is computed once, before the right operand. Standing conditions as in C11.", "quantifier": "every operator, left operand, right operand and memory", "why_tests_cant": "aliasing between the two operands, side effects in either", "anchors": ["expressions.go:parseExpressionWithLevel"]}
{"id": "C13", "title": "Only lvalues can be assigned, incremented or have their address taken", "statement": "A program that assigns to, applies ++/-- to, or takes the address of anything but a variable, an indirection, an indexing or a prefix increment is rejected; no store to a non-address is ever generated.", "quantifier": "every program", "why_tests_cant": "must hold for every expression shape in every position", "anchors": ["expressions.go:parseExpressionWithLevel", "expressions.go:parseUnary", "expressions.go:parsePostfix"]}
{"id": "C14", "title": "Comparisons and ! yield exactly 0 or 1", "statement": "The value of ==, !=, <, <=, >, >= (signed) and ! is 1 when the relation holds and 0 otherwise, for all 2^128 operand pairs. Standing conditions as in C11.", "quantifier": "all pairs of 64-bit words", "why_tests_cant": "2^128 pairs", "anchors": ["expressions.go:parseExpressionWithLevel", "expressions.go:parseUnary"]}
{"id": "C15", "title": "Compiled statements follow the B control flow", "statement": "Running a compiled function body executes if/else, while, blocks and expression statements exactly as the B program prescribes and returns the same value with the same final memory. Standing conditions as in C11.", "quantifier": "every function body, every initial memory, every terminating execution", "why_tests_cant": "unbounded nesting and iteration counts", "anchors": ["parser_stmt.go:parseStatementWithSwitch", "parser_stmt.go:parseIf", "parser_stmt.go:parseWhile"]}
{"id": "C16", "title": "return ends the function", "statement": "After a return statement is executed no further statement of the function has any effect and the returned value is the caller's result; a body that falls off its end returns 0.", "quantifier": "every function body", "why_tests_cant": "depends on what follows the return in the source, arbitrary code", "anchors": ["parser_stmt.go:parseReturn", "irbuilder.go:EndFunction"]}
{"id": "C17", "title": "switch jumps to the matching case and falls through", "statement": "switch evaluates its expression once and continues at the case whose constant equals the value, else after the switch; execution falls through from one case into the next. Standing conditions as in C11.", "quantifier": "every switch body, every selector value", "why_tests_cant": "all 2^64 selector values, arbitrary bodies and nesting", "anchors": ["parser_stmt.go:parseSwitch", "parser_stmt.go:parseCase"]}
{"id": "C18", "title": "goto continues at its label", "statement": "goto L, forward or backward, continues at the statement labelled L of the same function, whatever blocks lie in between. Standing conditions as in C11.", "quantifier": "every function body and label placement", "why_tests_cant": "arbitrary control-flow graphs", "anchors": ["parser_stmt.go:parseGoto", "parser_stmt.go:parseKeywordOrExpressionWithSwitch", "irbuilder.go:GetOrCreateLabel"]}
{"id": "C19", "title": "Basic-block names are unique in every function", "statement": "In every emitted function no two basic blocks have the same name, and no block name equals a parameter name, so each branch in the emitted text has one meaning.", "quantifier": "every accepted program", "why_tests_cant": "arbitrary nesting of constructs and user label names", "anchors": ["irbuilder.go:NewBlock", "irbuilder.go:GetOrCreateLabel", "irbuilder.go:StartFunction"]}
{"id": "C20", "title": "Every emitted basic block is terminated", "statement": "In every function of a successfully parsed program each basic block ends in exactly one terminator, so the module can be printed and assembled.", "quantifier": "every accepted program", "why_tests_cant": "arbitrary control flow, dead code and labels", "anchors": ["parser_stmt.go", "irbuilder.go:EndFunction"]}
{"id": "C21", "title": "case is only accepted directly inside switch", "statement": "A case label is accepted iff it lies in a switch body without an intervening if or while; otherwise the program is rejected.", "quantifier": "every program", "why_tests_cant": "arbitrary nesting", "anchors": ["parser_stmt.go:parseCase", "parser_stmt.go:parseStatement"]}
{"id": "C22", "title": "A local name is declared at most once per function", "statement": "A function that declares the same auto name twice, or an auto name equal to a parameter, is rejected, wherever the declarations are.", "quantifier": "every function body", "why_tests_cant": "arbitrary distance and nesting between the declarations", "anchors": ["parser_stmt.go:parseAuto"]}
{"id": "C23", "title": "Names are resolved per function: no context leaks between declarations", "statement": "In a function a name denotes the local of that name if declared earlier in the function, else the extrn-declared global, else a function; a global declared elsewhere and not mentioned in an extrn of this function is never accessible as a variable. (What a name denotes at run time: standing conditions as in C11.)", "quantifier": "every program, every sequence of declarations", "why_tests_cant": "all histories of preceding declarations", "anchors": ["irbuilder.go:GetAddress", "irbuilder.go:ClearTopLevelContext", "parser_stmt.go:parseExtrn", "expressions.go:parsePrimary"]}
{"id": "C24", "title": "At most one function per name, and the definition wins", "statement": "The emitted module contains at most one function of each name; a call that precedes the definition and the definition itself refer to the same single symbol; of several definitions the last is emitted.", "quantifier": "every sequence of declarations", "why_tests_cant": "all orders of calls and definitions", "anchors": ["irbuilder.go:DeclareFunction", "irbuilder.go:GetOrDeclareFunction", "irbuilder.go:removeFuncByName"]}
{"id": "C25", "title": "Every symbol is defined once in the module", "statement": "No two globals, and no global and function, of the emitted module share a name.", "quantifier": "every accepted program", "why_tests_cant": "all sequences of declarations", "anchors": ["irbuilder.go:removeGlobalByName", "parser_decls.go:parseGlobal", "parser_decls.go:parseVector", "parser_stmt.go:parseExtrn"]}
{"id": "C26", "title": "B symbols cannot clash with C symbols", "statement": "Every symbol that the compiler emits for a B name other than main starts with the prefix 'b.', and distinct B names get distinct symbols.", "quantifier": "every program and every name", "why_tests_cant": "all names", "anchors": ["irbuilder.go:globalName"]}
{"id": "C27", "title": "Each string literal is its own private immutable constant", "statement": "Every string literal of a program gets its own constant object with a name no other object of the module has.", "quantifier": "every program, any number of literals", "why_tests_cant": "unbounded counts across functions and initialisers", "anchors": ["irbuilder.go:CreateStringConstant"]}
{"id": "C28", "title": "Global scalars hold their initialisers", "statement": "name v1,...,vn; reserves max(n,1) consecutive words holding the values in order (0 when there are none; -v is the two's complement negation).", "quantifier": "every initialiser list", "why_tests_cant": "unbounded lists, all values", "anchors": ["parser_decls.go:parseGlobal", "parser_decls.go:parseIvalConst", "irbuilder.go:DeclareGlobal", "irbuilder.go:DeclareGlobalWithMultipleValues"]}
{"id": "C29", "title": "Global vectors are laid out as B vectors", "statement": "name[N] v1..vn; produces a cell holding the address of a block of max(N,n) (at least 1) words that starts with the given values, the rest being 0.", "quantifier": "every size and initialiser list", "why_tests_cant": "unbounded sizes; two different representations in the compiler", "anchors": ["parser_decls.go:parseVector", "irbuilder.go:DeclareGlobalArray"]}
{"id": "C30", "title": "The n-th argument arrives in the n-th parameter", "statement": "When a function with k parameters is called with at least k arguments, on entry each parameter cell holds the argument of its position. Standing conditions as in C11.", "quantifier": "every parameter list and argument list", "why_tests_cant": "all arities", "anchors": ["irbuilder.go:DeclareFunction", "irbuilder.go:StartFunction"]}
{"id": "C31", "title": "Layout between tokens does not change the meaning", "statement": "Inserting or removing blanks and comments between two tokens (where they do not merge) changes neither acceptance nor the generated code.", "quantifier": "every program and every re-layout", "why_tests_cant": "all token boundaries", "anchors": ["lexer.go:Whitespace", "parser_stmt.go:parseKeywordOrExpressionWithSwitch", "expressions.go:parsePostfix", "parser_decls.go"]}
{"id": "C32", "title": "else belongs to the nearest if and its statement is read completely", "statement": "After the statement of an if, the word else followed by a statement attaches that whole statement to this if; without else the following text is untouched.", "quantifier": "every program text", "why_tests_cant": "every character that can follow else", "anchors": ["parser_stmt.go:parseIf"]}
{"id": "C33", "title": "auto variables start at 0 and vectors point at their own storage", "statement": "Executing auto x; gives x a fresh word with value 0; auto v[N] gives v a fresh cell that contains the address of its own N (at least 1) words. Standing conditions as in C11.", "quantifier": "every size, every memory state", "why_tests_cant": "all sizes and states", "anchors": ["irbuilder.go:DeclareLocal", "irbuilder.go:DeclareLocalArray"]}
{"id": "C34", "title": "A call goes to the function its callee denotes", "statement": "f(args) with f a function symbol calls that function; with f a variable calls the function whose address the variable holds; arguments are evaluated left to right and passed in order.", "quantifier": "every callee and argument list", "why_tests_cant": "all callee forms and argument counts", "anchors": ["expressions.go:parsePostfix", "expressions.go:parsePrimary"]}
{"id": "C35", "title": "A source that does not compile leaves the output file untouched", "statement": "If the front end reports an error for an input, the requested output file is neither created nor modified by that input, in every output mode.", "quantifier": "every source, every prior file-system content, every mode", "why_tests_cant": "all malformed inputs and file systems", "anchors": ["driver.go:compileToIR", "driver.go:compileToAssembly", "driver.go:compileToObject", "driver.go:compileToExecutable"]}
{"id": "C36", "title": "Temporary files are removed on every exit path", "statement": "Without --save-temps, whenever compilation returns (success, front-end error, write error or clang failure) no temporary IR file it created remains.", "quantifier": "every input list, every failure point", "why_tests_cant": "all failure points", "anchors": ["driver.go:compileToAssembly", "driver.go:compileToObject", "driver.go:compileToExecutable"]}
{"id": "C37", "title": "--save-temps keeps the intermediate IR", "statement": "With --save-temps the IR of every .b input that was compiled is still present after compilation, under the documented name.", "quantifier": "every input list and outcome of clang", "why_tests_cant": "all outcomes", "anchors": ["driver.go"]}
{"id": "C38", "title": "Output files are named as documented", "statement": "Without -o the output of each input is its base name with the extension replaced (.ll/.s/.o, none for executables) in the current directory; with -o exactly that path is written.", "quantifier": "every path string and mode", "why_tests_cant": "all path strings with dots and slashes", "anchors": ["driver.go:compileToIR", "driver.go:compileToAssembly", "driver.go:compileToObject", "driver.go:compileToExecutable"]}
{"id": "C39", "title": "-o with several inputs is refused without side effects", "statement": "In the IR, assembly and object modes -o with a number of inputs different from 1 reports an error and touches no file.", "quantifier": "every option set and input list", "why_tests_cant": "all lists", "anchors": ["driver.go"]}
{"id": "C40", "title": "Temporaries of one invocation never collide", "statement": "The temporary IR names used for the inputs of one multi-input link are pairwise different, even for inputs with equal base names, and never name one of the invocation's inputs.", "quantifier": "every input list", "why_tests_cant": "all combinations of base names and positions", "anchors": ["driver.go:compileToExecutable"]}
{"id": "C41", "title": "The link command contains every input once, in order, with libraries after objects", "statement": "clang is invoked with the optimisation and debug flags, then all inputs in command-line order (with .b replaced by their IR), then -L directories, then -lb, then the user's libraries in order, then -o output.", "quantifier": "every option set and input list", "why_tests_cant": "all option combinations and orders", "anchors": ["driver.go:compileToExecutable"]}
{"id": "C42", "title": "Inputs of the wrong kind are refused before anything is written", "statement": "If an input's extension is not acceptable in the selected mode, an error is reported and no file is created, changed or removed and no tool is run.", "quantifier": "every mode and input list", "why_tests_cant": "all lists and extensions", "anchors": ["driver.go", "main.go:main"]}
{"id": "C43", "title": "Processing stops at the first failing input", "statement": "In the multi-input modes the inputs before the first failing one are fully processed, the ones after it are not touched.", "quantifier": "every input list and failure position", "why_tests_cant": "all positions", "anchors": ["driver.go"]}
{"id": "C44", "title": "Command-line options select mode and optimisation as documented", "statement": "-S wins over -c wins over --emit-llvm; optimisation is a level 0-3 and anything else is refused before any work; no input files, unknown extensions and missing files are refused.", "quantifier": "every combination of options", "why_tests_cant": "all combinations", "anchors": ["main.go:main", "options.go:NewCompileOptions"]}
{"id": "C45", "title": "User library directories and libraries keep their order after the defaults", "statement": "The library search list is the existing default directories in the documented order followed by the -L directories in order.", "quantifier": "every environment and option list", "why_tests_cant": "all environments", "anchors": ["main.go:main"]}
{"id": "C46", "title": "printd prints the decimal representation of every word", "statement": "printd(n) writes the shortest decimal representation of the signed 64-bit value n, including the most negative one, and never writes outside its local buffer.", "quantifier": "all 2^64 words", "why_tests_cant": "2^64 values, buffer bound", "anchors": ["runtime/printd.c"]}
{"id": "C47", "title": "printo prints the octal representation of every word", "statement": "printo(n) writes the shortest base-8 representation of n taken as unsigned, and never writes outside its buffer.", "quantifier": "all 2^64 words", "why_tests_cant": "2^64 values, buffer bound", "anchors": ["runtime/printo.c"]}
{"id": "C48", "title": "write prints the characters of a packed constant", "statement": "write(w) writes the big-endian bytes of w without leading zero bytes (one zero byte for w=0); in particular write of a character constant of up to 8 characters, the first not NUL, writes exactly these characters.", "quantifier": "all 2^64 words / all constants", "why_tests_cant": "2^64 values", "anchors": ["runtime/write.c", "lexer.go:Character"]}
{"id": "C49", "title": "printf expands its format", "statement": "printf writes the format with %d, %o, %c, %s, %% replaced by the decimal, octal, character(s), string of the successive arguments and % respectively, everything else verbatim.", "quantifier": "every format string and argument list", "why_tests_cant": "unbounded strings; extreme values; non-ASCII characters", "anchors": ["runtime/printf.c", "runtime/char.c"]}
{"id": "C50", "title": "char/lchar read and write single characters", "statement": "After lchar(s,i,c), char(s,i) is the low byte of c and every other byte of memory is unchanged.", "quantifier": "every memory, address, index and value", "why_tests_cant": "all memories", "anchors": ["runtime/char.c", "runtime/lchar.c"]}
{"id": "C51", "title": "read delivers the input characters, then *e", "statement": "Successive read() calls return the bytes of the standard input in order (0 for non-ASCII bytes), then the end-of-file value, and never block out an input byte.", "quantifier": "every input", "why_tests_cant": "all inputs", "anchors": ["runtime/read.c"]}
{"id": "C52", "title": "The compiler's output does not depend on map iteration order", "statement": "The generated module is the same whatever order Go's randomised map iteration takes when the function being started is looked up.", "quantifier": "every program, every iteration order", "why_tests_cant": "the order changes from run to run", "anchors": ["irbuilder.go:StartFunction"]}
{"id": "C53", "title": "Printing a literal string prints that string", "statement": "The program main(){printf(\"s\");} compiled and run with the runtime library writes exactly the characters of s to standard output, for every s of ASCII characters without % and NUL (suitably escaped).", "quantifier": "every string", "why_tests_cant": "end-to-end over compiler and runtime for all strings", "anchors": ["expressions.go:parsePrimary", "irbuilder.go:CreateStringConstant", "runtime/printf.c", "runtime/write.c"]}
{"id": "C54", "title": "Locals are usable wherever they are in scope", "statement": "In every emitted function the address of a local variable is computed on every path that reaches a use of it.", "quantifier": "every accepted function", "why_tests_cant": "all control-flow paths", "anchors": ["parser_stmt.go:parseAuto", "irbuilder.go:DeclareLocal"]}
{"id": "C55", "title": "Exit status is main's result", "statement": "On Linux the process exits with the value returned by main, and exit() ends the process with status 0 at once.", "quantifier": "every program", "why_tests_cant": "all return values", "anchors": ["runtime/start.c", "runtime/exit.c"]}
{"id": "C56", "title": "Emitted code is well typed", "statement": "In the module emitted for an accepted program every instruction and terminator has operands of the types LLVM demands of it: loads and stores go through pointers, arithmetic and comparison get words, conditional branches get a bit, calls get a function, returns get a word.", "quantifier": "every accepted source text", "why_tests_cant": "must hold for every expression shape in every context; a test sees one program", "anchors": ["expressions.go", "parser_stmt.go", "irbuilder.go"]}
{"id": "C57", "title": "Single assignment", "statement": "In every emitted function each register is assigned by one instruction, and every path through the function that reaches a use of a register (other than the address of a local variable, see C54) has computed it; a phi instruction uses its operands at the ends of the blocks it names.", "quantifier": "every accepted source text, every register, every path", "why_tests_cant": "all nestings of ?:, switch, loops, labels and goto, and all paths through the result", "anchors": ["expressions.go", "parser_stmt.go", "irbuilder.go"]}
{"id": "C58", "title": "Branches and phi instructions are well formed", "statement": "In every emitted function each branch leads to a block of the function other than its first; each phi instruction is the first of its block and names exactly the blocks from which that block can be reached, which are two different ones.", "quantifier": "every accepted source text", "why_tests_cant": "all nestings of ?: in each other and in statements", "anchors": ["expressions.go", "parser_stmt.go:parseSwitch", "irbuilder.go:GetOrCreateLabel"]}
{"id": "C59", "title": "No dangling references", "statement": "Every global variable and function that emitted code or an emitted initial value refers to is present (defined or declared) in the emitted module, also when the reference comes before the definition, and when nothing defines it.", "quantifier": "every accepted source text", "why_tests_cant": "all orders of references and definitions", "anchors": ["irbuilder.go:GetAddress", "irbuilder.go:GetOrDeclareFunction", "irbuilder.go:removeFuncByName", "irbuilder.go:removeGlobalByName", "parser_decls.go"]}
{"id": "C60", "title": "Calls pass the number of arguments that the function type demands", "statement": "Every call instruction of an emitted function passes exactly the fixed parameters of the type of the called function, and more only if the type is variadic, whether the function is called before or after its definition, is external, or is called through an address.", "quantifier": "every accepted source text, every call in it", "why_tests_cant": "all combinations of the order of definitions and calls, numbers of parameters and of arguments, and kinds of callee", "anchors": ["expressions.go:parsePostfix", "irbuilder.go:GetOrDeclareFunction", "irbuilder.go:DeclareFunction"]}
{"id": "C61", "title": "Every call that the program prescribes is made", "statement": "Every call that a run of a B program makes, in the function that was called first or in one that it has called in turn, is made by the emitted code too: of the same function, with the same argument values and with the same contents of memory, also when neither this call nor any of the calls in which it is made ever returns. Likewise every state of memory in which a statement of a called function is executed is reached.", "quantifier": "every accepted program within the stated conditions, every machine, external functions, arguments and store; every point of every run, whether the run ends or not", "why_tests_cant": "all programs and all prefixes of runs, including infinite ones", "anchors": ["expressions.go:parsePostfix", "parser_stmt.go:parseWhile", "parser_decls.go:parseFunction"]}
{"id": "C62", "title": "Programs that do not end do not end when compiled", "statement": "A function that, as B prescribes, does not come to an end, because it makes infinitely many steps or calls a function that does not come to an end (endless recursion included), does not return in the emitted module.", "quantifier": "every accepted program within the stated conditions, every properly loaded machine, external functions, arguments and store", "why_tests_cant": "non-termination cannot be observed by a test", "anchors": ["parser_stmt.go:parseWhile", "parser_stmt.go:parseGoto", "expressions.go:parsePostfix"]}
{"id": "C63", "title": "Spreading a program over several files does not change what it does", "statement": "A program may be divided into several files that are compiled separately and linked. Whatever the program consisting of all the files prescribes for a call of a function - its result and the contents of memory afterwards - is what calling the function in the linked object does, and nothing else; it is also what the module of one file containing the texts of all of them, each on lines of its own, does. Functions and variables are shared between the files, string literals belong to the file in which they stand.", "quantifier": "every list of accepted files within the stated conditions (no symbol defined twice, see C64), every machine, placement of string constants, external functions, arguments and store", "why_tests_cant": "all programs, all ways to divide them, all runs", "anchors": ["driver.go:compileToExecutable", "irbuilder.go:CreateStringConstant", "irbuilder.go:globalName", "irbuilder.go:GetOrDeclareFunction"]}
{"id": "C64", "title": "Files that are linked together do not define the same symbol", "statement": "The modules of two files of a program define no common symbol unless both files define the same function or variable; in particular a file that uses a variable of another file by `extrn` can be linked with it.", "quantifier": "every pair of accepted files", "why_tests_cant": "all pairs of files", "anchors": ["parser_stmt.go:parseExtrn", "irbuilder.go:DeclareGlobal", "irbuilder.go:DeclareGlobalArray", "irbuilder.go:CreateStringConstant"]}
{"id": "C65", "title": "The compiled function returns exactly what the program prescribes", "statement": "As B prescribes, a call of a function of a program goes wrong (too few arguments, a division by 0, a shift by 64 or more, use of a variable whose declaration was not executed, ...), or returns, or does not come to an end, or makes a call of something outside the program that does not return; what it returns is unique, and a call that returns or does not come to an end does not go wrong. If it does not go wrong, then the function in the emitted module returns a value and leaves a store if and only if the program prescribes that value and that store: a compiled function returns only if the program says so.", "quantifier": "every accepted program within the stated conditions, every properly loaded machine, external functions, arguments and store for which the call does not go wrong", "why_tests_cant": "all programs and all inputs; that a run never returns cannot be observed by a test", "anchors": ["expressions.go:parseExpression", "parser_stmt.go:parseStatement", "parser_decls.go:parseFunction"]}
{"id": "C66", "title": "The compiled function makes exactly the calls that the program prescribes", "statement": "If a call of a function of the program does not go wrong, then the calls that the emitted code makes, itself or in functions that it calls, in runs that end or not, are exactly those that the program prescribes: of the same functions, with the same argument values and contents of memory. So nothing observable is done in addition.", "quantifier": "every accepted program within the stated conditions, every properly loaded machine, external functions, arguments and store for which the call does not go wrong; every point of every run", "why_tests_cant": "all programs and all prefixes of runs, including infinite ones", "anchors": ["expressions.go:parsePostfix", "parser_stmt.go:parseStatement", "parser_decls.go:parseFunction"]}
{"id": "C67", "title": "Variables, vectors and strings have their initial values when the program starts", "statement": "When the system has loaded the data of the emitted module into memory (each global at its address, with its initial value) and main is about to run: every word of a variable x v1..vk is the value vi (0 if there are none), every vector x[n] v1..vk is the address of its words, which are the values and then zeros, a string value is the address of its bytes and a final 0, a variable that is only mentioned in an extrn is 0, and each string literal is where the code expects it. If main does not go wrong from there, the exit status of the process is the value that the program prescribes. Every module whose variables have different names can be loaded.", "quantifier": "every accepted text, every placement of the globals and every memory that holds their initial values", "why_tests_cant": "all programs, sizes, values and placements in memory", "anchors": ["parser_decls.go:parseGlobal", "parser_decls.go:parseVector", "irbuilder.go:DeclareGlobalArray", "irbuilder.go:CreateStringConstant", "runtime/start.c:b_start"]}
{"id": "C68", "title": "The runtime library and the answers of the operating system", "statement": "nwrite makes one system call with exactly the requested bytes and returns exactly what the system answers; nread returns what the system reports, and on a failure changes nothing; write, writeb, printd, printo and printf make the same system calls whatever the system answers (what it did not accept is not written again), and they never overrun their buffers or loop because of an answer.", "quantifier": "every sequence of answers of the operating system, every argument and memory", "why_tests_cant": "failures and partial writes depend on the environment and can occur at any call", "anchors": ["runtime/nwrite.c", "runtime/nread.c", "runtime/read.c", "runtime/write.c", "runtime/printf.c", "runtime/x86_64.h"]}
{"id": "C69", "title": "With several inputs every input's result is in its own output", "statement": "Without -o, if the documented output names of the inputs differ, then after success the output of every source holds the IR of that source (--emit-llvm) or what clang makes of it (-S, -c), the output of every other input what clang makes of that input, and no file but the outputs (and temporaries) has changed. If two inputs have the same base name, the later result silently replaces the earlier.", "quantifier": "every list of inputs, file system and behaviour of clang that writes only its output", "why_tests_cant": "all lists of paths and all interleavings of outputs, temporaries and inputs", "anchors": ["driver.go:compileToIR", "driver.go:compileToAssembly", "driver.go:compileToObject"]}
{"id": "C70", "title": "The driver touches only its outputs and temporaries, at every moment", "statement": "Whatever happens (success, a failure at any point, a panic), and hence wherever the run is interrupted: the driver creates and writes only the requested output (--emit-llvm) and temporary IR files with the documented names, removes only such temporaries and only without --save-temps, and asks clang to write only an output of the invocation. No source file is created, written or removed unless the user names it with -o.", "quantifier": "every invocation, file system, failure and point of interruption", "why_tests_cant": "all failure points and combinations of names", "anchors": ["driver.go:Compile", "driver.go:compileToIR", "driver.go:compileToAssembly", "driver.go:compileToObject", "driver.go:compileToExecutable"]}
{"id": "C71", "title": "The process does what the program prescribes", "statement": "A compiled program, linked with the runtime library and started as a process, comes to an end (main returns, or exit is called anywhere) exactly if the program prescribes it, with the same status and with the same bytes written to every file, input consumed and memory; library functions do what they are documented to do, in every state and for all arguments; the same holds at every call made meanwhile, whether the process ends or not. A process ends in one way at most.", "quantifier": "every accepted text, machine, placement of symbols, input, memory, choice of what C leaves open (signedness of char, uninitialised buffers, missing variadic arguments) and answer of the system", "why_tests_cant": "all programs, inputs and executions, ending or not", "anchors": ["expressions.go", "parser_stmt.go", "parser_decls.go", "runtime/start.c", "runtime/exit.c", "runtime/read.c", "runtime/write.c", "runtime/printf.c", "runtime/char.c", "runtime/lchar.c", "runtime/nread.c", "runtime/nwrite.c", "runtime/printd.c", "runtime/printo.c", "runtime/writeb.c", "runtime/flush.c"]}
{"id": "C72", "title": "A program that copies its input, from text to bytes", "statement": "The program main(){auto c; while((c=read())!=4) write(c);} is accepted, and its process, on every machine, for every input of ASCII characters other than 4, writes exactly the input to the standard output, nothing to any other file, and ends with status 0. A program that calls exit in a function does what comes before and nothing that follows, and ends with status 0.", "quantifier": "every machine, placement, input and willing system", "why_tests_cant": "inputs of every length", "anchors": ["parser_stmt.go:parseWhile", "expressions.go", "runtime/read.c", "runtime/write.c", "runtime/exit.c"]}
{"id": "C73", "title": "Order of definitions and choice of names do not matter", "statement": "If the declarations of a text (each function and variable declared once) are written in another order, or parameters, auto variables and labels of a function are consistently called something else, or functions and variables are renamed and keep their addresses, then the functions of the module, called with the same arguments in the same store, return the same and make the same calls in the same stores, a call goes wrong in the same cases, the initial memory is right for both, and the process does the same and ends in the same way.", "quantifier": "every pair of accepted texts related in this way, every placement, function, arguments, store and external functions", "why_tests_cant": "all programs, all reorderings and renamings, all executions", "anchors": ["parser_decls.go", "parser_stmt.go", "expressions.go:parsePrimary", "irbuilder.go:CreateStringConstant"]}
{"id": "C74", "title": "The example programs do what they say", "statement": "The example programs hello.b, helloworld.b, fibonacci.b, fizzbuzz.b and showcase.b of the repository are accepted, and the process that runs what the compiler produces, linked with the library, writes to its standard output exactly: `Hello, World!` and a newline (the first two), `55` and a newline, for each number from 1 to 100 a line with Fizz, Buzz, FizzBuzz or the number, and the four lines `Fibonacci(5) = 5`, `Fibonacci(10) = 55`, `Operator test result: 0`, `Array test result: 180` (showcase.b); it writes nothing else, reads nothing and ends with status 0, and in no other way. The function fib of fibonacci.b returns, for every argument, the Fibonacci number with that index modulo 2^64.", "quantifier": "every machine (placement of code, data and stack, every stack discipline with room for the variables), every C compiler choice for the library, every behaviour of the system; for fib every argument and store", "why_tests_cant": "a test runs one machine with one layout; fib has 2^64 arguments", "anchors": ["examples/hello.b", "examples/helloworld.b", "examples/fibonacci.b", "examples/fizzbuzz.b", "irbuilder.go", "runtime/", "examples/showcase.b"]}
{"id": "C75", "title": "e-2.b prints the decimals of e - 2", "statement": "The example program e-2.b of the repository is accepted, and the process that runs what the compiler produces, linked with the library, writes to its standard output the first 4000 decimals of the real number e - 2, every one of them right, in groups of five separated by a space and fifty to the line, and then two newlines; it writes nothing else, reads nothing and ends with status 0, and in no other way.", "quantifier": "every machine (placement of code, data and stack, every stack discipline with room for the variables), every C compiler choice for the library, every behaviour of the system; all 4000 decimals of the real number", "why_tests_cant": "a test runs one machine with one layout, and compares with digits computed by another program", "anchors": ["examples/e-2.b", "irbuilder.go", "runtime/write.c"]}
{"id": "C76", "title": "The exit status is truthful", "statement": "Asked neither for help nor for its version, blang exits with status 0 only if there is at least one input and every input was served: it has a kind the mode accepts, a source was read to its end, accepted by the front end and its IR written completely to a file that was closed without an error, and outside the IR mode this file, or the input that is no source, was given to a run of clang that succeeded; every file creation, write, close and run of clang on the way succeeded. It exits with status 1 only if the request was refused before anything was done, or there was a first failure - an input of the wrong kind, several inputs for one output, a source that cannot be opened or that is rejected, an output or temporary that cannot be created, written or closed, a run of clang that fails -; everything before it succeeded, and after it nothing is done except removing temporaries.", "quantifier": "every invocation, every set of files, every behaviour of the operating system and of clang", "why_tests_cant": "every combination of inputs and every point at which something may fail", "anchors": ["driver.go:Compile", "driver.go:compileToIR", "driver.go:compileToAssembly", "driver.go:compileToObject", "driver.go:compileToExecutable", "main.go:main"]}
{"id": "C77", "title": "The emitted module is linear in the text", "statement": "The module that an accepted text is compiled to has at most six units for each character of the text - a unit being a function, a parameter, a basic block, an instruction, an argument of a call, a case of a switch, a terminator, a word or byte of an initial value - and one unit for each word of the vectors declared with a size and initial values. (Those are written out: v[N] 1; of length k + 6 makes a module of more than 10^k words. A vector without initial values is one unit, whatever its size.)", "quantifier": "every text that the compiler accepts", "why_tests_cant": "a test measures some texts; a construct whose code is copied for every use, or a nesting that doubles the code, is only excluded by an argument over all texts", "anchors": ["expressions.go", "parser_stmt.go", "parser_decls.go", "irbuilder.go:DeclareGlobalArray", "irbuilder.go:StartFunction", "irbuilder.go:CreateStringConstant"]}
{"id": "C78", "title": "The bytes of every string literal, non-ASCII ones included", "statement": "The private constants of the emitted module are exactly the string literals of the source, in order; each holds the values of its characters, the ones of 128 and above in the two-byte UTF-8 form of the code points U+0080 to U+00FF, followed by one 0 byte.", "quantifier": "every accepted source text, every string literal in it", "why_tests_cant": "literals are arbitrary byte sequences", "anchors": ["lexer.go:String", "irbuilder.go:CreateStringConstant"]}
{"id": "C79", "title": "When the block names of a function are apart", "statement": "In every emitted function the basic blocks have different names, none of which is that of the parameter, if and only if no label that the function defines or jumps to is called `entry` or like its first parameter, and the first parameter is not called `entry`.", "quantifier": "every accepted source text, every function in it", "why_tests_cant": "depends on all labels, parameters and generated names of a function of any size", "anchors": ["irbuilder.go:NewBlock", "irbuilder.go:GetOrCreateLabel", "irbuilder.go:StartFunction"]}
{"id": "C80", "title": "When every block of a function is terminated", "statement": "All basic blocks of an emitted function end in a terminator if and only if every label that a goto of the function names is defined in the function.", "quantifier": "every accepted source text, every function in it", "why_tests_cant": "arbitrary nesting of statements, gotos and labels", "anchors": ["parser_stmt.go", "irbuilder.go:EndFunction"]}
{"id": "C81", "title": "When the symbols of a module are defined once", "statement": "No two globals, and no global and function, of the emitted module have the same symbol if and only if no name is both a variable (defined or mentioned in an extrn) and a function (defined or used as one) of the source, and no two vectors with a separate block of storage have the same name.", "quantifier": "every accepted source text", "why_tests_cant": "any number of declarations in any order", "anchors": ["irbuilder.go:removeGlobalByName", "parser_decls.go:parseGlobal", "parser_decls.go:parseVector", "parser_stmt.go:parseExtrn"]}
{"id": "C82", "title": "The layout of every global vector", "statement": "The only declaration of a vector `x[n] v1, ..., vk;` gives a cell that holds the address of n words (of k, at least one, if n is not written or 0): as many of the values as there is room for, in order, and 0 for the rest.", "quantifier": "every accepted source text, every vector in it with a size and a number of values below 2^63", "why_tests_cant": "sizes and lists of values are unbounded", "anchors": ["parser_decls.go:parseVector", "irbuilder.go:DeclareGlobalArray"]}
{"id": "C83", "title": "How the word else is read, exactly", "statement": "Let the character directly behind each `else` count as part of the word, provided that it is not a letter or digit. Then a text whose tokens form a program of the documented grammar is accepted with a module m if and only if m is the code of its tree and no name of a function stands directly before == or an assignment operator; so two texts that differ only in the characters behind `else` yield the same module.", "quantifier": "every text whose tokens form a program", "why_tests_cant": "the position and the character behind else are arbitrary", "anchors": ["parser_stmt.go:parseIf"]}
{"id": "C84", "title": "What is left behind by a run, exactly", "statement": "Without --save-temps, in the assembly, object and executable modes: after success no file that the run created is left; after an error there was a first failure, and if it is a file that could not be written or closed, this file is left; if it is an input of the wrong kind, all files created so far are left; otherwise none.", "quantifier": "every input list, every answer of the file system and of clang", "why_tests_cant": "every operation can fail at every point", "anchors": ["driver.go:compileToAssembly", "driver.go:compileToObject", "driver.go:compileToExecutable"]}
{"id": "C85", "title": "What printf prints, in all cases", "statement": "For every format and every list of arguments (as many as the format uses, those for %s being strings) printf writes exactly one determined sequence of bytes and nothing else: the conversions %d, %o, %c, %s, %% as in the documentation, with the two deviations of the implementation (%d of the smallest number, and %c of bytes of 128 and above where char is signed), everything else verbatim.", "quantifier": "every format, argument list and memory", "why_tests_cant": "unbounded formats and numbers", "anchors": ["runtime/printf.c", "runtime/char.c"]}
{"id": "C86", "title": "When calls pass the number of arguments that the function type demands", "statement": "Every call instruction of the emitted module passes the arguments that the type of the called function demands if and only if each call by name (in a function that is not defined again later) of a function that is defined above it, or of the calling function itself, passes no argument to a function without parameters and at least one to a function with parameters.", "quantifier": "every accepted source text, every call in it", "why_tests_cant": "calls before and after definitions, redefinitions, any number of arguments", "anchors": ["expressions.go:parsePostfix", "irbuilder.go:GetOrDeclareFunction", "irbuilder.go:DeclareFunction"]}
{"id": "C87", "title": "When two files define a common symbol", "statement": "The modules of two files define a common symbol if and only if some name is defined or declared extrn in both files.", "quantifier": "every pair of accepted files", "why_tests_cant": "any two files", "anchors": ["parser_stmt.go:parseExtrn", "irbuilder.go:DeclareGlobal"]}
{"id": "C88", "title": "What becomes of a return with code behind it", "statement": "A return that is followed in the same line of control by another turn of control (a return, if, while, switch, goto or an expression with ?:, before any label, case or end of a branch, loop, switch or function) has the effect of evaluating its expression, and nothing else: the source without those returns yields the same module, and the functions of the module have exactly the results and make exactly the calls, and the process exactly the end, that the source without those returns prescribes. Sources without such returns are unchanged.", "quantifier": "every accepted source text, every machine, store and list of arguments, and external functions (for the results: sources that without these returns satisfy the standing conditions)", "why_tests_cant": "arbitrary code may stand behind a return", "anchors": ["parser_stmt.go:parseReturn", "parser_stmt.go:parseIf", "irbuilder.go:EndFunction"]}
{"id": "C89", "title": "How the compiler groups operators, exactly", "statement": "With the levels of the compiler (shifts and relational operators share one level and associate to the left; otherwise the documented levels) a token sequence has at most one tree; a text with careful spacing is accepted with the module m if and only if m is the code of that tree and no name of a function stands directly before == or an assignment operator; a o b o' c with o and o' shifts or relations is (a o b) o' c.", "quantifier": "every token sequence, every careful source text, every pair of such operators and operands", "why_tests_cant": "infinitely many nestings of operators", "anchors": ["expressions.go:parseExpressionWithLevel"]}
{"id": "C90", "title": "auto anywhere, as long as it comes first on every way", "statement": "Wherever the auto statements of a function stand, if on every way through its text (both ways of every condition, every case, loop and goto) a variable is declared before it is used, then on every path through the emitted code the address of a variable is computed before it is used, and every definition dominates its uses. The rule is also necessary: in a function where nothing follows a return in the same line of control, no label is defined twice and no switch repeats a case, the definitions dominate their uses exactly when every variable is declared first.", "quantifier": "every accepted program, every function whose variables are declared first, every path through its code", "why_tests_cant": "infinitely many programs and paths through loops and gotos", "anchors": ["parser_stmt.go:parseAuto", "parser_stmt.go:parseIf", "parser_stmt.go:parseWhile", "parser_stmt.go:parseSwitch", "parser_stmt.go:parseGoto", "irbuilder.go:DeclareLocal"]}
{"id": "C91", "title": "What a called parameter or auto variable denotes", "statement": "A call by name looks at functions and extrn variables only. A function in which a parameter or auto variable is called by its name behaves exactly as the program in which that variable has been given a name of its own: the callee is the function of the old name, of the program or external, while the value and the address of the variable remain those of the variable. Results, calls, stores and the end of the process are those that this program prescribes, and compiling it gives the same module up to the names of parameters.", "quantifier": "every accepted program in which no label is defined twice, no switch repeats a case, no auto vector has the size 2^64-1 and no name is both a global variable and a function (any names may be called), every function, argument list, store and machine", "why_tests_cant": "ranges over all programs, all machines and all runs", "anchors": ["expressions.go:parsePrimary", "expressions.go:parsePostfix", "irbuilder.go:GetAddress", "irbuilder.go:DeclareLocal"]}
{"id": "C92", "title": "What a link leaves behind, file by file", "statement": "A link that meets an input it cannot use (a source that is missing or does not compile, or a file of the wrong kind) fails without running clang, and afterwards every file is as before except the temporaries of the sources before the first such input: these are gone, or still there with the IR if --save-temps was given or the input is not a source. A link of usable inputs runs clang once, when the temporaries of all sources hold their IR and every other file is as before; afterwards every file is as clang left it, except that without --save-temps the temporaries are gone. In particular an output requested under the name of a temporary is lost, and no other output is.", "quantifier": "every input list, option set with an output name, file-system content and clang, when reading, creating, writing, closing and removing files do not fail", "why_tests_cant": "ranges over all input lists, file contents and behaviours of clang", "anchors": ["driver.go:compileToExecutable", "driver.go:Compile", "driver.go:compileToIR"]}
{"id": "C93", "title": "Only behind else can a comment be overlooked", "statement": "The only place where the compiler overlooks the beginning of a comment is directly behind an else, where it loses one character. For every accepted text one can replace some characters that stand directly behind an else, and that are neither letters nor digits, by blanks so that the text does not end inside a comment and still reads as the program whose code was emitted.", "quantifier": "every ASCII text that is accepted", "why_tests_cant": "infinitely many texts", "anchors": ["parser_stmt.go:parseIf", "lexer.go:Whitespace", "lexer.go:Comment"]}
{"id": "C94", "title": "The amount of layout behind a blank does not matter", "statement": "Wherever a text has a blank outside comments, strings and character constants, further layout (blanks, line ends, comments) can be inserted behind this blank or removed there: the compiler gives the same outcome, the same emitted module or the same error. The only exception is a text in which, before this place, an else is directly followed by one of the characters \" ' / + - < > = !, because the compiler loses that character. At the beginning of the text layout can be inserted or removed without any condition.", "quantifier": "every text, accepted or not and however it ends, every such place in it and every layout", "why_tests_cant": "infinitely many texts, places and layouts", "anchors": ["lexer.go:Whitespace", "lexer.go:Comment", "lexer.go:Identifier", "expressions.go:parseExpression", "parser_stmt.go:parseStatement", "parser_decls.go:ParseDeclarations"]}
{"id": "C95", "title": "What a compilation leaves behind, file by file", "statement": "In the IR, assembly and object modes: a source that is missing or does not compile gives an error and every file is as before. With --emit-llvm the output of a source holds its IR, every other file is as before, and clang is not run. With -S and -c on a source clang is run exactly once, with the optimisation and debug flags, -S or -c, -o output and <output>.tmp.ll, at a moment when this temporary holds the IR and every other file is as before; the outcome is that of clang, and afterwards every file is as clang left it, except that without --save-temps the temporary is gone. On an input that is not a source clang is run exactly once on this input, and every file is as clang left it.", "quantifier": "every single input and option set, with the requested or the documented output name, every file-system content and clang, when reading, creating, writing, closing and removing files do not fail", "why_tests_cant": "ranges over all file contents, names and behaviours of clang", "anchors": ["driver.go:compileToIR", "driver.go:compileToAssembly", "driver.go:compileToObject"]}
{"id": "C96", "title": "Blanks are interchangeable", "statement": "Wherever a text has a blank outside comments, strings and character constants, this blank can be replaced by any other blank (space, tab, line end, carriage return, vertical tab, form feed), and the layout that begins with it by any other layout that begins with a blank: either both texts are accepted and give the same emitted module, or both are rejected (an error message may quote the blank). The exception is the one of C94: an else directly followed by one of \" ' / + - < > = ! before this place. At the beginning of the text any layout can be replaced by any other, or by none.", "quantifier": "every text, accepted or not and however it ends, every such place in it, every two blanks and every two layouts", "why_tests_cant": "infinitely many texts, places and layouts", "anchors": ["lexer.go:Whitespace", "lexer.go:Comment", "lexer.go:Identifier", "lexer.go:Number", "expressions.go:parseExpression", "parser_stmt.go:parseStatement", "parser_decls.go:ParseDeclarations"]}
{"id": "C97", "title": "Redundant punctuation leaves no trace", "statement": "Two accepted programs that differ only in redundant punctuation - parentheses around expressions (not around what is assigned, incremented or has its address taken), braces around statements, empty statements, an else with an empty statement behind it, return(0); for return;, an empty statement behind a label or a case, one extrn or auto statement for several - have the same emitted module, to the letter. If one of two such texts is accepted and the other is laid out as the compiler tolerates, with no name of a function directly before == or an assignment operator, then the other is accepted, too.", "quantifier": "all pairs of texts whose programs differ only in redundant punctuation, to any depth and in any number of places", "why_tests_cant": "There are infinitely many programs and places; that no parenthesis, brace or semicolon changes the code anywhere is a statement about the code generator on all trees.", "anchors": ["expressions.go: parsePrimary, parsePostfix, parseUnary, parseExpressionWithLevel", "parser_stmt.go: parseStatement, parseIf, parseReturn, parseCase, parseExtrn", "irbuilder.go"]}
{"id": "C98", "title": "What is written behind a program does not change what is emitted for it", "statement": "If a program and the same program with more declarations behind it are both accepted, then the module of the longer one contains every function (parameters and code) and every global variable and string (with its initial value) of the module of the shorter one, apart from those that the added declarations define anew, and no second function with the same symbol. The front part of an accepted text is accepted on its own. Two accepted texts written one behind the other are accepted together if no extrn of the second names something that the first defines or uses as a function (without that condition they need not be). If the added declarations define no function anew, then everything that a function of the shorter program does in some store - result, final store, calls on the way - it does in the longer program, too, and the process comes to the same end.", "quantifier": "all programs, all lists of declarations behind them, and all texts laid out as the compiler tolerates; all machines, stores, arguments and external functions", "why_tests_cant": "There are infinitely many programs and continuations; that code once emitted is never touched again is an invariant of the builder over all its histories.", "anchors": ["parser_decls.go: ParseDeclarations", "irbuilder.go: removeFuncByName, removeGlobalByName, ClearTopLevelContext"]}
{"id": "C99", "title": "What a program prints can be computed without knowing the machine", "statement": "There is an interpreter for B programs that knows nothing of addresses: memory consists of numbered blocks of words, and a value is a number, a pointer to a word of a block, a string literal, a function or something unknown; it refuses whatever would depend on the placement of things in memory or has no meaning (unknown values used, accesses outside of blocks, pointers to variables of functions that have returned). Whenever it computes that an accepted program prints certain bytes and that main returns 0, then the process that runs what the compiler emits for the program, linked with the library, writes exactly these bytes to its standard output, nothing to other files, reads nothing, and ends with status 0, in no other way.", "quantifier": "every accepted program of which the interpreter computes the output (whatever bounds on blocks, steps and depth of calls it is given), every machine that has room for the blocks reserved (placement of code, data and stack, stack discipline), every C compiler choice for the library, every behaviour of the system", "why_tests_cant": "a test runs one program on one machine, and its output could depend on the layout of memory; the claim is for all programs and all layouts", "anchors": ["irbuilder.go", "expressions.go", "parser_stmt.go", "parser_decls.go", "runtime/printf.c", "examples/showcase.b"]}
{"id": "C100", "title": "The test programs of the repository write what their tests expect, everywhere", "statement": "Each of 80 end-to-end tests of the repository is accepted by the compiler, and on every machine on which the emitted module is linked with the library and which has room for at most 40 variables or vectors of at most 40 words, the process writes exactly the bytes that the test expects to its standard output, nothing to other files, and ends with status 0, in no other way.", "quantifier": "80 test programs of lang_prog_test.go and lang_expr_test.go; for each of them every machine (placement of code, data and stack, stack discipline), every contents of memory not initialised, every C compiler choice for the library, every behaviour of the system", "why_tests_cant": "a test runs one executable on one machine, with one memory layout and one C compiler; that the output does not depend on them is a claim about all machines", "anchors": ["lang_prog_test.go", "lang_expr_test.go", "irbuilder.go", "expressions.go", "parser_stmt.go", "runtime/printf.c"]}
