def m(file,d,old,new,edit,claim,**k): return dict(file=file,**{'def':d},old=old,new=new,edit=edit,claim=claim,**k)
L='Model/Lexer.lean';B='Model/Builder.lean';E='Model/Expr.lean';S='Model/Stmt.lean';D='Model/Decl.lean';G='Proofs/Gen.lean';R='Model/Runtime.lean';V='Model/Driver.lean'
M=[
m(E,'ternary','bd (setTerm (.condbr cmp thenBlock elseBlock))\n  bd (setInsertPoint thenBlock)','bd (setTerm (.condbr cmp elseBlock thenBlock))\n  bd (setInsertPoint thenBlock)','branches of ?: swapped','C11, C15',also=[(G,'setTerm (.condbr cmp thenBlock elseBlock)\n  pure (thenBlock, elseBlock, endBlock)\n\nmutual','setTerm (.condbr cmp elseBlock thenBlock)\n  pure (thenBlock, elseBlock, endBlock)\n\nmutual')]),
m(E,'ternary','emit (.phi thenVal thenEnd elseVal elseEnd)','emit (.phi thenVal thenBlock elseVal elseBlock)','phi names the first blocks of the branches instead of the last (nested ?:)','C58, C11',also=[(G,'emit (.phi thenVal thenEnd elseVal elseEnd)','emit (.phi thenVal thenBlock elseVal elseBlock)')]),
m(E,'ternary','emit (.phi thenVal thenEnd elseVal elseEnd)','emit (.phi elseVal thenEnd thenVal elseEnd)','phi values swapped','C11',also=[(G,'emit (.phi thenVal thenEnd elseVal elseEnd)','emit (.phi elseVal thenEnd thenVal elseEnd)')]),
m(S,'parseSwitch','  bd (setInsertPoint cmpBlock)\n  bd (switchTerm','  bd (setInsertPoint stmtsBlock)\n  bd (switchTerm','the switch terminator goes into the statement block','C17, C58, C20',also=[(G,'    setInsertPoint cmpBlock\n    switchTerm','    setInsertPoint (cmpBlock-1)\n    switchTerm')]),
m(B,'emit','      nextReg := c.nextReg + 1 }','      nextReg := c.nextReg }','instruction results are not numbered','C57'),
m(B,'getOrCreateLabel','labels := insert name c.blocks.length c.labels','labels := insert name 0 c.labels','a label maps to the entry block','C18, C58'),
m(B,'getOrCreateLabel','  | some b => .ok b c\n','  | some _ => .ok c.blocks.length { c with blocks := c.blocks ++ [⟨name, [], none⟩] }\n','a label gets a new block at each mention','C18, C19'),
m(B,'getOrDeclareFunction','      let c := newFunc c fn\n      .ok (some fn.val)','      .ok (some fn.val)','an external function is not added to the module','C59'),
m(B,'getOrDeclareFunction','⟨globalName name, [], true, []⟩','⟨globalName name, [[]], true, []⟩','external functions are declared with a fixed parameter','C60'),
m(B,'declareFunction','| p :: _ => ⟨globalName name, [p], true, []⟩','| ps => ⟨globalName name, ps, false, []⟩','functions are declared with all parameters, not variadic','C60, C30'),
m(E,'genCall','if variadic ∧ nparams = 0 ∧ 1 ≤ args.length then','if variadic ∧ nparams = 0 ∧ 2 ≤ args.length then','cast only with two arguments','C60'),
m(E,'genCall','.inttofn fn (if 1 ≤ args.length then 1 else 0)','.inttofn fn 1','function pointers are called with a fixed parameter also without arguments','C60'),
m(S,'parseWhile','bd (setTerm (.condbr cmp bodyBlock endBlock))','bd (setTerm (.condbr cmp endBlock bodyBlock))','while test inverted','C15, C62',also=[(G,'setTerm (.condbr cmp bodyBlock endBlock)','setTerm (.condbr cmp endBlock bodyBlock)')]),
m(S,'parseWhile','  stmt\n  bd (brIfOpen condBlock)','  stmt\n  bd (brIfOpen endBlock)','loop body executed once','C15, C62',also=[(G,'    brIfOpen condBlock','    brIfOpen endBlock')]),
m(S,'parseWhile','  let cond ← parseExpression n\n  lx whitespace\n  lx (expectChar \')\' "expect \')\' after condition")\n  let cmp ← bd (emit (.icmp .ne cond (.const 0)))\n  bd (setTerm (.condbr cmp bodyBlock endBlock))','  let cond ← parseExpression n\n  lx whitespace\n  lx (expectChar \')\' "expect \')\' after condition")\n  let cmp ← bd (emit (.icmp .eq cond (.const 1)))\n  bd (setTerm (.condbr cmp bodyBlock endBlock))','while tests for 1 instead of nonzero','C15',also=[(G,'    let cmp ← emit (.icmp .ne cond (.const 0))\n    setTerm (.condbr cmp bodyBlock endBlock)','    let cmp ← emit (.icmp .eq cond (.const 1))\n    setTerm (.condbr cmp bodyBlock endBlock)')]),
m(S,'parseGoto','  bd (setTerm (.br target))\n','  bd (brIfOpen target)\n','goto leaves an existing terminator','none: equivalent as long as blocks are open (C16 exotic)',also=[(G,'  setTerm (.br target)\n','  brIfOpen target\n')]),
m(S,'parseGoto','  bd (setInsertPoint dead)\n','','code after goto overwrites the jump','C18, C20',also=[(G,'  let _ ← freshLabelID\n  setInsertPoint dead','  let _ ← freshLabelID')]),
m(B,'getAddress','  match lookup name c.locals with\n  | some v => pure (some v)\n  | none =>\n    match lookup name c.ctx with','  match (lookup name c.ctx).bind fun _ => none (α := Val) with\n  | some v => pure (some v)\n  | none =>\n    match (lookup name c.ctx).or (lookup name c.locals) with','externs shadow locals','C23'),
m(B,'vaParams','let r ← emit (.vaarg vaListPtr)\n    let _ ← emit (.store r paramAlloca)','let _ ← emit (.vaarg vaListPtr)\n    let _ ← emit (.store .param paramAlloca)','all parameters receive the first argument','C30'),
m(B,'firstParam','let _ ← emit (.store .param alloca)\n','','the first parameter is not stored','C30'),
m(B,'startFunction','    vaParams vaListPtr ps\n','    vaParams vaListPtr ps.reverse\n','remaining parameters in reverse','C30'),
m(B,'closeLast','setTerm (.ret (.const 0))','setTerm (.ret (.const 1))','falling off the end returns 1','C16'),
m(S,'parseIf','  stmt\n  bd (brIfOpen endBlock)\n  bd (setInsertPoint elseBlock)','  stmt\n  bd (brIfOpen elseBlock)\n  bd (setInsertPoint elseBlock)','the then branch falls into the else branch','C15, C32',also=[(G,'  | .ifElse c t e, _, cs => do\n    let cond ← genR c\n    let (thenBlock, elseBlock, endBlock) ← ifStart cond\n    setInsertPoint thenBlock\n    let _ ← genSt t none []\n    brIfOpen endBlock','  | .ifElse c t e, _, cs => do\n    let cond ← genR c\n    let (thenBlock, elseBlock, endBlock) ← ifStart cond\n    setInsertPoint thenBlock\n    let _ ← genSt t none []\n    brIfOpen elseBlock'),(G,'  | .ifThen c t, _, cs => do\n    let cond ← genR c\n    let (thenBlock, elseBlock, endBlock) ← ifStart cond\n    setInsertPoint thenBlock\n    let _ ← genSt t none []\n    brIfOpen endBlock','  | .ifThen c t, _, cs => do\n    let cond ← genR c\n    let (thenBlock, elseBlock, endBlock) ← ifStart cond\n    setInsertPoint thenBlock\n    let _ ← genSt t none []\n    brIfOpen elseBlock')]),
m(B,'caseName via natDec','def natDec (n : Nat) : List Char := natDecAux (n + 1) n','def natDec (n : Nat) : List Char := natDecAux 2 n','numbers above 99 lose digits','C19, C27'),
m(B,'intDec',"if w.toInt < 0 then '-' :: natDec w.toInt.natAbs else","if w.toInt < 0 then natDec w.toInt.natAbs else",'case labels of v and -v coincide','C17, C19'),
m(E,'argsBody','pure (.next (args ++ [arg]))','pure (.next (arg :: args))','arguments collected in reverse','C11, C34'),
m(E,'postfixBody','      let base ← bd (rval v)\n      let ptr ← bd (emit (.inttoptr base))\n      let index ← rec 15','      let index ← rec 15\n      let base ← bd (rval v)\n      let ptr ← bd (emit (.inttoptr base))','index evaluated before the base','C11'),
m(E,'handleAdd','      binary rec left 3 (if','      binary rec left 4 (if','a - b - c groups to the right','C10'),
m(D,'parseVector','let nwords := if nwords = 0 then BitVec.ofNat 64 vals.length else nwords','let nwords := if nwords = 0 then BitVec.ofNat 64 vals.length else nwords + 1','vector one word too long','C29',also=[(G,'declareGlobalArray x (if n = 0 then BitVec.ofNat 64 cs.length else n) cs','declareGlobalArray x (if n = 0 then BitVec.ofNat 64 cs.length else n + 1) cs')]),
m(D,'parseIvalConst','pure (.int (-val))','pure (.int val)','minus sign of initial values lost','C28, C29'),
m(D,'declBody','      bd clearTopLevelContext\n','','context kept between declarations','C23',also=[(G,'    clearTopLevelContext\n','')]),
m(R,'rtStart','','','',''),
]
M=[x for x in M if x['old']]
