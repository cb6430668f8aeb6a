def m(file,d,old,new,edit,claim,**k): return dict(file=file,**{'def':d},old=old,new=new,edit=edit,claim=claim,**k)
L='Model/Lexer.lean';B='Model/Builder.lean';E='Model/Expr.lean';S='Model/Stmt.lean';D='Model/Decl.lean';G='Proofs/Gen.lean'
M=[
m(E,'genNot','cmpOp .eq x (.const 0)','cmpOp .ne x (.const 0)','! returns the truth value instead of its negation','C14'),
m(E,'genNot','cmpOp .eq x (.const 0)','emit (.bin .xor x (.const 1))','! flips the lowest bit','C14'),
m(E,'genNeg','.bin .sub (.const 0) x','.bin .sub x (.const 0)','operands of negation swapped','C11'),
m(E,'genPostfix','  let _ ← emit (.store result v)\n  pure current','  let _ ← emit (.store result v)\n  pure result','x++ yields the new value','C11'),
m(E,'genPrefix','let _ ← emit (.store result v)\n\n','let _ ← emit (.store current v)\n\n','++x stores the old value','C11'),
m(E,'genAssign','genOp o currentVal right','genOp o right currentVal','operands of =- swapped','C12'),
m(E,'genAssign','    let _ ← emit (.store newVal left)\n    pure newVal','    let _ ← emit (.store newVal left)\n    pure right','compound assignment yields the right operand','C12'),
m(E,'cmpOp','  let cmp ← emit (.icmp p x y)','  let cmp ← emit (.icmp p y x)','comparison operands swapped','C11, C14'),
m(E,'genCall','emit (.call casted args)','emit (.call casted args.reverse)','arguments passed in reverse','C30, C11'),
m(E,'genCall','    let fnPtr ← emit (.inttofn fn (if 1 ≤ args.length then 1 else 0))\n    emit (.call fnPtr args)','    let fnPtr ← emit (.inttofn fn (if 1 ≤ args.length then 1 else 0))\n    emit (.call fnPtr (args.take 1))','only the first argument of a computed call is passed','C34, C30'),
m(B,'vaParams','    vaParams vaListPtr ps\n','    let _ ← emit (.vaarg vaListPtr)\n    vaParams vaListPtr ps\n','every second variadic argument skipped','C30'),
m(B,'declareLocal','emit (.store (.const 0) alloca)','emit (.store (.const 1) alloca)','auto variables start at 1','C33'),
m(B,'declareLocalArray','let firstElemPtr ← emit (.gepField arrayType alloca 1)','let firstElemPtr ← emit (.gepField arrayType alloca 0)','the vector word points at itself','C33'),
m(B,'declareLocalArray','let arrayType : Ty := .arr (size + 1).toNat','let arrayType : Ty := .arr size.toNat','vector storage one word short','C33'),
m(B,'declareGlobalArray','(1 : Int) < size.toInt then','(2 : Int) < size.toInt then','boundary of the two layouts of vectors moved (harmless: both layouts are right)','none: equivalent mutant for C29 unless sizes are counted'),
m(B,'declareGlobalArray','.zero size.toNat, false','.zero (size - 1).toNat, false','data of an uninitialised vector one word short','C29'),
m(B,'declareGlobalArray','init.getD i (.int 0)','init.getD (i+1) (.int 0)','vector initialisers shifted by one','C29'),
m(B,'declareGlobal','init.getD (.int 0)','init.getD (.int 1)','uninitialised globals hold 1','C28'),
m(B,'createStringConstant','stringID := c.stringID + 1','stringID := c.stringID','string numbering not advanced','C27, C25'),
m(B,'stringBytes',' ++ [0]','','strings not terminated','C06, C53'),
m(B,'globalName','if name = "main".toList then name else globalPrefix ++ name','name','no prefix','C26'),
m(B,'removeFuncByName','c.funcs.eraseP (fun f => f.sym = globalName name)','c.funcs','a redefinition does not replace','C24'),
m(B,'clearTopLevelContext','ctx := [], functions := []','functions := []','extrn names leak into later functions','C23'),
m(B,'startFunction','locals := [], labels := [],','labels := [],','locals leak into later functions','C23 (C22)'),
m(B,'endFunction','  closeLast\n','','missing final return','C20, C16'),
m(B,'getAddress','  match lookup name c.locals with\n  | some v => pure (some v)\n  | none =>\n    match lookup name c.ctx with','  match lookup name c.ctx with\n  | some v => pure (some v)\n  | none =>\n    match lookup name c.locals with','extrn shadows auto','C23'),
m(S,'brIfOpen','if curTerm c = none then setTerm (.br b) else pure ()','setTerm (.br b)','return inside if overwritten by the branch','C16, C15'),
m(S,'switchTerm','setTerm (.switch v endBlock cases)','setTerm (.switch v endBlock cases.tail)','first case never selected','C17'),
m(S,'declareExtrn','| some g => .ok () { c with ctx := insert name g.val c.ctx }','| some _ => .ok () c','extrn of a defined global ignored','C23'),
m(S,'autoBody','if decls.any (fun d => d.1 = name) then','if false then','auto x, x accepted','C22'),
m(S,'parseCase','| none => fail "unexpected \'case\' outside of \'switch\' statements"','| none => pure cases','case outside switch ignored','C21'),
m(S,'parseIf','bd (setTerm (.condbr cmp thenBlock elseBlock))','bd (setTerm (.condbr cmp elseBlock thenBlock))','branches of if swapped (also in the tree generator)','C15',also=[(G,'let cmp ← emit (.icmp .ne cond (.const 0))\n  setTerm (.condbr cmp thenBlock elseBlock)\n  pure (thenBlock, elseBlock, endBlock)\n\n/-- the blocks of `while`','let cmp ← emit (.icmp .ne cond (.const 0))\n  setTerm (.condbr cmp elseBlock thenBlock)\n  pure (thenBlock, elseBlock, endBlock)\n\n/-- the blocks of `while`')]),
m(S,'parseWhile','  stmt\n  bd (brIfOpen condBlock)','  stmt\n  bd (brIfOpen endBlock)','while runs its body once (also in the tree generator)','C15',also=[(G,'    brIfOpen condBlock\n','    brIfOpen endBlock\n')]),
m(S,'parseReturn','else bd (setTerm (.ret (.const 0)))','else bd (setTerm (.ret (.const 1)))','return; returns 1 (also in the tree generator)','C16',also=[(G,'setTerm (.ret (.const 0))','setTerm (.ret (.const 1))')]),
m(E,'ternary','emit (.phi thenVal thenEnd elseVal elseEnd)','emit (.phi thenVal thenBlock elseVal elseBlock)','phi names the first blocks of the branches instead of the last (also in the tree generator)','C11',also=[(G,'emit (.phi thenVal thenEnd elseVal elseEnd)','emit (.phi thenVal thenBlock elseVal elseBlock)')]),
m(E,'exprBody','if 8 ≤ level ∧ ch = \'&\' then binary rec left 7','if 8 ≤ level ∧ ch = \'&\' then binary rec left 8','& becomes right associative','C10'),
m(E,'exprBody','if 3 ≤ level ∧ ch = \'*\' then binary rec left 2','if 4 ≤ level ∧ ch = \'*\' then binary rec left 3','* and + on one level','C10'),
m(E,'handleLt','else if c2 = \'=\' then binary rec (x, false) 5 (.cmp .sle)','else if c2 = \'=\' then binary rec (x, false) 5 (.cmp .slt)','<= compiled as <','C10, C11'),
m(S,'afterElse','pure (!(isLetter ch || isDigit ch), r.2 ++ [ch])','pure (!(isLetter ch), r.2 ++ [ch])','else1 taken as else','C32'),
m(S,'parseGoto','bd (setInsertPoint dead)\n  lx whitespace\n','bd (setInsertPoint dead)\n','no layout allowed before the ; of goto','C31'),
m(D,'paramBody','  else if ch = \',\' then pure (.next params)','  else if ch = \',\' then pure (.next params.dropLast)','only the last parameter kept','C30'),
m(B,'startParams','table.find? (fun p => p.2 = fn)','table.find? (fun _ => true)','any function of the table','C52, C30'),
]
