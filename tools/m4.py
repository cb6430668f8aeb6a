def m(file,d,old,new,edit,claim,**k): return dict(file=file,**{'def':d},old=old,new=new,edit=edit,claim=claim,**k)
L='Model/Lexer.lean';B='Model/Builder.lean';E='Model/Expr.lean';S='Model/Stmt.lean';D='Model/Decl.lean';G='Proofs/Gen.lean';R='Model/Runtime.lean';V='Model/Driver.lean'
M=[
m(B,'firstParam','  let _ ← emit (.store .param alloca)\n','','the first parameter is not stored','C30'),
m(B,'startFunction','    vaParams vaListPtr ps\n    let vaEnd','    vaParams vaListPtr ps.reverse\n    let vaEnd','remaining parameters in reverse','C30'),
m(B,'createStringConstant','stringBytes s), true⟩','stringBytes s), false⟩','string constants are not private to their file','C63, C64'),
m(B,'createStringConstant','stringID := c.stringID + 1','stringID := c.stringID','all string constants of a file have one name','C27, C33, C64'),
m(B,'strSym','".str.".toList ++ natDec n','"b.str.".toList ++ natDec n','string constants collide with user names','C27, C64'),
m(B,'dataSuffix','".data".toList','"_data".toList','the data symbol of a vector collides with user names','C27, C64'),
m(B,'endFunction','if f.sym = c.curSym then','if f.sym = c.curSym ∨ f.blocks = [] then','extern declarations get a body too','C59, C64, C12'),
m(S,'parseExtrn via declareFunction',  'x','x','',''),
m(D,'parseGlobal','    | [v] => bd (declareGlobal name (some v))','    | [_] => bd (declareGlobal name none)','initial value dropped','C28'),
m(D,'parseFunction','  let fn ← bd (declareFunction name params)','  bd (M.modify fun c => removeGlobalByName c name)\n  let fn ← bd (declareFunction name params)','a function removes a global of the same name','C24, C26'),
m(B,'declareGlobalArray','let arraySize := (size + 1).toNat','let arraySize := size.toNat','initialised vector has no room for its pointer','C29, C60'),
m(B,'declareGlobalArray','(.arr arraySize) 1 :: words','(.arr arraySize) 0 :: words','vector pointer points to itself','C29'),
m(B,'declareLocalArray','gepField arrayType alloca 1','gepField arrayType alloca 0','local vector pointer points to itself','C30'),
m(B,'declareLocalArray','let size := if size = 0 then 1 else size\n  let arrayType : Ty := .arr (size + 1).toNat','let arrayType : Ty := .arr (size + 1).toNat','auto v[0] has no element','C30'),
m(B,'declareLocal','  let _ ← emit (.store (.const 0) alloca)\n','','auto variables are not cleared','C30, C56'),
]
M=[x for x in M if x['edit']]
