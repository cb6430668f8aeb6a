def m(file,d,old,new,edit,claim,**k): return dict(file=file,**{'def':d},old=old,new=new,edit=edit,claim=claim,**k)
L='Model/Lexer.lean';B='Model/Builder.lean';E='Model/Expr.lean';S='Model/Stmt.lean';D='Model/Decl.lean';R='Model/Runtime.lean';V='Model/Driver.lean'
M=[
m(R,'printdBody','if st.1 / 10 ≠ 0','if st.1 / 10 ≠ 0 ∧ st.2.2 ≠ 7','stop after 19 digits','C46: printd prints every number exactly'),
m(R,'rtPrinto','(List.range 22).map junk, 22)','(List.range 21).map junk, 21)','octal buffer one byte too small','C47: printo never overruns its buffer'),
m(R,'writeLoop','if byte ≠ 0 ∨ acc ≠ [] ∨ k = 0','if byte ≠ 0 ∨ k = 0','inner zero bytes dropped','C48: write emits the characters of the word'),
m(R,'printfConv','pure (i - 1, k)','pure (i, k)','unknown conversion swallows its character','C49: printf copies unknown conversions'),
m(R,'rtLchar','chr.setWidth 8 else','chr.setWidth 8 else if a = string + i + 1 then 0 else','lchar clears the next byte','C50: lchar changes one byte'),
m(R,'rtRead','| [] => .ok 4 s','| [] => .ok 0 s','end of file reported as 0','C51: read returns 4 at end of file'),
m(R,'rtNread0','input := s.input.drop count.toNat','input := s.input','nread does not consume','C51'),
m(V,'dispatch','| [i] => process i args.outputFile\n    | _ => fail','| i :: _ => process i args.outputFile\n    | _ => fail','-o with several inputs compiles the first','C39'),
m(V,'exeTemp','".tmp.".toList ++ natDec i ++ ".ll".toList','".tmp".toList ++ ".ll".toList','input number dropped from temporaries','C40: temporaries never collide'),
m(V,'linkArgs','["-lb".toList] ++\n  args.libraries.map','args.libraries.map (fun _ => []) ++ ["-lb".toList] ++ args.libraries.map','x','C41'),
m(V,'exeCompile','| (.error, w\') => (cleanup env args temps >>= fun _ => fail) w\'','| (.error, w\') => (.error, w\')','earlier temporaries kept when an input fails','C36'),
m(V,'cleanup','if args.saveTemps then pure ()','if !args.saveTemps then pure ()','--save-temps inverted','C36, C37'),
m(V,'clangOne','  cleanup env args temps\n  if ok then pure () else fail','  if ok then cleanup env args temps else fail','temporary left when clang fails','C36'),
m(V,'compileSingleTo','| .error _ => fail\n  | .ok m => do\n    create env outputPath','| .error _ => do\n    create env outputPath\n    fail\n  | .ok m => do\n    create env outputPath','output created before the front end succeeds','C35'),
m(V,'compileToAssembly','∧ ext i ≠ ".ll".toList) then fail','∧ ext i ≠ ".ll".toList ∧ ext i ≠ ".s".toList) then fail','-S accepts .s','C42'),
m(V,'forEach','    process i (defaultOut i e)\n    forEach process e is','    forEach process e is\n    process i (defaultOut i e)','inputs processed last first','C43'),
m(V,'outputTypeOf','if f.assemblyOnly then .assembly\n  else if f.compileOnly then .object','if f.compileOnly then .object\n  else if f.assemblyOnly then .assembly','-c wins over -S','C44'),
m(V,'optLevelOf',"∨ o = ['3'] then","∨ o = ['3'] ∨ o = ['4'] then",'-O4 accepted','C44'),
m(V,'optionsOf','defaultDirs sys ++ f.libraryDirs','f.libraryDirs ++ defaultDirs sys','user directories first','C45'),
m(V,'defaultDirs','addIfDir sys "/opt/homebrew/lib".toList ++ addIfDir sys "/opt/local/lib".toList','addIfDir sys "/opt/local/lib".toList ++ addIfDir sys "/opt/homebrew/lib".toList','default directories swapped','C45'),
m(V,'defaultOut','trimSuffix (base inp) (ext (base inp)) ++ e','trimSuffix inp (ext inp) ++ e','output beside the input instead of the current directory','C38'),
m(V,'main','|| (sys.stat p).isNone','','missing files not checked','C44'),
m(L,'numberLoop',"if c = '0' then 8 else 10","if c = '0' then 10 else 10",'octal read as decimal','C04'),
m(L,'digitVal',"c.toNat - '0'.toNat","c.toNat - '1'.toNat",'digit values off by one','C04'),
m(L,'escape',"else if c = 'n' then pure '\\n'","else if c = 'n' then pure '\\r'",'*n is carriage return','C06'),
m(L,'characterLoop','(value <<< 8) |||','(value <<< 4) |||','characters packed 4 bits apart','C05'),
m(L,'characterLoop',"if c ≠ '\\'' then M.throw (.msg \"unclosed char literal\") else pure value","pure value",'ninth character swallowed','C05'),
m(L,'commentBody',"          unreadChar c2\n          pure (.next ())","          pure (.next ())",'**/ does not close a comment','C02'),
m(L,'commentBody',"| .eof => M.throw (.msg \"unclosed comment, expect '*/' to close the comment\")","| .eof => pure (.done ())",'unclosed comment accepted','C02'),
m(L,'whitespaceBody',"          unreadChar c2\n          unreadChar c\n          pure (.done ())","          unreadChar c\n          unreadChar c2\n          pure (.done ())",'pushback in wrong order','C01, C07'),
m(L,'identifierBody',"!isDigit c && c ≠ '_'","!isDigit c",'underscore ends a name','C01'),
m(L,'stringBody',"| .eof => M.throw (.msg \"unterminated string literal\")","| .eof => pure (.done result)",'unterminated string accepted','C03'),
]
M[9]['old']='["-lb".toList] ++\n  args.libraries.map ([\'-\', \'l\'] ++ ·)';M[9]['new']='args.libraries.map ([\'-\', \'l\'] ++ ·) ++ ["-lb".toList]';M[9]['edit']='-lb after the user libraries'
