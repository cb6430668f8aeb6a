import Verif.Model.Monad
import Verif.Model.Lexer
import Verif.Model.LexerBuf
import Verif.Model.IR
import Verif.Model.Builder
import Verif.Model.Expr
import Verif.Model.Stmt
import Verif.Model.Decl
import Verif.Props.Lexer
import Verif.Model.Runtime
import Verif.Props.Runtime
import Verif.Model.Driver
import Verif.Spec.Syntax
import Verif.Spec.Tokens
import Verif.Spec.Grammar
import Verif.Proofs.Gen
import Verif.Proofs.Tokens
import Verif.Proofs.SoundExpr
import Verif.Proofs.SoundStmt
import Verif.Proofs.SoundDecl
import Verif.Spec.Names
import Verif.Proofs.Names
import Verif.Proofs.SymNames
import Verif.Proofs.GenInv
import Verif.Proofs.ModInv
import Verif.Proofs.ProgInv
import Verif.Proofs.ProgMain
import Verif.Spec.Module
import Verif.Props.Module
import Verif.Spec.Comments
import Verif.Props.Globals
import Verif.Props.Comments
import Verif.Proofs.Fuel
import Verif.Props.Termination
import Verif.Spec.Driver
import Verif.Proofs.Driver
import Verif.Props.Driver
import Verif.Props.Outputs
import Verif.Props.Touched
import Verif.Spec.Scope
import Verif.Proofs.Scope
import Verif.Props.Scope
import Verif.Model.MapOrder
import Verif.Props.MapOrder
import Verif.Spec.Machine
import Verif.Spec.BSem
import Verif.Spec.IRSem
import Verif.Spec.Target
import Verif.Spec.Flow
import Verif.Proofs.Blocks
import Verif.Proofs.Ops
import Verif.Proofs.SimExpr
import Verif.Proofs.Static
import Verif.Proofs.Runs
import Verif.Proofs.StaticSt
import Verif.Proofs.SimBase
import Verif.Proofs.SimSt
import Verif.Proofs.SimMain
import Verif.Proofs.SimStep
import Verif.Proofs.SimFun
import Verif.Proofs.SimProg
import Verif.Proofs.Det
import Verif.Spec.Runs
import Verif.Proofs.Mem
import Verif.Props.Semantics
import Verif.Proofs.Terminated
import Verif.Proofs.Undefined
import Verif.Proofs.BlockNames
import Verif.Proofs.Origin
import Verif.Spec.Paths
import Verif.Proofs.Locals
import Verif.Props.Blocks
import Verif.Spec.Careful
import Verif.Proofs.CompLex
import Verif.Proofs.CompOps
import Verif.Proofs.CompExpr
import Verif.Proofs.CompStmt
import Verif.Proofs.CompDecl
import Verif.Proofs.ClearExpr
import Verif.Proofs.ClearStmt
import Verif.Proofs.Unique
import Verif.Proofs.UniqueSt
import Verif.Spec.Precedence
import Verif.Proofs.Precedence
import Verif.Proofs.Render
import Verif.Props.Parsing
import Verif.Spec.Linked
import Verif.Props.Hello
import Verif.Spec.Typing
import Verif.Spec.Symbols
import Verif.Proofs.Typing
import Verif.Proofs.Symbols
import Verif.Spec.Calls
import Verif.Spec.Ssa
import Verif.Proofs.Ssa
import Verif.Proofs.SsaSt
import Verif.Proofs.SsaEx
import Verif.Proofs.SsaStmt
import Verif.Proofs.SsaUniq
import Verif.Props.Valid
import Verif.Spec.Events
import Verif.Proofs.Enters
import Verif.Proofs.Events
import Verif.Props.Endless
import Verif.Proofs.RefParse
import Verif.Proofs.Decide
import Verif.Proofs.Interp
import Verif.Proofs.SameTree
import Verif.Props.Samples
import Verif.Props.SamplesEndless
import Verif.Spec.Files
import Verif.Proofs.Files
import Verif.Proofs.Join
import Verif.Proofs.Owns
import Verif.Props.Files
import Verif.Spec.Wrong
import Verif.Proofs.Less
import Verif.Proofs.Late
import Verif.Proofs.DetB
import Verif.Props.Exact
import Verif.Props.SamplesExact
import Verif.Props.Effective
import Verif.Props.SamplesEffective
import Verif.Props.Image
import Verif.Props.Once
import Verif.Props.Process
import Verif.Props.Copy
import Verif.Props.Alike
import Verif.Spec.Room
import Verif.Spec.Fib
import Verif.Props.Examples
import Verif.Props.Fibonacci
import Verif.Props.Fizzbuzz
import Verif.Props.SamplesExamples
import Verif.Proofs.Text
import Verif.Proofs.Spigot
import Verif.Props.Euler
import Verif.Props.EulerRun
import Verif.Props.EulerMain
import Verif.Props.EulerAll
import Verif.Spec.Euler
import Verif.Proofs.EulerReal
import Verif.Props.EulerDigits
import Verif.Props.SamplesEuler
import Verif.Spec.Touched
import Verif.Spec.Honest
import Verif.Props.Honest
import Verif.Spec.Size
import Verif.Proofs.Size
import Verif.Proofs.SizeText
import Verif.Props.Size
import Verif.Spec.Declared
import Verif.Proofs.Declared
import Verif.Proofs.DeclaredEx
import Verif.Proofs.DeclaredSt
import Verif.Proofs.Necessary
import Verif.Proofs.NecessarySt
import Verif.Props.Declared
import Verif.Spec.Apart
import Verif.Proofs.Apart
import Verif.Props.Apart
import Verif.Props.SamplesApart
import Verif.Spec.Leaves
import Verif.Props.Leaves
import Verif.Spec.Else
import Verif.Props.Else
import Verif.Props.Blanks
import Verif.Props.LeavesOne
import Verif.Spec.Plain
import Verif.Proofs.Plain
import Verif.Props.Plain
import Verif.Props.Appended
import Verif.Spec.Interp
import Verif.Props.Interp
import Verif.Props.Showcase
import Verif.Props.SamplesShowcase
import Verif.Props.TestProgramsAll
import Verif.Props.SamplesTests
