import Verif.Ast
import Verif.AstEq
import Verif.ByteLexer
import Verif.ByteParser
import Verif.Calls
import Verif.Concurrent
import Verif.ErrorText
import Verif.ErrorWork
import Verif.Float64
import Verif.Json
import Verif.JsonText
import Verif.Lexer
import Verif.Memory
import Verif.Parser
import Verif.Print
import Verif.Proofs.Again
import Verif.Proofs.ByteLexer
import Verif.Proofs.ByteParser
import Verif.Proofs.Bytes
import Verif.Proofs.CLower
import Verif.Proofs.ErrorBound
import Verif.Proofs.ErrorText
import Verif.Proofs.ErrorWork
import Verif.Proofs.Faults
import Verif.Proofs.Float
import Verif.Proofs.Join
import Verif.Proofs.Json
import Verif.Proofs.JsonGrammar
import Verif.Proofs.JsonNum
import Verif.Proofs.JsonText
import Verif.Proofs.Kept
import Verif.Proofs.LR.Act
import Verif.Proofs.LR.Basic
import Verif.Proofs.LR.Chain
import Verif.Proofs.LR.Check
import Verif.Proofs.LR.Control
import Verif.Proofs.LR.Cpl
import Verif.Proofs.LR.CplDecl
import Verif.Proofs.LR.CplExpr
import Verif.Proofs.LR.CplStmt
import Verif.Proofs.LR.Data
import Verif.Proofs.LR.Derive
import Verif.Proofs.LR.Det
import Verif.Proofs.LR.Good
import Verif.Proofs.LR.Grammar
import Verif.Proofs.LR.Inv
import Verif.Proofs.LR.KitDecl
import Verif.Proofs.LR.KitDeclE
import Verif.Proofs.LR.KitExpr
import Verif.Proofs.LR.KitStmt
import Verif.Proofs.LR.KitStmtE
import Verif.Proofs.LR.Located
import Verif.Proofs.LR.Meaning
import Verif.Proofs.LR.Path
import Verif.Proofs.LR.PlanData
import Verif.Proofs.LR.Realise
import Verif.Proofs.LR.Rename
import Verif.Proofs.LR.Says
import Verif.Proofs.LR.Sem
import Verif.Proofs.LR.SemDecl
import Verif.Proofs.LR.SemExpr
import Verif.Proofs.LR.SemStmt
import Verif.Proofs.LR.Shape
import Verif.Proofs.LR.Sim
import Verif.Proofs.LR.Step
import Verif.Proofs.LR.Syn
import Verif.Proofs.LR.Tree
import Verif.Proofs.LR.Viable
import Verif.Proofs.LR.Whole
import Verif.Proofs.LexAppend
import Verif.Proofs.LexBasic
import Verif.Proofs.LexDate
import Verif.Proofs.LexLayout
import Verif.Proofs.LexNewline
import Verif.Proofs.LexNum
import Verif.Proofs.LexScan
import Verif.Proofs.LexStr
import Verif.Proofs.LexTok
import Verif.Proofs.LexWord
import Verif.Proofs.LineEnds
import Verif.Proofs.Lines
import Verif.Proofs.MemClean
import Verif.Proofs.MemShare
import Verif.Proofs.MemSim
import Verif.Proofs.MemUses
import Verif.Proofs.Memory
import Verif.Proofs.MemorySize
import Verif.Proofs.OnlyTokens
import Verif.Proofs.Print
import Verif.Proofs.PrintNum
import Verif.Proofs.Program
import Verif.Proofs.Recase
import Verif.Proofs.Rename
import Verif.Proofs.RenameProgram
import Verif.Proofs.RenameText
import Verif.Proofs.Reprint.Back
import Verif.Proofs.Reprint.Bare
import Verif.Proofs.Reprint.Exist
import Verif.Proofs.Reprint.Final
import Verif.Proofs.Reprint.Module
import Verif.Proofs.Reprint.Rel
import Verif.Proofs.Reprint.Sane
import Verif.Proofs.Reprint.Signs
import Verif.Proofs.Reprint.StmtBack
import Verif.Proofs.Reprint.StmtWrite
import Verif.Proofs.Reprint.Stmts
import Verif.Proofs.Reprint.TreeRules
import Verif.Proofs.Reprint.Turn
import Verif.Proofs.Reprint.Write
import Verif.Proofs.SharedMemory
import Verif.Proofs.Size
import Verif.Proofs.SizeBound
import Verif.Proofs.SizeGrow
import Verif.Proofs.Snippet
import Verif.Proofs.Text
import Verif.Proofs.TextInv
import Verif.Proofs.TextMap
import Verif.Proofs.Utf8
import Verif.Proofs.Walk
import Verif.Proofs.WalkSize
import Verif.Proofs.Work
import Verif.Proofs.WorkShown
import Verif.Props.Again
import Verif.Props.Alike
import Verif.Props.ByteLexer
import Verif.Props.ByteParser
import Verif.Props.Bytes
import Verif.Props.Calls
import Verif.Props.Concurrent
import Verif.Props.ErrorText
import Verif.Props.ErrorWork
import Verif.Props.Errors
import Verif.Props.Faults
import Verif.Props.Join
import Verif.Props.Json
import Verif.Props.JsonText
import Verif.Props.Kept
import Verif.Props.LineEnds
import Verif.Props.Lines
import Verif.Props.Literals
import Verif.Props.Made
import Verif.Props.Mark
import Verif.Props.Memory
import Verif.Props.MemorySize
import Verif.Props.Minify
import Verif.Props.Once
import Verif.Props.Parse
import Verif.Props.Print
import Verif.Props.Program
import Verif.Props.Recase
import Verif.Props.Rename
import Verif.Props.RenameText
import Verif.Props.Reprint
import Verif.Props.Same
import Verif.Props.Share
import Verif.Props.SharedMemory
import Verif.Props.Shown
import Verif.Props.Signs
import Verif.Props.Size
import Verif.Props.Snippet
import Verif.Props.StatementWalk
import Verif.Props.Text
import Verif.Props.ToLower
import Verif.Props.Tokens
import Verif.Props.Turn
import Verif.Props.Walk
import Verif.Props.WalkSize
import Verif.Props.Whole
import Verif.Props.Work
import Verif.SharedMemory
import Verif.Spec.Alike
import Verif.Spec.Bare
import Verif.Spec.Bytes
import Verif.Spec.Date
import Verif.Spec.Errors
import Verif.Spec.Faults
import Verif.Spec.Grammar
import Verif.Spec.Json
import Verif.Spec.JsonText
import Verif.Spec.Jumps
import Verif.Spec.Lex
import Verif.Spec.LineEnds
import Verif.Spec.Lines
import Verif.Spec.Made
import Verif.Spec.Memory
import Verif.Spec.Num
import Verif.Spec.Once
import Verif.Spec.Print
import Verif.Spec.Program
import Verif.Spec.Recase
import Verif.Spec.Rename
import Verif.Spec.RenameText
import Verif.Spec.Reprint
import Verif.Spec.Rules
import Verif.Spec.SharedMemory
import Verif.Spec.Shown
import Verif.Spec.Size
import Verif.Spec.Snippet
import Verif.Spec.Space
import Verif.Spec.Str
import Verif.Spec.Syntax
import Verif.Spec.Text
import Verif.Spec.Tokens
import Verif.Spec.Turn
import Verif.Spec.Walk
import Verif.Spec.Whole
import Verif.Spec.Words
import Verif.StdLetters
import Verif.Tables
import Verif.Time
import Verif.ToLower
import Verif.Utf8
import Verif.Walk
import Verif.Work
