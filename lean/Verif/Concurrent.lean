import Verif.Parser
/-!
# Several goroutines, each calling `Parse` on its own AstNode

Model for `/repo/ast/ast.go:37-47` called concurrently.  Each `yyParserImpl` is allocated by `yyParse`
(`/repo/ast/y.go:548-550`, `yyNewParser` 430-432), so a goroutine owns its AstNode, its stack and its lookahead.  The package
variables (`/repo/ast/ast.go:27`, `/repo/ast/tokens.go:38-88`, the tables and `yyDebug`, `yyErrorVerbose` of `/repo/ast/y.go`) are
never assigned, they are constants of the model.

Simplification: the scheduler switches between rounds of the driver (`step`), not between single memory accesses; Go's memory model
is not modelled.  A panic in any goroutine ends the whole process, as in Go.
-/
namespace Verif

/-- One goroutine. -/
inductive Proc
  /-- has not yet called `Parse` on this AstNode -/
  | start (a : Ast)
  /-- inside the driver loop -/
  | loop (c : Cfg)
  /-- `Parse` has returned, the AstNode is this -/
  | done (a : Ast)

/-- What one goroutine does when it is scheduled: the test for a blank text and the start of `yyParse`
(`/repo/ast/ast.go:38-42`), or one round of the driver, or nothing if `Parse` has returned. -/
def Proc.move [Letters] : Proc → Except Panic Proc
  | .start a => if a.code.all isUnicodeSpace then .ok (.done a) else .ok (.loop (initCfg a))
  | .loop c => do
    match ← step c with
    | .done _ a => .ok (.done a)
    | .go c' => .ok (.loop c')
  | .done a => .ok (.done a)

/-- The process: its goroutines, or ended by a panic. -/
inductive Sys
  | running (procs : Nat → Proc)
  | crashed (p : Panic)

/-- Goroutine `i` is scheduled. -/
def Sys.sched [Letters] (i : Nat) : Sys → Sys
  | .crashed p => .crashed p
  | .running ps => match (ps i).move with
    | .error p => .crashed p
    | .ok q => .running fun j => if j = i then q else ps j

/-- A schedule: the goroutines in the order in which they get the processor. -/
def Sys.exec [Letters] : List Nat → Sys → Sys
  | [], s => s
  | i :: l, s => Sys.exec l (s.sched i)

end Verif
