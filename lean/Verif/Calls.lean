import Verif.Ast
/-!
# Questions about calls (`/repo/ast/ast_struct.go:231-248`)
-/
namespace Verif

/-- `CallChainStatement.IsMethod` (`/repo/ast/ast_struct.go:231-235`); none: the statement is no chain and has no such method. -/
def isMethod : Stm → Option Bool
  | .chain (.method _ _ _) _ _ _ => some true
  | .chain _ _ _ _ => some false
  | _ => none

/-- `MethodStatement.Params` and `NewObjectStatement.Params` (`/repo/ast/ast_struct.go:242-248`); none: the statement has no such
method. -/
def params : Stm → Option (List Stm)
  | .method _ ps _ => some ps
  | .new _ ps => some ps
  | _ => none

end Verif
