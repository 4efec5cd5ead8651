import Verif.Ast
/-!
# Printing a syntax tree back to source text (`/repo/ast/ast_print.go`)

Text is a list of characters.
-/
namespace Verif

/-- `PrintConf` (`/repo/ast/ast_print.go:9-16`).  A negative `Margin` (which makes `strings.Repeat`
panic) is not modelled. -/
structure PrintConf where
  margin : Nat
  oneLine : Bool
deriving DecidableEq, Repr

/-- `OperationType.String` (`/repo/ast/ast_struct.go:250-281`). -/
def Op.text : Op → List Char
  | .plus => ['+'] | .minus => ['-'] | .mul => ['*'] | .div => ['/'] | .eq => ['=']
  | .gt => ['>'] | .lt => ['<'] | .ne => ['<', '>'] | .le => ['<', '='] | .ge => ['>', '=']
  | .mod => ['%'] | .or => "ИЛИ".toList | .and => ['И']

/-- `strings.Join`. -/
def join (sep : List Char) : List (List Char) → List Char
  | [] => []
  | [x] => x
  | x :: xs => x ++ sep ++ join sep xs

/-- Text if a flag is set. -/
def onFlag (b : Bool) (s : List Char) : List Char := if b then s else []

/-- Which of the three mutually recursive functions is meant: `printVarStatement`
(`/repo/ast/ast_print.go:151-186`), `printExpression` with its level (328-387) or
`printCallChainStatement` (389-400).  They call each other on the same node, so the model has them as
one function. -/
inductive PMode
  | var
  | expr (level : Nat)
  | chain

/-- Is it `printCallChainStatement`? -/
def PMode.isChain : PMode → Bool
  | .chain => true
  | _ => false

/-- `level` of `printExpression`; `printVarStatement` calls `printExpression(val, 0)` for
`*ExpStatement` and `ExprStatements` (line 182). -/
def PMode.level : PMode → Nat
  | .expr l => l
  | _ => 0

/-- Is it `printExpression`? -/
def PMode.isExpr : PMode → Bool
  | .expr _ => true
  | _ => false

mutual
/-- `printVarStatement`, `printExpression`, `printCallChainStatement`
(`/repo/ast/ast_print.go:151-186, 328-400`).  In `printCallChainStatement` everything but chains,
variables, items and methods gives the empty string. -/
def pr (m : PMode) : Stm → List Char
  | .num x => onFlag (!m.isChain) x.fmt0
  | .str s => onFlag (!m.isChain) ('"' :: s ++ ['"'])
  | .bool b => onFlag (!m.isChain) (if b then "Истина".toList else "Ложь".toList)
  | .date t => onFlag (!m.isChain) ('\'' :: t.format ++ ['\''])
  | .undef => onFlag (!m.isChain) "Неопределено".toList
  | .chain u c _ n =>
    onFlag (n && !m.isChain) "Не ".toList ++
      match c with
      | .nil => []
      | c => pr .chain c ++ ['.'] ++ pr .var u
  | .method f ps n => onFlag n "Не ".toList ++ f ++ ['('] ++ join [',', ' '] (prList ps) ++ [')']
  | .var s u n => onFlag (m.isExpr && n) "Не ".toList ++ onFlag (m.isExpr && u) ['-'] ++ s
  | .item i o => pr .var o ++ ['['] ++ pr (.expr 0) i ++ [']']
  | .ternary c t e => onFlag (!m.isChain)
      (['?', '('] ++ pr (.expr 0) c ++ [',', ' '] ++ pr (.expr 0) t ++ [',', ' '] ++ pr (.expr 0) e ++ [')'])
  | .new c ps => onFlag (!m.isChain)
      ("Новый ".toList ++ c ++ ['('] ++ join [',', ' '] (prList ps) ++ [')'])
  | .assign v l => onFlag (!m.isChain) (pr .var v ++ [' ', '=', ' '] ++ prCat 0 l)
  | .exprs l n => onFlag (!m.isChain)
      (onFlag n "Не (".toList ++ prCat (if m.level = 0 then 0 else m.level + 1) l ++ onFlag n [')'])
  | .bin op l r u n => onFlag (!m.isChain)
      (onFlag (0 < m.level) ['('] ++ onFlag n "Не ".toList ++ onFlag u ['-'] ++ onFlag (u || n) ['('] ++
        pr (.expr (m.level + 1)) l ++ [' '] ++ op.text ++ [' '] ++ pr (.expr (m.level + 1)) r ++
        onFlag (u || n) [')'] ++ onFlag (0 < m.level) [')'])
  | _ => []
/-- The texts of parameters (`printParams`, `/repo/ast/ast_print.go:188-195`). -/
def prList : List Stm → List (List Char)
  | [] => []
  | s :: l => pr .var s :: prList l
/-- The loop of `printExpression` over an `ExprStatements` (`/repo/ast/ast_print.go:338-340`). -/
def prCat (level : Nat) : List Stm → List Char
  | [] => []
  | s :: l => pr (.expr level) s ++ prCat level l
end

/-- `newLine` (`/repo/ast/ast_print.go:449-455`). -/
def PrintConf.nl (cf : PrintConf) (n : Nat) : List Char :=
  if cf.oneLine then [] else List.replicate n '\n'

/-- `spaces` (`/repo/ast/ast_print.go:213` and elsewhere). -/
def PrintConf.sp (cf : PrintConf) (depth : Nat) : List Char := List.replicate (cf.margin * depth) ' '

/-- `loop.For.(string)` (`/repo/ast/ast_print.go:309`); panics in Go when it is not a string (see
`Stm.printOk`). -/
def forName : Stm → List Char
  | .str s => s
  | _ => []

/-- `printExpression(s, 0)`. -/
def prE (s : Stm) : List Char := pr (.expr 0) s

mutual
/-- `printBodyItem` (`/repo/ast/ast_print.go:210-265`) with `printIfStatement` (267-293),
`printLoopStatement` (295-326), `printTryStatement` (402-425) and `printGoTo` (427-447). -/
def printItem (cf : PrintConf) (d : Nat) : Stm → List Char
  | .ifS c tb elifs els => cf.sp d ++ "Если ".toList ++ prE c ++ " Тогда ".toList ++
      printBody cf (d + 1) tb ++ printElifs cf d elifs ++
      (match els with
        | [] => []
        | els => cf.sp d ++ "Иначе ".toList ++ printBody cf (d + 1) els) ++
      cf.sp d ++ "КонецЕсли".toList ++ [';'] ++ cf.nl 1
  | .bin op l r u n => cf.sp d ++ prE (.bin op l r u n) ++ [';']
  | .loop f to i w body => cf.sp d ++
      (match w with
        | .nil => "Для ".toList
        | w => "Пока ".toList ++ prE w ++ " Цикл ".toList) ++
      (match i with
        | .nil => []
        | i => "Каждого ".toList ++ forName f ++ " Из ".toList ++ prE i ++ " Цикл ".toList) ++
      (match to with
        | .nil => []
        | to => prE f ++ " По ".toList ++ prE to ++ " Цикл ".toList) ++
      printBody cf (d + 1) body ++ cf.sp d ++ "КонецЦикла".toList ++ [';'] ++ cf.nl 1
  | .brk => cf.sp d ++ "Прервать;".toList
  | .cont => cf.sp d ++ "Продолжить;".toList
  | .chain u c m n => cf.sp d ++ pr .chain (.chain u c m n) ++ [';']
  | .tryS b c => cf.sp d ++ "Попытка".toList ++
      (match b with
        | [] => cf.nl 1
        | b => printBody cf (d + 1) b) ++
      cf.sp d ++ "Исключение".toList ++
      (match c with
        | [] => cf.nl 1
        | c => printBody cf (d + 1) c) ++
      cf.sp d ++ "КонецПопытки".toList ++ [';'] ++ cf.nl 1
  | .throw p => cf.sp d ++ "ВызватьИсключение".toList ++
      (match p with
        | .nil => []
        | .exprs l _ => ['('] ++ join [',', ' '] (prList l) ++ [')']
        | p => ['('] ++ join [',', ' '] (prList [p]) ++ [')']) ++ [';']
  | .ret p => cf.sp d ++ "Возврат".toList ++
      (match p with
        | .nil => []
        | p => [' '] ++ prE p) ++ [';']
  | .label n => cf.sp d ++ ['~'] ++ n ++ [':'] ++ cf.nl 1
  | .goto n => cf.sp d ++ "Перейти ~".toList ++ n ++ [';'] ++ cf.nl 1
  | s => cf.sp d ++ pr .var s ++ [';']
/-- `printBody` (`/repo/ast/ast_print.go:197-208`). -/
def printBody (cf : PrintConf) (d : Nat) : List Stm → List Char
  | [] => cf.nl 1
  | s :: l => cf.nl 1 ++ printItem cf d s ++ printBody cf d l
/-- The `ИначеЕсли` loop of `printIfStatement` (`/repo/ast/ast_print.go:276-282`); elements that are not
`*IfStatement` panic in Go (see `Stm.printOk`). -/
def printElifs (cf : PrintConf) (d : Nat) : List Stm → List Char
  | [] => []
  | .ifS c tb _ _ :: l => cf.sp d ++ "ИначеЕсли ".toList ++ prE c ++ " Тогда ".toList ++
      printBody cf (d + 1) tb ++ printElifs cf d l
  | _ :: l => printElifs cf d l
end

/-- `printGlobalVariables` (`/repo/ast/ast_print.go:74-94`). -/
def printGlobal (v : GVar) : List Char :=
  (if v.directive = [] then [] else ['\n'] ++ v.directive ++ ['\n']) ++ "Перем ".toList ++ v.name ++
    onFlag v.export " Экспорт ".toList ++ [';']

/-- One parameter of a header (`/repo/ast/ast_print.go:111-122`). -/
def printParam (p : Param) : List Char :=
  onFlag p.isValue "Знач ".toList ++ p.name ++
    (if pr .var p.default = [] then [] else [' ', '=', ' '] ++ pr .var p.default)

/-- `printFunctionOrProcedure` (`/repo/ast/ast_print.go:96-149`). -/
def printFunc (cf : PrintConf) (f : FuncDecl) : List Char :=
  (if f.directive = [] then [] else ['\n'] ++ f.directive ++ ['\n']) ++
  (if f.isFunc then "Функция".toList else "Процедура".toList) ++ [' '] ++ f.name ++ ['('] ++
  join [',', ' '] (f.params.map printParam) ++ [')', ' '] ++ onFlag f.export "Экспорт ".toList ++
  cf.nl 1 ++ printBody cf 1 f.body ++
  cf.nl 2 ++ (if f.isFunc then "КонецФункции ".toList else "КонецПроцедуры ".toList)

/-- The loop over the module body (`/repo/ast/ast_print.go:61-69`). -/
def printItems (cf : PrintConf) : List Item → List Char
  | [] => []
  | .func f :: l => printFunc cf f ++ cf.nl 3 ++ printItems cf l
  | .stm s :: l => cf.nl 1 ++ printItem cf 0 s ++ printItems cf l

/-- `AstNode.Print` (`/repo/ast/ast_print.go:23-30, 49-72`) on a non-nil node when the iteration over
the map `GlobalVariables` happens to yield the order `gs` (any permutation of `m.globals`). -/
def printModule (cf : PrintConf) (gs : List GVar) (m : Module) : List Char :=
  if m.body = [] then []
  else (gs.map fun g => printGlobal g ++ cf.nl 1).flatten ++ printItems cf m.body

/-- Possible results of `Print`. -/
def Prints (cf : PrintConf) (m : Module) (s : List Char) : Prop :=
  ∃ gs, gs.Perm m.globals ∧ s = printModule cf gs m

/-- `PrintStatementWithConf` (`/repo/ast/ast_print.go:40-47`). -/
def printStatementWithConf (cf : PrintConf) : Stm → List Char
  | .nil => []
  | s => printItem cf 0 s

/-- `PrintStatement` (`/repo/ast/ast_print.go:32-38`). -/
def printStatement (s : Stm) : List Char := printStatementWithConf ⟨4, false⟩ s

mutual
/-- Printing this statement does not panic: the type assertions at `/repo/ast/ast_print.go:279, 281,
309` hold wherever printing gets to. -/
def Stm.printOk : Stm → Bool
  | .ifS _ tb elifs els => Stm.printOkL tb && Stm.printOkE elifs && Stm.printOkL els
  | .loop f _ i _ body =>
    (match i, f with | .nil, _ => true | _, .str _ => true | _, _ => false) && Stm.printOkL body
  | .tryS b c => Stm.printOkL b && Stm.printOkL c
  | _ => true
/-- All statements of a block. -/
def Stm.printOkL : List Stm → Bool
  | [] => true
  | s :: l => s.printOk && Stm.printOkL l
/-- All `ИначеЕсли` branches. -/
def Stm.printOkE : List Stm → Bool
  | [] => true
  | .ifS _ tb _ _ :: l => Stm.printOkL tb && Stm.printOkE l
  | _ :: _ => false
end

end Verif
