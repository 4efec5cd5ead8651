import Verif.Ast
import Verif.Tables
/-!
# The parser: driver and semantic actions

Model of the goyacc driver (`/repo/ast/y.go:513-725, 1451`), of the semantic actions
(`/repo/ast/grammar.y`, generated code `/repo/ast/y.go:727-1450`) and of the helpers in
`/repo/ast/ast.go` and `/repo/ast/ast_struct.go` they call.
-/
namespace Verif
open Lexer Tables

/-! ## Helpers called by the actions -/

/-- `ModuleStatement.Append` for one `GlobalVariables` (`/repo/ast/ast_struct.go:293-307`). -/
def appendGlobal (a : Ast) (v : GVar) : Except Panic Ast :=
  if a.mod.body ≠ [] then a.error .varOrder
  else if a.mod.globals.any (fun g => g.name == v.name) then a.error (.dupVar v.name)
  else .ok { a with mod := { a.mod with globals := a.mod.globals ++ [v] } }

/-- `ModuleStatement.Append` for `[]GlobalVariables` (`/repo/ast/ast_struct.go:308-311`). -/
def appendGlobals (a : Ast) : List GVar → Except Panic Ast
  | [] => .ok a
  | v :: vs => do appendGlobals (← appendGlobal a v) vs

/-- `ModuleStatement.Append` for `Statements` (`/repo/ast/ast_struct.go:312-313`). -/
def appendStms (a : Ast) (l : List Stm) : Ast :=
  { a with mod := { a.mod with body := a.mod.body ++ l.map .stm } }

/-- `ModuleStatement.Append` for `*FunctionOrProcedure` (`/repo/ast/ast_struct.go:314-323`). -/
def appendFunc (a : Ast) (f : FuncDecl) : Except Panic Ast :=
  match a.mod.body.getLast? with
  | some (.stm _) => a.error .funcOrder
  | _ => .ok { a with mod := { a.mod with body := a.mod.body ++ [.func f] } }

/-- `checkLoopOperator` (`/repo/ast/ast.go:82-88`). -/
def checkLoop (a : Ast) (t : Tok) : Except Panic Ast :=
  if a.isLoop = 0 then a.error (.loopOp t.literal) else .ok a

/-- Go's `v == nil` on an interface value. -/
def Stm.isNil : Stm → Bool
  | .nil => true
  | _ => false

/-- `checkThrowParam` (`/repo/ast/ast.go:90-96`). -/
def checkThrow (a : Ast) (t : Tok) (param : Stm) : Except Panic Ast :=
  if a.isTry = 0 ∧ param.isNil then a.error (.throwOp t.literal) else .ok a

/-- `checkReturnParam` (`/repo/ast/ast.go:104-110`). -/
def checkReturn (a : Ast) (param : Stm) : Except Panic Ast :=
  if !a.isFunc ∧ !param.isNil then a.error .procReturn else .ok a

/-- `setLoopFlag` (`/repo/ast/ast.go:112-120`). -/
def setLoop (a : Ast) (flag : Bool) : Ast := { a with isLoop := a.isLoop + (if flag then 1 else -1) }

/-- `setTryFlag` (`/repo/ast/ast.go:122-130`). -/
def setTry (a : Ast) (flag : Bool) : Ast := { a with isTry := a.isTry + (if flag then 1 else -1) }

/-- `createFunctionOrProcedure` (`/repo/ast/ast.go:132-147`). -/
def createFunc (isFunc : Bool) (directive : Option Tok) (name : List Char) (params : List Param)
    (exp : Option Tok) (vars : Option (List (List Char))) (body : List Stm) : FuncDecl :=
  { vars := vars, name := name, directive := match directive with | some t => t.literal | none => [],
    body := body, params := params, isFunc := isFunc, «export» := exp.isSome }

/-- Result of `appendVarStatements`: the map afterwards, and the duplicate name if there was one. -/
structure AppendVars where
  map : Option (List (List Char))
  dup : Option (List Char)

/-- `appendVarStatements` (`/repo/ast/ast.go:149-158`).  The map is mutated in place, so its contents
matter also when an error is returned.  Writing to a nil map panics. -/
def appendVars (m : Option (List (List Char))) : List Tok → Except Panic AppendVars
  | [] => .ok ⟨m, none⟩
  | t :: ts =>
    match m with
    | none => .error .nilMap
    | some ks =>
      if ks.contains t.literal then .ok ⟨some ks, some t.literal⟩
      else appendVars (some (ks ++ [t.literal])) ts

/-- `unaryMinus` (`/repo/ast/ast.go:160-177`) with the `UnaryMinus` methods
(`/repo/ast/ast_struct.go:196-224`). -/
def unaryMinus : Stm → Stm
  | .num x => .num x.negate
  | .bin op l r _ n => .bin op l r true n
  | .var s _ n => .var s true n
  | .chain u c _ n => .chain u c true n
  | v => v

/-- `not` (`/repo/ast/ast.go:179-188`) with the `Not` methods (`/repo/ast/ast_struct.go:201-240`). -/
def notStm : Stm → Stm
  | .bool b => .bool !b
  | .bin op l r u _ => .bin op l r u true
  | .exprs l _ => .exprs l true
  | .var s u _ => .var s u true
  | .chain a c u _ => .chain a c u true
  | .method s p _ => .method s p true
  | v => v

/-- A token value (`interface{}`) used as a statement. -/
def Val.toStm : Val → Stm
  | .nil => .nil
  | .num x => .num x
  | .str s => .str s
  | .bool b => .bool b
  | .date t => .date t

/-- The zero `Token`. -/
def zeroTok : Tok := ⟨[], .nil, [], false⟩

/-- `yySymType` (`/repo/ast/y.go:11-34`, `%union` of `/repo/ast/grammar.y:42-63`) without the state
number `yys`, which the model keeps separately.  Pointers to tokens are options of tokens.
`opt_goToLabel` is never used. -/
structure SV where
  token : Tok := zeroTok
  stmt_if : Stm := .nil
  opt_elseif_list : List Stm := []
  opt_else : List Stm := []
  stmt : Stm := .nil
  stmt_loop : Stm := .nil
  funcProc : Option FuncDecl := none
  body : List Stm := []
  opt_body : List Stm := []
  dparams : List Param := []
  dparam : Param := ⟨.nil, [], false⟩
  exprs : List Stm := []
  opt_export : Option Tok := none
  opt_directive : Option Tok := none
  explicit_variables : Option (List (List Char)) := none
  global_variables : List GVar := []
  opt_explicit_variables : Option (List (List Char)) := none
  identifiers : List Tok := []
  goToLabel : Stm := .nil

instance : Inhabited SV := ⟨{}⟩

/-- `*(&ParamStatement{}).Fill(valueParam, identifier)` (`/repo/ast/ast_struct.go:180-184`). -/
def fillParam (isValue : Bool) (t : Tok) : Param := ⟨.nil, t.literal, isValue⟩

/-- `ParamStatement.DefaultValue` (`/repo/ast/ast_struct.go:186-194`). -/
def Param.defaultValue (p : Param) (v : Stm) : Param :=
  { p with default := match v with | .nil => .undef | v => v }

/-- `-`/`*`/… : the action of the binary operators (`/repo/ast/grammar.y:303-315`). -/
def mkBin (op : Op) (l r : Stm) : Stm := .bin op l r false false

/-- Statement of the label name inside `GoToStatement{ Label: $2 }` (`/repo/ast/grammar.y:318`). -/
def mkGoto : Stm → Stm
  | .label n => .goto n
  | _ => .goto []

/-- The test in the action of `body: opt_body separator opt_stmt` (`/repo/ast/grammar.y:151-156`). -/
def checkColon (a : Ast) (sep : Tok) (block : List Stm) : Except Panic Ast :=
  if sep.literal = [':'] then
    match block.getLast? with
    | none => .ok a
    | some (.label _) => .ok a
    | some _ => a.error .semicolon
  else .ok a

/-- The semantic action of production `p` (numbering of `/repo/ast/y.go`, `switch yynt`,
y.go:725-1450; source `/repo/ast/grammar.y:85-378`).  `d i` is `$i`, `v` is `yyVAL` before the action,
i.e. the stack slot `yyS[yyp+1]`: `$1` if the right side is not empty, else a **stale** slot above the
top of the stack.  Result: `yyVAL` afterwards and the AstNode. -/
def act (p : Nat) (d : Nat → SV) (v : SV) (a : Ast) : Except Panic (SV × Ast) :=
  match p with
  -- module (85-95)
  | 1 => .ok (v, a)
  | 2 => .ok (v, appendStms a (d 1).body)
  | 3 => .ok (v, appendStms a (d 2).opt_body)
  -- main_items (97-98)
  | 4 => .ok (v, a)
  | 5 => .ok (v, a)
  -- main (101-110)
  | 6 => do .ok (v, ← appendGlobals a (d 1).global_variables)
  | 7 => match (d 1).funcProc with
    | some f => do .ok (v, ← appendFunc a f)
    | none => .ok (v, a)
  -- opt_directive, opt_export (113-118)
  | 8 => .ok ({ v with opt_directive := none }, a)
  | 9 => .ok ({ v with opt_directive := some (d 1).token }, a)
  | 10 => .ok ({ v with opt_export := none }, a)
  | 11 => .ok ({ v with opt_export := some (d 1).token }, a)
  -- global_variables (121-131)
  | 12 => .ok ({ v with global_variables := (d 3).identifiers.map fun t =>
      { directive := match (d 1).opt_directive with | some dt => dt.literal | none => [],
        name := t.literal, «export» := (d 4).opt_export.isSome } }, a)
  -- funcProc (134-142)
  | 13 => .ok (v, { a with isFunc := true })
  | 14 => .ok ({ v with funcProc := some (createFunc true (d 1).opt_directive (d 3).token.literal
      (d 5).dparams (d 7).opt_export (d 9).opt_explicit_variables (d 10).opt_body) },
      { a with isFunc := false })
  | 15 => .ok ({ v with funcProc := some (createFunc false (d 1).opt_directive (d 3).token.literal
      (d 5).dparams (d 7).opt_export (d 8).opt_explicit_variables (d 9).opt_body) }, a)
  -- opt_body (145-146)
  | 16 => .ok ({ v with opt_body := [] }, a)
  | 17 => .ok ({ v with opt_body := (d 1).body }, a)
  -- body (150-160)
  | 18 => .ok ({ v with body := [(d 1).stmt] }, a)
  | 19 => do .ok (if (d 3).stmt.isNil then v else { v with body := v.body ++ [(d 3).stmt] },
      ← checkColon a (d 2).token (d 1).opt_body)
  -- opt_stmt (164-165)
  | 20 => .ok ({ v with stmt := .nil }, a)
  | 21 => .ok ({ v with stmt := (d 1).stmt }, a)
  -- separator (168)
  | 22 => .ok ({ v with token := (d 1).token }, a)
  | 23 => .ok ({ v with token := (d 1).token }, a)
  -- opt_explicit_variables (172-173)
  | 24 => .ok ({ v with opt_explicit_variables := some [] }, a)
  | 25 => .ok ({ v with opt_explicit_variables := (d 1).explicit_variables }, a)
  -- explicit_variables (176-189)
  | 26 => do
    let r ← appendVars (some []) (d 2).identifiers
    match r.dup with
    | some n => do .ok (v, ← a.error (.dupVar n))
    | none => .ok ({ v with explicit_variables := r.map }, a)
  | 27 => do
    let r ← appendVars (d 1).explicit_variables (d 3).identifiers
    match r.dup with
    -- `$$` keeps `$1`, i.e. the same (mutated) map
    | some n => do .ok ({ v with explicit_variables := r.map }, ← a.error (.dupVar n))
    | none => .ok ({ v with explicit_variables := r.map }, a)
  -- stmt_if (194-201)
  | 28 => .ok ({ v with stmt_if := .ifS (d 2).stmt (d 4).opt_body (d 5).opt_elseif_list (d 6).opt_else }, a)
  -- opt_elseif_list (204-210)
  | 29 => .ok ({ v with opt_elseif_list := [] }, a)
  | 30 => .ok ({ v with opt_elseif_list :=
      (d 5).opt_elseif_list ++ [.ifS (d 2).stmt (d 4).opt_body [] []] }, a)
  -- opt_else (213-214)
  | 31 => .ok ({ v with opt_else := [] }, a)
  | 32 => .ok ({ v with opt_else := (d 2).opt_body }, a)
  -- ternary (217-223)
  | 33 => .ok ({ v with stmt := .ternary (d 3).stmt (d 5).stmt (d 7).stmt }, a)
  -- stmt_loop (226-247)
  | 34 => .ok (v, setLoop a true)
  | 35 => .ok ({ v with stmt_loop := .loop (.str (d 3).token.literal) .nil (d 5).stmt .nil (d 8).opt_body },
      setLoop a false)
  | 36 => .ok (v, setLoop a true)
  | 37 => .ok ({ v with stmt_loop := .loop (d 2).stmt (d 4).stmt .nil .nil (d 7).opt_body }, setLoop a false)
  | 38 => .ok (v, setLoop a true)
  | 39 => .ok ({ v with stmt_loop := .loop .nil .nil .nil (d 2).stmt (d 5).opt_body }, a)
  -- loopExp (251-254)
  | 40 => .ok ({ v with stmt := (d 1).stmt }, a)
  | 41 => .ok ({ v with stmt := (d 1).stmt }, a)
  | 42 => .ok ({ v with stmt := (d 2).stmt }, a)
  | 43 => .ok ({ v with stmt := (d 1).stmt }, a)
  -- stmt (258-272); `$1` is never a `Token`
  | 44 => .ok ({ v with stmt := .assign (d 1).stmt [(d 3).stmt] }, a)
  | 45 => .ok ({ v with stmt := (d 1).stmt }, a)
  | 46 => .ok ({ v with stmt := (d 1).stmt_if }, a)
  | 47 => .ok ({ v with stmt := (d 1).stmt_loop }, a)
  | 48 => .ok ({ v with stmt := (d 1).stmt }, a)
  | 49 => do .ok ({ v with stmt := .cont }, ← checkLoop a (d 1).token)
  | 50 => do .ok ({ v with stmt := .brk }, ← checkLoop a (d 1).token)
  | 51 => do .ok ({ v with stmt := .throw (d 2).stmt }, ← checkThrow a (d 1).token (d 2).stmt)
  | 52 => do .ok ({ v with stmt := .ret (d 2).stmt }, ← checkReturn a (d 2).stmt)
  -- through_dot (277-278)
  | 53 => .ok ({ v with stmt := (d 1).stmt }, a)
  | 54 => .ok ({ v with stmt := .chain (d 3).stmt (d 1).stmt false false }, a)
  -- identifier (284-288)
  | 55 => .ok ({ v with stmt := .var (d 1).token.literal false false }, a)
  | 56 => .ok ({ v with stmt := .method (d 1).token.literal (d 3).exprs false }, a)
  | 57 => .ok ({ v with stmt := .item (d 3).stmt (d 1).stmt }, a)
  | 58 => .ok ({ v with stmt := .method (d 1).token.literal [(d 2).stmt] false }, a)
  | 59 => .ok ({ v with stmt := .method (d 1).token.literal [(d 3).stmt] false }, a)
  -- execute_param (291-292)
  | 60 => .ok ({ v with stmt := (d 1).token.value.toStm }, a)
  | 61 => .ok ({ v with stmt := .var (d 1).token.literal false false }, a)
  -- stmt_tryCatch (295-298)
  | 62 => .ok (v, setTry a true)
  | 63 => .ok ({ v with stmt := .tryS (d 2).opt_body (d 5).opt_body }, setTry a false)
  -- expr (301-326)
  | 64 => .ok ({ v with stmt := (d 1).stmt }, a)
  | 65 => .ok ({ v with stmt := .exprs (d 2).exprs false }, a)
  | 66 => .ok ({ v with stmt := mkBin .plus (d 1).stmt (d 3).stmt }, a)
  | 67 => .ok ({ v with stmt := mkBin .minus (d 1).stmt (d 3).stmt }, a)
  | 68 => .ok ({ v with stmt := mkBin .mul (d 1).stmt (d 3).stmt }, a)
  | 69 => .ok ({ v with stmt := mkBin .div (d 1).stmt (d 3).stmt }, a)
  | 70 => .ok ({ v with stmt := mkBin .mod (d 1).stmt (d 3).stmt }, a)
  | 71 => .ok ({ v with stmt := mkBin .gt (d 1).stmt (d 3).stmt }, a)
  | 72 => .ok ({ v with stmt := mkBin .lt (d 1).stmt (d 3).stmt }, a)
  | 73 => .ok ({ v with stmt := mkBin .eq (d 1).stmt (d 3).stmt }, a)
  | 74 => .ok ({ v with stmt := mkBin .or (d 1).stmt (d 3).stmt }, a)
  | 75 => .ok ({ v with stmt := mkBin .and (d 1).stmt (d 3).stmt }, a)
  | 76 => .ok ({ v with stmt := mkBin .ne (d 1).stmt (d 3).stmt }, a)
  | 77 => .ok ({ v with stmt := mkBin .le (d 1).stmt (d 3).stmt }, a)
  | 78 => .ok ({ v with stmt := mkBin .ge (d 1).stmt (d 3).stmt }, a)
  | 79 => .ok ({ v with stmt := notStm (d 2).stmt }, a)
  | 80 => .ok ({ v with stmt := (d 1).stmt }, a)
  | 81 => .ok ({ v with stmt := mkGoto (d 2).goToLabel }, a)
  | 82 => .ok ({ v with stmt := (d 1).stmt }, a)
  | 83 => .ok ({ v with stmt := (d 1).stmt }, a)
  -- opt_expr (329)
  | 84 => .ok ({ v with stmt := .nil }, a)
  | 85 => .ok ({ v with stmt := (d 1).stmt }, a)
  -- exprs (331-332)
  | 86 => .ok ({ v with exprs := [(d 1).stmt] }, a)
  | 87 => .ok ({ v with exprs := v.exprs ++ [(d 3).stmt] }, a)
  -- simple_expr (335-343)
  | 88 => .ok ({ v with stmt := (d 1).token.value.toStm }, a)
  | 89 => .ok ({ v with stmt := (d 1).token.value.toStm }, a)
  | 90 => .ok ({ v with stmt := unaryMinus (d 2).stmt }, a)
  | 91 => .ok ({ v with stmt := (d 2).stmt }, a)
  | 92 => .ok ({ v with stmt := (d 1).token.value.toStm }, a)
  | 93 => .ok ({ v with stmt := (d 1).token.value.toStm }, a)
  | 94 => .ok ({ v with stmt := (d 1).token.value.toStm }, a)
  | 95 => .ok ({ v with stmt := .undef }, a)
  | 96 => .ok ({ v with stmt := (d 1).goToLabel }, a)
  -- declarations_method_param (347-349)
  | 97 => .ok ({ v with dparam := fillParam false (d 1).token }, a)
  | 98 => .ok ({ v with dparam := fillParam true (d 2).token }, a)
  | 99 => .ok ({ v with dparam := v.dparam.defaultValue (d 3).stmt }, a)
  -- declarations_method_params (352-354)
  | 100 => .ok ({ v with dparams := [] }, a)
  | 101 => .ok ({ v with dparams := [(d 1).dparam] }, a)
  | 102 => .ok ({ v with dparams := (d 1).dparams ++ [(d 3).dparam] }, a)
  -- new_object (362-364)
  | 103 => .ok ({ v with stmt := .new (d 2).token.literal [] }, a)
  | 104 => .ok ({ v with stmt := .new (d 2).token.literal (d 4).exprs }, a)
  | 105 => .ok ({ v with stmt := .new [] (d 3).exprs }, a)
  -- goToLabel (369)
  | 106 => .ok ({ v with goToLabel := .label (d 1).token.literal }, a)
  -- identifiers (371-372)
  | 107 => .ok ({ v with identifiers := [(d 1).token] }, a)
  | 108 => .ok ({ v with identifiers := v.identifiers ++ [(d 3).token] }, a)
  -- semicolon, colon, comma, dot (375-378)
  | 109 => .ok ({ v with token := (d 1).token }, a)
  | 110 => .ok ({ v with token := (d 1).token }, a)
  | 111 => .ok ({ v with token := (d 1).token }, a)
  | _ => .ok (v, a)

/-! ## The driver -/

/-- Parser configuration at label `yynewstate` (`/repo/ast/y.go:594`).

`live` is the stack `yyS[0..yyp]`, top first, as pairs of state and value; `stale` are the slots above
the top, nearest first (never used slots are the zero value).  `look` is the internal number of the
lookahead token, `none` when `yyrcvr.char < 0`; `lval` is `yyrcvr.lval.token`. -/
structure Cfg where
  ast : Ast
  lval : Tok
  look : Option Nat
  live : List (Nat × SV)
  stale : List SV

/-- `AstNode.Lex` (`/repo/ast/ast.go:53-69`); `none` is EOF. -/
def lexCall [Letters] (a : Ast) (t : Tok) : Ast × Tok × Option Nat :=
  if a.code = [] then (a, t, none)
  else
    match lexNext t with
    | (t', .error e) => ({ a with err := some (.lex e) }, t', none)
    | (t', .ok none) => (a, t', none)
    | (t', .ok (some k)) => ({ a with cur := some t' }, t', some k)

/-- The translation of token numbers in `yylex1` (`/repo/ast/y.go:513-546`). -/
def tokNum (c : Nat) : Nat :=
  let t : Int :=
    if c = 0 then get yyTok1 0
    else if c < 94 then get yyTok1 c
    else if yyPrivate ≤ c ∧ c < yyPrivate + 50 then get yyTok2 (c - yyPrivate)
    else 0
  (if t = 0 then get yyTok2 1 else t).toNat

/-- The internal number of `$end`, `yyTok1[0]` (`/repo/ast/y.go:517`). -/
def tokEnd : Nat := 1

/-- Reading the lookahead (`/repo/ast/y.go:599-601`, `622-624`): since EOF is -1 and `char < 0` means
"no lookahead", `Lex` is called again each time after it returned EOF. -/
def fetch [Letters] (c : Cfg) : Cfg × Nat :=
  match c.look with
  | some t => (c, t)
  | none =>
    match lexCall c.ast c.lval with
    | (a, t, none) => ({ c with ast := a, lval := t }, tokEnd)
    | (a, t, some k) => ({ c with ast := a, lval := t, look := some (tokNum k) }, tokNum k)

/-- The shift entry of state `s` on token `t` (`/repo/ast/y.go:602-607`). -/
def shiftOf (s t : Nat) : Option Nat :=
  let n := get yyPact s + (t : Int)
  if n < 0 ∨ yyLast ≤ n then none
  else
    let m := (get yyAct n.toNat).toNat
    if get yyChk m = (t : Int) then some m else none

/-- First loop through the exception table: the entries after the marker `-1, s`
(`/repo/ast/y.go:627-633`); rows as pairs. -/
def excaFrom (s : Nat) : List (Int × Int) → List (Int × Int)
  | [] => []
  | (x, y) :: r => if x = -1 ∧ y = (s : Int) then r else excaFrom s r

/-- Second loop through the exception table (`/repo/ast/y.go:634-640`). -/
def excaFind (t : Nat) : List (Int × Int) → Int
  | [] => 0
  | (x, y) :: r => if x < 0 ∨ x = (t : Int) then y else excaFind t r

/-- A list of even length as pairs. -/
def pairs : List Int → List (Int × Int)
  | x :: y :: r => (x, y) :: pairs r
  | _ => []

/-- The exception table as pairs. -/
def excaPairs : List (Int × Int) := pairs yyExca.flatten

/-- The goto table (`/repo/ast/y.go:711-723`): successor of state `s` for the left side of production `p`. -/
def gotoOf (s p : Nat) : Nat :=
  let n := get yyR1 p
  let g := get yyPgo n.toNat
  let j := g + (s : Int) + 1
  if yyLast ≤ j then (get yyAct g.toNat).toNat
  else
    let m := (get yyAct j.toNat).toNat
    if get yyChk m ≠ -n then (get yyAct g.toNat).toNat else m

/-- Outcome of one step of the driver. -/
inductive Step
  | go (c : Cfg)
  /-- `ret0` (`code` 0) or `ret1` (`code` 1) -/
  | done (code : Nat) (a : Ast)

/-- Push a value (`/repo/ast/y.go:579-592`): the slot above the top is overwritten. -/
def Cfg.push (c : Cfg) (s : Nat) (v : SV) : Cfg :=
  { c with live := (s, v) :: c.live, stale := c.stale.tail }

/-- `yyp--`: the popped slots become stale, keeping their contents. -/
def popN : Nat → List (Nat × SV) → List SV → List (Nat × SV) × List SV
  | n + 1, (_, v) :: l, st => popN n l (v :: st)
  | _, l, st => (l, st)

/-- Reduction by production `p` (`/repo/ast/y.go:692-725, 1451`). -/
def reduce (c : Cfg) (p : Nat) : Except Panic Step :=
  let k := (get yyR2 p).toNat
  let (live, stale) := popN k c.live c.stale
  match live with
  | [] => .ok (.done 1 c.ast)  -- `yyp` below zero; unreachable (`Stk.popRed` in `Proofs/LR/Tree.lean`)
  | (s, _) :: _ =>
    let d := fun i => stale.getD (i - 1) {}
    do
      let (v, a) ← act p d (stale.headD {}) c.ast
      .ok (.go (({ c with ast := a, live := live, stale := stale } : Cfg).push (gotoOf s p) v))

/-- The error recovery loop (`/repo/ast/y.go:660-676`): pop until a state shifts the token `error` (number 2). -/
def recover : List (Nat × SV) → Option (Nat × List (Nat × SV))
  | [] => none
  | (s, v) :: l =>
    match shiftOf s yyErrCode.toNat with
    | some s' => some (s', (s, v) :: l)
    | none => recover l

/-- Syntax error (`/repo/ast/y.go:645-690`) with `Errflag` 0.  The counter `Errflag` is not modelled: it is set
here, and only matters if the recovery succeeds, which never happens (`C19_no_recovery`). -/
def syntaxError (c : Cfg) : Except Panic Step := do
  let a ← c.ast.error .syntaxError
  match recover c.live with
  | none => .ok (.done 1 a)
  | some (s', live) => .ok (.go (({ c with ast := a, live := live } : Cfg).push s' {}))

/-- Label `yydefault` (`/repo/ast/y.go:618-690`) in state `s`. -/
def defaultAction [Letters] (c : Cfg) (s : Nat) : Except Panic Step :=
  let n := get yyDef s
  if n = -2 then
    let (c, t) := fetch c
    let n := excaFind t (excaFrom s excaPairs)
    if n < 0 then .ok (.done 0 c.ast)
    else if n = 0 then syntaxError c
    else reduce c n.toNat
  else if n = 0 then syntaxError c
  else reduce c n.toNat

/-- One round of the driver from label `yynewstate` (`/repo/ast/y.go:594-725`). -/
def step [Letters] (c : Cfg) : Except Panic Step :=
  match c.live with
  | [] => .ok (.done 1 c.ast)  -- unreachable: the stack is never empty
  | (s, _) :: _ =>
    if get yyPact s ≤ yyFlag then defaultAction c s
    else
      let (c, t) := fetch c
      match shiftOf s t with
      | some s' => .ok (.go (({ c with look := none } : Cfg).push s' { token := c.lval }))
      | none => defaultAction c s

/-- The driver loop with at most `n` rounds; `none` if it has not returned by then. -/
def run [Letters] : Nat → Cfg → Except Panic (Option (Nat × Ast))
  | 0, _ => .ok none
  | n + 1, c => do
    match ← step c with
    | .done k a => .ok (some (k, a))
    | .go c' => run n c'

/-- `yyParse` up to its first label (`/repo/ast/y.go:552-592`). -/
def initCfg (a : Ast) : Cfg :=
  { ast := a, lval := startTok a.code, look := none, live := [(0, {})], stale := [] }

/-- `unicode.IsSpace` (library), used by `strings.TrimSpace` at `/repo/ast/ast.go:38`. -/
def isUnicodeSpace (c : Char) : Bool :=
  let n := c.toNat
  (0x09 ≤ n && n ≤ 0x0D) || n == 0x20 || n == 0x85 || n == 0xA0 || n == 0x1680 ||
  (0x2000 ≤ n && n ≤ 0x200a) || n == 0x2028 || n == 0x2029 || n == 0x202f || n == 0x205f || n == 0x3000

/-- Number of rounds that always suffices for a text of `n` characters (`Props/Parse.lean`). -/
def fuel (n : Nat) : Nat := 15 * n + 16

/-- Outcome of a call of `Parse`. -/
inductive Outcome
  /-- returned; the AstNode afterwards (the result of Parse is its `err`) -/
  | ret (a : Ast)
  | panic (p : Panic)
  /-- did not return (excluded by `Props/Parse.lean`) -/
  | loops

/-- `AstNode.Parse` (`/repo/ast/ast.go:37-47`).  The returned error is `err` of the resulting node;
`errors.Wrap` at line 44 has no effect. -/
def parse [Letters] (a : Ast) : Outcome :=
  if a.code.all isUnicodeSpace then .ret a
  else match run (fuel a.code.length) (initCfg a) with
    | .error p => .panic p
    | .ok none => .loops
    | .ok (some (_, a')) => .ret a'

end Verif
