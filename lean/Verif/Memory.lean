import Verif.Parser
/-!
# Blocks in memory

A second model of the driver and of the semantic actions in which the statements of a block are not a list but a Go slice: a header
with a pointer to an array and a length.  `append` (`/repo/ast/grammar.y:158`, `/repo/ast/y.go:849`) writes into the array if it has
room behind the slice and copies to a new array otherwise, so that slices can share an array, and what one of them holds could be
overwritten through the other.  `Proofs/Memory.lean` proves that this does not happen and that the tree read from memory is the tree
of `Verif/Parser.lean`.

Slices are modelled for blocks (`opt_body`, `body`, and the fields `Body`, `TrueBlock`, `ElseBlock`, `Catch` of the nodes), which are
the only ones the parser extends starting from a stale stack slot.  Lists of arguments, parameters, identifiers and `ИначеЕсли` are
started afresh by the first production of the list (`/repo/ast/grammar.y:204, 331, 352, 371`), they stay values here.
-/
namespace Verif
open Lexer Tables

/-- A Go slice `[]Statement`: nil, or the number of an array and a length (the offset is always 0: the code never reslices). -/
abbrev Slice := Option (Nat × Nat)

/-- `Stm` (`/repo/ast/ast_struct.go:44-178`) with slices for blocks. -/
inductive HStm
  | nil
  | num (x : F64)
  | str (s : List Char)
  | bool (b : Bool)
  | date (t : Time)
  | undef
  | var (name : List Char) (um not : Bool)
  | chain (unit call : HStm) (um not : Bool)
  | method (name : List Char) (param : List HStm) (not : Bool)
  | item (item object : HStm)
  | ternary (c t e : HStm)
  | new (ctor : List Char) (param : List HStm)
  | assign (v : HStm) (expr : List HStm)
  | bin (op : Op) (l r : HStm) (um not : Bool)
  | exprs (l : List HStm) (not : Bool)
  | ifS (cond : HStm) (tb : Slice) (elifs : List HStm) (els : Slice)
  | tryS (body catch_ : Slice)
  | throw (param : HStm)
  | ret (param : HStm)
  | brk
  | cont
  | loop (for_ to in_ while_ : HStm) (body : Slice)
  | goto (label : List Char)
  | label (name : List Char)

instance : Inhabited HStm := ⟨.nil⟩

/-- `ParamStatement` (`/repo/ast/ast_struct.go:84-88`). -/
structure HParam where
  default : HStm
  name : List Char
  isValue : Bool

/-- `FunctionOrProcedure` (`/repo/ast/ast_struct.go:74-82`). -/
structure HFunc where
  vars : Option (List (List Char))
  name : List Char
  directive : List Char
  body : Slice
  params : List HParam
  isFunc : Bool
  «export» : Bool

/-- Elements of `ModuleStatement.Body`. -/
inductive HItem
  | func (f : HFunc)
  | stm (s : HStm)

/-! ## The heap -/

/-- The arrays allocated so far, by number: capacity, and the cells written so far. -/
abbrev Heap := List (Nat × List HStm)

/-- The array with number `i`. -/
def Heap.arr (h : Heap) (i : Nat) : Nat × List HStm := h.getD i (0, [])

/-- The elements of a slice. -/
def Heap.elems (h : Heap) : Slice → List HStm
  | none => []
  | some (i, n) => (h.arr i).2.take n

/-- A new array with the given cells, and a slice of all of it. -/
def Heap.alloc (h : Heap) (cap : Nat) (cells : List HStm) : Slice × Heap := (some (h.length, cells.length), h ++ [(cap, cells)])

/-- Go's `append(s, x)`: in place if the capacity allows it, otherwise into a new array.  `g` is the growth policy of the runtime: the
spare capacity of the new array, which may depend on how much was allocated before and on the length needed. -/
def Heap.append (g : Nat → Nat → Nat) (h : Heap) (s : Slice) (x : HStm) : Slice × Heap :=
  match s with
  | none => h.alloc (1 + g h.length 1) [x]
  | some (i, n) =>
    let (cap, cells) := h.arr i
    if n < cap then (some (i, n + 1), h.set i (cap, cells.take n ++ x :: cells.drop (n + 1)))
    else h.alloc (n + 1 + g h.length (n + 1)) (cells.take n ++ [x])

/-- The growth of short slices in Go (`growslice`: twice the capacity while it is below 256; slices of one element start with
capacity 1).  The theorems hold for any policy. -/
def goGrow (_ n : Nat) : Nat := n - 2

/-! ## Helpers called by the actions -/

/-- `AstNode`: everything but `ModuleStatement.Body` is in `ctl` (whose `mod.body` is not used). -/
structure HAst where
  ctl : Ast
  items : List HItem

/-- `AstNode.Error` (`/repo/ast/ast.go:75-80`). -/
def HAst.errorH (a : HAst) (m : Msg) : Except Panic HAst := do .ok { a with ctl := ← a.ctl.error m }

/-- Assignment of the flag `isFunction`. -/
def HAst.setFunc (a : HAst) (b : Bool) : HAst := { a with ctl := { a.ctl with isFunc := b } }

/-- `ModuleStatement.Append` for one `GlobalVariables` (`/repo/ast/ast_struct.go:293-307`). -/
def appendGlobalH (a : HAst) (v : GVar) : Except Panic HAst :=
  match a.items with
  | _ :: _ => a.errorH .varOrder
  | [] =>
    if a.ctl.mod.globals.any (fun g => g.name == v.name) then a.errorH (.dupVar v.name)
    else .ok { a with ctl := { a.ctl with mod := { a.ctl.mod with globals := a.ctl.mod.globals ++ [v] } } }

/-- `ModuleStatement.Append` for `[]GlobalVariables` (`/repo/ast/ast_struct.go:308-311`). -/
def appendGlobalsH (a : HAst) : List GVar → Except Panic HAst
  | [] => .ok a
  | v :: vs => do appendGlobalsH (← appendGlobalH a v) vs

/-- `ModuleStatement.Append` for `Statements` (`/repo/ast/ast_struct.go:312-313`): the elements are copied into the module's own
slice, which nothing else refers to. -/
def appendStmsH (a : HAst) (l : List HStm) : HAst := { a with items := a.items ++ l.map .stm }

/-- `ModuleStatement.Append` for `*FunctionOrProcedure` (`/repo/ast/ast_struct.go:314-323`). -/
def appendFuncH (a : HAst) (f : HFunc) : Except Panic HAst :=
  match a.items.getLast? with
  | some (.stm _) => a.errorH .funcOrder
  | _ => .ok { a with items := a.items ++ [.func f] }

/-- `checkLoopOperator` (`/repo/ast/ast.go:82-88`). -/
def checkLoopH (a : HAst) (t : Tok) : Except Panic HAst :=
  if a.ctl.isLoop = 0 then a.errorH (.loopOp t.literal) else .ok a

/-- Go's `v == nil` on an interface value. -/
def HStm.isNil : HStm → Bool
  | .nil => true
  | _ => false

/-- `checkThrowParam` (`/repo/ast/ast.go:90-96`). -/
def checkThrowH (a : HAst) (t : Tok) (param : HStm) : Except Panic HAst :=
  if a.ctl.isTry = 0 ∧ param.isNil then a.errorH (.throwOp t.literal) else .ok a

/-- `checkReturnParam` (`/repo/ast/ast.go:104-110`). -/
def checkReturnH (a : HAst) (param : HStm) : Except Panic HAst :=
  if !a.ctl.isFunc ∧ !param.isNil then a.errorH .procReturn else .ok a

/-- `setLoopFlag` (`/repo/ast/ast.go:112-120`). -/
def setLoopH (a : HAst) (flag : Bool) : HAst := { a with ctl := setLoop a.ctl flag }

/-- `setTryFlag` (`/repo/ast/ast.go:122-130`). -/
def setTryH (a : HAst) (flag : Bool) : HAst := { a with ctl := setTry a.ctl flag }

/-- `createFunctionOrProcedure` (`/repo/ast/ast.go:132-147`). -/
def createFuncH (isFunc : Bool) (directive : Option Tok) (name : List Char) (params : List HParam)
    (exp : Option Tok) (vars : Option (List (List Char))) (body : Slice) : HFunc :=
  { vars := vars, name := name, directive := match directive with | some t => t.literal | none => [],
    body := body, params := params, isFunc := isFunc, «export» := exp.isSome }

/-- `unaryMinus` (`/repo/ast/ast.go:160-177`) with the `UnaryMinus` methods (`/repo/ast/ast_struct.go:196-224`). -/
def unaryMinusH : HStm → HStm
  | .num x => .num x.negate
  | .bin op l r _ n => .bin op l r true n
  | .var s _ n => .var s true n
  | .chain u c _ n => .chain u c true n
  | v => v

/-- `not` (`/repo/ast/ast.go:179-188`) with the `Not` methods (`/repo/ast/ast_struct.go:201-240`). -/
def notStmH : HStm → HStm
  | .bool b => .bool !b
  | .bin op l r u _ => .bin op l r u true
  | .exprs l _ => .exprs l true
  | .var s u _ => .var s u true
  | .chain a c u _ => .chain a c u true
  | .method s p _ => .method s p true
  | v => v

/-- A token value (`interface{}`) used as a statement. -/
def Val.toHStm : Val → HStm
  | .nil => .nil
  | .num x => .num x
  | .str s => .str s
  | .bool b => .bool b
  | .date t => .date t

/-- `yySymType` (`/repo/ast/y.go:11-34`), as `SV`, with slices for blocks. -/
structure HSV where
  token : Tok := zeroTok
  stmt_if : HStm := .nil
  opt_elseif_list : List HStm := []
  opt_else : Slice := none
  stmt : HStm := .nil
  stmt_loop : HStm := .nil
  funcProc : Option HFunc := none
  body : Slice := none
  opt_body : Slice := none
  dparams : List HParam := []
  dparam : HParam := ⟨.nil, [], false⟩
  exprs : List HStm := []
  opt_export : Option Tok := none
  opt_directive : Option Tok := none
  explicit_variables : Option (List (List Char)) := none
  global_variables : List GVar := []
  opt_explicit_variables : Option (List (List Char)) := none
  identifiers : List Tok := []
  goToLabel : HStm := .nil

instance : Inhabited HSV := ⟨{}⟩

/-- `*(&ParamStatement{}).Fill(valueParam, identifier)` (`/repo/ast/ast_struct.go:180-184`). -/
def fillParamH (isValue : Bool) (t : Tok) : HParam := ⟨.nil, t.literal, isValue⟩

/-- `ParamStatement.DefaultValue` (`/repo/ast/ast_struct.go:186-194`). -/
def HParam.defaultValue (p : HParam) (v : HStm) : HParam :=
  { p with default := match v with | .nil => .undef | v => v }

/-- The action of the binary operators (`/repo/ast/grammar.y:303-315`). -/
def mkBinH (op : Op) (l r : HStm) : HStm := .bin op l r false false

/-- `GoToStatement{ Label: $2 }` (`/repo/ast/grammar.y:318`). -/
def mkGotoH : HStm → HStm
  | .label n => .goto n
  | _ => .goto []

/-- The test in the action of `body: opt_body separator opt_stmt` (`/repo/ast/grammar.y:151-156`), on the elements of `$1`. -/
def checkColonH (a : HAst) (sep : Tok) (block : List HStm) : Except Panic HAst :=
  if sep.literal = [':'] then
    match block.getLast? with
    | none => .ok a
    | some (.label _) => .ok a
    | some _ => a.errorH .semicolon
  else .ok a

/-- The semantic actions (`/repo/ast/grammar.y:85-378`, `/repo/ast/y.go:725-1450`) that neither allocate nor read arrays of blocks. -/
def actP (p : Nat) (d : Nat → HSV) (v : HSV) (a : HAst) : Except Panic (HSV × HAst) :=
  match p with
  -- module (85-95)
  | 1 => .ok (v, a)
  -- main_items (97-98)
  | 4 => .ok (v, a)
  | 5 => .ok (v, a)
  -- main (101-110)
  | 6 => do .ok (v, ← appendGlobalsH a (d 1).global_variables)
  | 7 => match (d 1).funcProc with
    | some f => do .ok (v, ← appendFuncH a f)
    | none => .ok (v, a)
  -- opt_directive, opt_export (113-118)
  | 8 => .ok ({ v with opt_directive := none }, a)
  | 9 => .ok ({ v with opt_directive := some (d 1).token }, a)
  | 10 => .ok ({ v with opt_export := none }, a)
  | 11 => .ok ({ v with opt_export := some (d 1).token }, a)
  -- global_variables (121-131)
  | 12 => .ok ({ v with global_variables := (d 3).identifiers.map fun t =>
      { directive := match (d 1).opt_directive with | some dt => dt.literal | none => [],
        name := t.literal, «export» := (d 4).opt_export.isSome } }, a)
  -- funcProc (134-142)
  | 13 => .ok (v, a.setFunc true)
  | 14 => .ok ({ v with funcProc := some (createFuncH true (d 1).opt_directive (d 3).token.literal
      (d 5).dparams (d 7).opt_export (d 9).opt_explicit_variables (d 10).opt_body) },
      a.setFunc false)
  | 15 => .ok ({ v with funcProc := some (createFuncH false (d 1).opt_directive (d 3).token.literal
      (d 5).dparams (d 7).opt_export (d 8).opt_explicit_variables (d 9).opt_body) }, a)
  -- opt_body (145-146)
  | 16 => .ok ({ v with opt_body := none }, a)
  | 17 => .ok ({ v with opt_body := (d 1).body }, a)
  -- body (150-160)
  -- opt_stmt (164-165)
  | 20 => .ok ({ v with stmt := .nil }, a)
  | 21 => .ok ({ v with stmt := (d 1).stmt }, a)
  -- separator (168)
  | 22 => .ok ({ v with token := (d 1).token }, a)
  | 23 => .ok ({ v with token := (d 1).token }, a)
  -- opt_explicit_variables (172-173)
  | 24 => .ok ({ v with opt_explicit_variables := some [] }, a)
  | 25 => .ok ({ v with opt_explicit_variables := (d 1).explicit_variables }, a)
  -- explicit_variables (176-189)
  | 26 => do
    let r ← appendVars (some []) (d 2).identifiers
    match r.dup with
    | some n => do .ok (v, ← a.errorH (.dupVar n))
    | none => .ok ({ v with explicit_variables := r.map }, a)
  | 27 => do
    let r ← appendVars (d 1).explicit_variables (d 3).identifiers
    match r.dup with
    -- `$$` keeps `$1`, i.e. the same (mutated) map
    | some n => do .ok ({ v with explicit_variables := r.map }, ← a.errorH (.dupVar n))
    | none => .ok ({ v with explicit_variables := r.map }, a)
  -- stmt_if (194-201)
  | 28 => .ok ({ v with stmt_if := .ifS (d 2).stmt (d 4).opt_body (d 5).opt_elseif_list (d 6).opt_else }, a)
  -- opt_elseif_list (204-210)
  | 29 => .ok ({ v with opt_elseif_list := [] }, a)
  | 30 => .ok ({ v with opt_elseif_list :=
      (d 5).opt_elseif_list ++ [.ifS (d 2).stmt (d 4).opt_body [] none] }, a)
  -- opt_else (213-214)
  | 31 => .ok ({ v with opt_else := none }, a)
  | 32 => .ok ({ v with opt_else := (d 2).opt_body }, a)
  -- ternary (217-223)
  | 33 => .ok ({ v with stmt := .ternary (d 3).stmt (d 5).stmt (d 7).stmt }, a)
  -- stmt_loop (226-247)
  | 34 => .ok (v, setLoopH a true)
  | 35 => .ok ({ v with stmt_loop := .loop (.str (d 3).token.literal) .nil (d 5).stmt .nil (d 8).opt_body },
      setLoopH a false)
  | 36 => .ok (v, setLoopH a true)
  | 37 => .ok ({ v with stmt_loop := .loop (d 2).stmt (d 4).stmt .nil .nil (d 7).opt_body }, setLoopH a false)
  | 38 => .ok (v, setLoopH a true)
  | 39 => .ok ({ v with stmt_loop := .loop .nil .nil .nil (d 2).stmt (d 5).opt_body }, a)
  -- loopExp (251-254)
  | 40 => .ok ({ v with stmt := (d 1).stmt }, a)
  | 41 => .ok ({ v with stmt := (d 1).stmt }, a)
  | 42 => .ok ({ v with stmt := (d 2).stmt }, a)
  | 43 => .ok ({ v with stmt := (d 1).stmt }, a)
  -- stmt (258-272); `$1` is never a `Token`
  | 44 => .ok ({ v with stmt := .assign (d 1).stmt [(d 3).stmt] }, a)
  | 45 => .ok ({ v with stmt := (d 1).stmt }, a)
  | 46 => .ok ({ v with stmt := (d 1).stmt_if }, a)
  | 47 => .ok ({ v with stmt := (d 1).stmt_loop }, a)
  | 48 => .ok ({ v with stmt := (d 1).stmt }, a)
  | 49 => do .ok ({ v with stmt := .cont }, ← checkLoopH a (d 1).token)
  | 50 => do .ok ({ v with stmt := .brk }, ← checkLoopH a (d 1).token)
  | 51 => do .ok ({ v with stmt := .throw (d 2).stmt }, ← checkThrowH a (d 1).token (d 2).stmt)
  | 52 => do .ok ({ v with stmt := .ret (d 2).stmt }, ← checkReturnH a (d 2).stmt)
  -- through_dot (277-278)
  | 53 => .ok ({ v with stmt := (d 1).stmt }, a)
  | 54 => .ok ({ v with stmt := .chain (d 3).stmt (d 1).stmt false false }, a)
  -- identifier (284-288)
  | 55 => .ok ({ v with stmt := .var (d 1).token.literal false false }, a)
  | 56 => .ok ({ v with stmt := .method (d 1).token.literal (d 3).exprs false }, a)
  | 57 => .ok ({ v with stmt := .item (d 3).stmt (d 1).stmt }, a)
  | 58 => .ok ({ v with stmt := .method (d 1).token.literal [(d 2).stmt] false }, a)
  | 59 => .ok ({ v with stmt := .method (d 1).token.literal [(d 3).stmt] false }, a)
  -- execute_param (291-292)
  | 60 => .ok ({ v with stmt := (d 1).token.value.toHStm }, a)
  | 61 => .ok ({ v with stmt := .var (d 1).token.literal false false }, a)
  -- stmt_tryCatch (295-298)
  | 62 => .ok (v, setTryH a true)
  | 63 => .ok ({ v with stmt := .tryS (d 2).opt_body (d 5).opt_body }, setTryH a false)
  -- expr (301-326)
  | 64 => .ok ({ v with stmt := (d 1).stmt }, a)
  | 65 => .ok ({ v with stmt := .exprs (d 2).exprs false }, a)
  | 66 => .ok ({ v with stmt := mkBinH .plus (d 1).stmt (d 3).stmt }, a)
  | 67 => .ok ({ v with stmt := mkBinH .minus (d 1).stmt (d 3).stmt }, a)
  | 68 => .ok ({ v with stmt := mkBinH .mul (d 1).stmt (d 3).stmt }, a)
  | 69 => .ok ({ v with stmt := mkBinH .div (d 1).stmt (d 3).stmt }, a)
  | 70 => .ok ({ v with stmt := mkBinH .mod (d 1).stmt (d 3).stmt }, a)
  | 71 => .ok ({ v with stmt := mkBinH .gt (d 1).stmt (d 3).stmt }, a)
  | 72 => .ok ({ v with stmt := mkBinH .lt (d 1).stmt (d 3).stmt }, a)
  | 73 => .ok ({ v with stmt := mkBinH .eq (d 1).stmt (d 3).stmt }, a)
  | 74 => .ok ({ v with stmt := mkBinH .or (d 1).stmt (d 3).stmt }, a)
  | 75 => .ok ({ v with stmt := mkBinH .and (d 1).stmt (d 3).stmt }, a)
  | 76 => .ok ({ v with stmt := mkBinH .ne (d 1).stmt (d 3).stmt }, a)
  | 77 => .ok ({ v with stmt := mkBinH .le (d 1).stmt (d 3).stmt }, a)
  | 78 => .ok ({ v with stmt := mkBinH .ge (d 1).stmt (d 3).stmt }, a)
  | 79 => .ok ({ v with stmt := notStmH (d 2).stmt }, a)
  | 80 => .ok ({ v with stmt := (d 1).stmt }, a)
  | 81 => .ok ({ v with stmt := mkGotoH (d 2).goToLabel }, a)
  | 82 => .ok ({ v with stmt := (d 1).stmt }, a)
  | 83 => .ok ({ v with stmt := (d 1).stmt }, a)
  -- opt_expr (329)
  | 84 => .ok ({ v with stmt := .nil }, a)
  | 85 => .ok ({ v with stmt := (d 1).stmt }, a)
  -- exprs (331-332)
  | 86 => .ok ({ v with exprs := [(d 1).stmt] }, a)
  | 87 => .ok ({ v with exprs := v.exprs ++ [(d 3).stmt] }, a)
  -- simple_expr (335-343)
  | 88 => .ok ({ v with stmt := (d 1).token.value.toHStm }, a)
  | 89 => .ok ({ v with stmt := (d 1).token.value.toHStm }, a)
  | 90 => .ok ({ v with stmt := unaryMinusH (d 2).stmt }, a)
  | 91 => .ok ({ v with stmt := (d 2).stmt }, a)
  | 92 => .ok ({ v with stmt := (d 1).token.value.toHStm }, a)
  | 93 => .ok ({ v with stmt := (d 1).token.value.toHStm }, a)
  | 94 => .ok ({ v with stmt := (d 1).token.value.toHStm }, a)
  | 95 => .ok ({ v with stmt := .undef }, a)
  | 96 => .ok ({ v with stmt := (d 1).goToLabel }, a)
  -- declarations_method_param (347-349)
  | 97 => .ok ({ v with dparam := fillParamH false (d 1).token }, a)
  | 98 => .ok ({ v with dparam := fillParamH true (d 2).token }, a)
  | 99 => .ok ({ v with dparam := v.dparam.defaultValue (d 3).stmt }, a)
  -- declarations_method_params (352-354)
  | 100 => .ok ({ v with dparams := [] }, a)
  | 101 => .ok ({ v with dparams := [(d 1).dparam] }, a)
  | 102 => .ok ({ v with dparams := (d 1).dparams ++ [(d 3).dparam] }, a)
  -- new_object (362-364)
  | 103 => .ok ({ v with stmt := .new (d 2).token.literal [] }, a)
  | 104 => .ok ({ v with stmt := .new (d 2).token.literal (d 4).exprs }, a)
  | 105 => .ok ({ v with stmt := .new [] (d 3).exprs }, a)
  -- goToLabel (369)
  | 106 => .ok ({ v with goToLabel := .label (d 1).token.literal }, a)
  -- identifiers (371-372)
  | 107 => .ok ({ v with identifiers := [(d 1).token] }, a)
  | 108 => .ok ({ v with identifiers := v.identifiers ++ [(d 3).token] }, a)
  -- semicolon, colon, comma, dot (375-378)
  | 109 => .ok ({ v with token := (d 1).token }, a)
  | 110 => .ok ({ v with token := (d 1).token }, a)
  | 111 => .ok ({ v with token := (d 1).token }, a)
  | _ => .ok (v, a)

/-- The semantic action of production `p`, as `act`. -/
def actH (g : Nat → Nat → Nat) (p : Nat) (d : Nat → HSV) (v : HSV) (a : HAst) (h : Heap) : Except Panic (HSV × HAst × Heap) :=
  match p with
  -- module (grammar.y:85-95)
  | 2 => .ok (v, appendStmsH a (h.elems (d 1).body), h)
  | 3 => .ok (v, appendStmsH a (h.elems (d 2).opt_body), h)
  -- body (150-160): `Statements{$1}` and `append($$, $3)`, where `$$` is the stack slot
  | 18 => .ok ({ v with body := (h.alloc 1 [(d 1).stmt]).1 }, a, (h.alloc 1 [(d 1).stmt]).2)
  | 19 => do
    let a ← checkColonH a (d 2).token (h.elems (d 1).opt_body)
    if (d 3).stmt.isNil then .ok (v, a, h)
    else .ok ({ v with body := (h.append g v.body (d 3).stmt).1 }, a, (h.append g v.body (d 3).stmt).2)
  | p => do
    let r ← actP p d v a
    .ok (r.1, r.2, h)

/-! ## The driver -/

/-- Parser configuration, as `Cfg`, with the heap. -/
structure HCfg where
  ast : HAst
  lval : Tok
  look : Option Nat
  live : List (Nat × HSV)
  stale : List HSV
  heap : Heap

/-- Reading the lookahead (`/repo/ast/y.go:599-601`, `622-624`), as `fetch`. -/
def fetchH [Letters] (c : HCfg) : HCfg × Nat :=
  match c.look with
  | some t => (c, t)
  | none =>
    match lexCall c.ast.ctl c.lval with
    | (a, t, none) => ({ c with ast := { c.ast with ctl := a }, lval := t }, tokEnd)
    | (a, t, some k) => ({ c with ast := { c.ast with ctl := a }, lval := t, look := some (tokNum k) }, tokNum k)

/-- Outcome of one step of the driver. -/
inductive HStep
  | go (c : HCfg)
  | done (code : Nat) (a : HAst) (h : Heap)

/-- Push a value (`/repo/ast/y.go:579-592`). -/
def HCfg.push (c : HCfg) (s : Nat) (v : HSV) : HCfg :=
  { c with live := (s, v) :: c.live, stale := c.stale.tail }

/-- `yyp--`. -/
def popNH : Nat → List (Nat × HSV) → List HSV → List (Nat × HSV) × List HSV
  | n + 1, (_, v) :: l, st => popNH n l (v :: st)
  | _, l, st => (l, st)

/-- Reduction by production `p` (`/repo/ast/y.go:692-725, 1451`). -/
def reduceH (g : Nat → Nat → Nat) (c : HCfg) (p : Nat) : Except Panic HStep :=
  let k := (get yyR2 p).toNat
  let (live, stale) := popNH k c.live c.stale
  match live with
  | [] => .ok (.done 1 c.ast c.heap)
  | (s, _) :: _ =>
    let d := fun i => stale.getD (i - 1) {}
    do
      let (v, a, h) ← actH g p d (stale.headD {}) c.ast c.heap
      .ok (.go (({ c with ast := a, heap := h, live := live, stale := stale } : HCfg).push (gotoOf s p) v))

/-- The error recovery loop (`/repo/ast/y.go:660-676`). -/
def recoverH : List (Nat × HSV) → Option (Nat × List (Nat × HSV))
  | [] => none
  | (s, v) :: l =>
    match shiftOf s yyErrCode.toNat with
    | some s' => some (s', (s, v) :: l)
    | none => recoverH l

/-- Syntax error (`/repo/ast/y.go:645-690`). -/
def syntaxErrorH (c : HCfg) : Except Panic HStep := do
  let a ← c.ast.errorH .syntaxError
  match recoverH c.live with
  | none => .ok (.done 1 a c.heap)
  | some (s', live) => .ok (.go (({ c with ast := a, live := live } : HCfg).push s' {}))

/-- Label `yydefault` (`/repo/ast/y.go:618-690`) in state `s`. -/
def defaultActionH [Letters] (g : Nat → Nat → Nat) (c : HCfg) (s : Nat) : Except Panic HStep :=
  let n := get yyDef s
  if n = -2 then
    let (c, t) := fetchH c
    let n := excaFind t (excaFrom s excaPairs)
    if n < 0 then .ok (.done 0 c.ast c.heap)
    else if n = 0 then syntaxErrorH c
    else reduceH g c n.toNat
  else if n = 0 then syntaxErrorH c
  else reduceH g c n.toNat

/-- One round of the driver from label `yynewstate` (`/repo/ast/y.go:594-725`). -/
def stepH [Letters] (g : Nat → Nat → Nat) (c : HCfg) : Except Panic HStep :=
  match c.live with
  | [] => .ok (.done 1 c.ast c.heap)
  | (s, _) :: _ =>
    if get yyPact s ≤ yyFlag then defaultActionH g c s
    else
      let (c, t) := fetchH c
      match shiftOf s t with
      | some s' => .ok (.go (({ c with look := none } : HCfg).push s' { token := c.lval }))
      | none => defaultActionH g c s

/-- The driver loop with at most `n` rounds. -/
def runH [Letters] (g : Nat → Nat → Nat) : Nat → HCfg → Except Panic (Option (HAst × Heap))
  | 0, _ => .ok none
  | n + 1, c => do
    match ← stepH g c with
    | .done _ a h => .ok (some (a, h))
    | .go c' => runH g n c'

/-- `NewAST` (`/repo/ast/ast.go:31-35`). -/
def newASTH (code : List Char) : HAst := ⟨newAST code, []⟩

/-- `yyParse` up to its first label (`/repo/ast/y.go:552-592`), with the memory as it is. -/
def initCfgH (a : HAst) (h : Heap) : HCfg :=
  { ast := a, lval := startTok a.ctl.code, look := none, live := [(0, {})], stale := [], heap := h }

/-- Outcome of a call of `Parse`. -/
inductive HOutcome
  | ret (a : HAst) (h : Heap)
  | panic (p : Panic)
  | loops

/-- `AstNode.Parse` (`/repo/ast/ast.go:37-47`), with the growth policy `g` of `append` and the memory `h`. -/
def parseH [Letters] (g : Nat → Nat → Nat) (a : HAst) (h : Heap) : HOutcome :=
  if a.ctl.code.all isUnicodeSpace then .ret a h
  else match runH g (fuel a.ctl.code.length) (initCfgH a h) with
    | .error p => .panic p
    | .ok none => .loops
    | .ok (some (a', h')) => .ret a' h'

end Verif
