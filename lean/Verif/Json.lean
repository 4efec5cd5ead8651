import Verif.Ast
/-!
# JSON (`AstNode.JSON`, `/repo/ast/ast.go:49-51`)

Model of `encoding/json.Marshal` on `ModuleStatement`: the JSON value.  Its text: `JsonText.lean`.
-/
namespace Verif

/-- JSON values; `flt` is a number given by a `float64`, `int` a number given by an `int`. -/
inductive J
  | null
  | flt (x : F64)
  | int (n : Nat)
  | str (s : List Char)
  | bool (b : Bool)
  | arr (l : List J)
  | obj (l : List (List Char × J))

/-- `Time.MarshalJSON`: RFC 3339 in UTC. -/
def jTime (t : Time) : J :=
  .str (Time.pad 4 t.year ++ ['-'] ++ Time.pad 2 t.month ++ ['-'] ++ Time.pad 2 t.day ++ ['T'] ++
    Time.pad 2 t.hour ++ [':'] ++ Time.pad 2 t.min ++ [':'] ++ Time.pad 2 t.sec ++ ['Z'])

/-- The number of an operation (`/repo/ast/ast_struct.go:15-30`). -/
def Op.num : Op → Nat
  | .plus => 1 | .minus => 2 | .mul => 3 | .div => 4 | .eq => 5 | .gt => 6 | .lt => 7 | .ne => 8
  | .le => 9 | .ge => 10 | .mod => 11 | .or => 12 | .and => 13

/-- A slice that is nil when empty. -/
def jSlice : List J → J
  | [] => .null
  | l => .arr l

/-- An object field with a constant name. -/
def fld (n : String) (v : J) : List Char × J := (n.toList, v)

/-- `json:",omitempty"` on an interface field. -/
def fldOpt (n : String) (s : Stm) (v : J) : List (List Char × J) :=
  match s with
  | .nil => []
  | _ => [fld n v]

mutual
/-- JSON of a statement: exported fields in order of declaration (`/repo/ast/ast_struct.go:47-178`).  The
flags in the unexported `addStatementField` are not marshalled.  `IfElseBlock` is never a nil slice
(grammar.y:204) except inside the branches themselves (`jElifs`). -/
def jStm : Stm → J
  | .nil => .null
  | .num x => .flt x
  | .str s => .str s
  | .bool b => .bool b
  | .date t => jTime t
  | .undef => .obj []
  | .var n _ _ => .obj [fld "Name" (.str n)]
  | .chain u c _ _ => .obj [fld "Unit" (jStm u), fld "Call" (jStm c)]
  | .method n ps _ => .obj [fld "Name" (.str n), fld "Param" (.obj [fld "Statements" (jSlice (jL ps))])]
  | .item i o => .obj [fld "Item" (jStm i), fld "Object" (jStm o)]
  | .ternary c t e => .obj [fld "Expression" (jStm c), fld "TrueBlock" (jStm t), fld "ElseBlock" (jStm e)]
  | .new c ps => .obj [fld "Constructor" (.str c), fld "Param" (.obj [fld "Statements" (jSlice (jL ps))])]
  | .assign v l => .obj [fld "Var" (jStm v), fld "Expr" (.obj [fld "Statements" (jSlice (jL l))])]
  | .bin op l r _ _ => .obj [fld "Left" (jStm l), fld "Right" (jStm r), fld "Operation" (.int op.num)]
  | .exprs l _ => .obj [fld "Statements" (jSlice (jL l))]
  | .ifS c tb elifs els => .obj [fld "Expression" (jStm c), fld "TrueBlock" (jSlice (jL tb)),
      fld "IfElseBlock" (.arr (jElifs elifs)), fld "ElseBlock" (jSlice (jL els))]
  | .tryS b c => .obj [fld "Body" (jSlice (jL b)), fld "Catch" (jSlice (jL c))]
  | .throw p => .obj [fld "Param" (jStm p)]
  | .ret p => .obj [fld "Param" (jStm p)]
  | .brk => .obj []
  | .cont => .obj []
  | .loop f to i w body => .obj (fldOpt "For" f (jStm f) ++ fldOpt "To" to (jStm to) ++
      fldOpt "In" i (jStm i) ++ fldOpt "WhileExpr" w (jStm w) ++ [fld "Body" (jSlice (jL body))])
  | .goto n => .obj [fld "Label" (.obj [fld "Name" (.str n)])]
  | .label n => .obj [fld "Name" (.str n)]
/-- JSON of a slice of statements. -/
def jL : List Stm → List J
  | [] => []
  | s :: l => jStm s :: jL l
/-- JSON of `ИначеЕсли` branches (`IfStatement` values with nil `IfElseBlock` and `ElseBlock`,
grammar.y:206-209). -/
def jElifs : List Stm → List J
  | [] => []
  | .ifS c tb _ _ :: l => .obj [fld "Expression" (jStm c), fld "TrueBlock" (jSlice (jL tb)),
      fld "IfElseBlock" .null, fld "ElseBlock" .null] :: jElifs l
  | _ :: l => .null :: jElifs l
end

/-- Order of keys of a map: encoding/json sorts them (byte order = code point order). -/
def keyLe (a b : List Char × J) : Bool := decide (a.1.map Char.toNat ≤ b.1.map Char.toNat)

/-- JSON of a map. -/
def jMap (l : List (List Char × J)) : J := .obj (l.mergeSort keyLe)

/-- JSON of a parameter (`/repo/ast/ast_struct.go:84-88`). -/
def jParam (p : Param) : J :=
  .obj (fldOpt "Default" p.default (jStm p.default) ++ [fld "Name" (.str p.name)] ++
    if p.isValue then [fld "IsValue" (.bool true)] else [])

/-- JSON of a procedure or function (`/repo/ast/ast_struct.go:74-82`). -/
def jFunc (f : FuncDecl) : J :=
  .obj [fld "ExplicitVariables" (match f.vars with
      | none => .null
      | some ks => jMap (ks.map fun k => (k, .obj [fld "Name" (.str k)]))),
    fld "Name" (.str f.name), fld "Directive" (.str f.directive), fld "Body" (jSlice (jL f.body)),
    fld "Params" (.arr (f.params.map jParam)), fld "Type" (.int (if f.isFunc then 2 else 1)),
    fld "Export" (.bool f.export)]

/-- JSON of an element of the module body. -/
def jItem : Item → J
  | .func f => jFunc f
  | .stm s => jStm s

/-- JSON of a module variable (`/repo/ast/ast_struct.go:57-61`). -/
def jGVar (g : GVar) : J :=
  .obj [fld "Directive" (.str g.directive), fld "Var" (.obj [fld "Name" (.str g.name)]),
    fld "Export" (.bool g.export)]

/-- JSON of a module (`/repo/ast/ast_struct.go:63-67`). -/
def jModule (m : Module) : J :=
  .obj ([fld "Name" (.str [])] ++
    (if m.globals = [] then [] else
      [fld "GlobalVariables" (jMap (m.globals.map fun g => (g.name, jGVar g)))]) ++
    [fld "Body" (jSlice (m.body.map jItem))])

end Verif
