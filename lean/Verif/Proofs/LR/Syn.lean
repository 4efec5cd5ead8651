import Verif.Proofs.LR.Meaning
/-!
# Reading the program back from a derivation tree

`Syn` collects all kinds of syntax; `read` computes the syntax a derivation tree stands for.
-/
namespace Verif.LR
open Tables Spec Lexer

inductive Syn
  | tok (k : Key) | expr (e : Expr) | simple (s : Simple) | args (a : Args) | optExpr (o : OptExpr)
  | execStr (s : List Char) | execVar (n : Name) | path (p : Path) | ident (i : Ident) | new (n : New)
  | ternary (c x y : Expr) | source (s : Source) | label (n : Name)
  | stmt (s : Stmt) | ifS (s : Stmt) | loop (s : Stmt) | tryS (s : Stmt) | elifs (e : Elifs) | els (e : Else)
  | body (b : Body) | block (b : Block) | optStmt (o : OptStmt) | sep (p : Sep) | semi | colon | comma | dot
  | mid (X : Nat)
  | exp (b : Bool) | dir (d : Option Name) | names (n : Names) | varsL (l : List Names) | optVars (l : List Names)
  | param (p : ParamD) | params (p : ParamsD) | gvars (v : VarsD) | func (f : FuncD) | part (p : Part)
  | parts (l : List Part) | prog (P : Program)

/-- The symbol of the grammar. -/
def Syn.root : Syn → Nat
  | .tok k => tokNum k.kind
  | .expr _ => 111 | .simple _ => 114 | .args _ => 110 | .optExpr _ => 117
  | .execStr _ => 118 | .execVar _ => 118 | .path _ => 119 | .ident _ => 127 | .new _ => 121
  | .ternary _ _ _ => 122 | .source _ => 120 | .label _ => 128
  | .stmt _ => 103 | .ifS _ => 106 | .loop _ => 104 | .tryS _ => 126 | .elifs _ => 107 | .els _ => 108
  | .body _ => 101 | .block _ => 102 | .optStmt _ => 109 | .sep _ => 129 | .semi => 130 | .colon => 131
  | .comma => 133 | .dot => 141 | .mid X => X
  | .exp _ => 112 | .dir _ => 113 | .names _ => 125 | .varsL _ => 124 | .optVars _ => 123
  | .param _ => 116 | .params _ => 115 | .gvars _ => 132 | .func _ => 105 | .part _ => 136
  | .parts _ => 135 | .prog _ => 134

/-- The tokens. -/
def Syn.toks : Syn → List Key
  | .tok k => [k]
  | .expr e => e.toks | .simple s => s.toks | .args a => a.toks | .optExpr o => o.toks
  | .execStr s => [literal .kString (.str s)] | .execVar n => [Spec.ident n] | .path p => p.toks | .ident i => i.toks
  | .new n => n.toks | .ternary c x y => (Expr.ternary c x y).toks | .source s => s.toks | .label n => [named .kGoToLabel n]
  | .stmt s => s.toks | .ifS s => s.toks | .loop s => s.toks | .tryS s => s.toks | .elifs e => e.toks | .els e => e.toks
  | .body b => b.toks | .block b => b.toks | .optStmt o => o.toks | .sep p => [p.tok] | .semi => [word .semi]
  | .colon => [word .colon] | .comma => [word .comma] | .dot => [word .dot] | .mid _ => []
  | .exp b => exportToks b | .dir d => directiveToks d | .names n => n.toks | .varsL l => varsToks l | .optVars l => varsToks l
  | .param p => p.toks | .params p => p.toks | .gvars v => v.toks | .func f => f.toks | .part p => p.toks
  | .parts l => l.flatMap Part.toks | .prog P => P.toks

/-! Projections. -/
namespace Syn
def k : Syn → Key | .tok k => k | _ => word .semi
def n (y : Syn) : Name := y.k.name
def str (y : Syn) : List Char := match y.k.val with | .str s => s | _ => []
def num (y : Syn) : Option F64 := match y.k.val with | .num x => some x | _ => none
def date (y : Syn) : Option Time := match y.k.val with | .date t => some t | _ => none
def e : Syn → Expr | .expr e => e | _ => .goto []
def s : Syn → Simple | .simple s => s | _ => .undef
def o : Syn → OptExpr | .optExpr o => o | _ => .none
def a : Syn → Args | .args a => a | _ => .one .none
def i : Syn → Ident | .ident i => i | _ => .name []
def p : Syn → Path | .path p => p | _ => .one (.name [])
def nw : Syn → New | .new n => n | _ => .name []
def tern (f : Expr → Expr → Expr → Syn) : Syn → Syn | .ternary c x y => f c x y | y => y
def src : Syn → Source | .source s => s | _ => .new (.name [])
def lab : Syn → Name | .label n => n | _ => []
def st : Syn → Stmt | .stmt s => s | .ifS s => s | .loop s => s | .tryS s => s | _ => .cont
def el : Syn → Elifs | .elifs e => e | _ => .nil
def es : Syn → Else | .els e => e | _ => .none
def bd : Syn → Body | .body b => b | _ => .one .cont
def bl : Syn → Block | .block b => b | _ => .empty
def os : Syn → OptStmt | .optStmt o => o | _ => .none
def sp : Syn → Sep | .sep p => p | _ => .semi
def ex : Syn → Bool | .exp b => b | _ => false
def d : Syn → Option Name | .dir d => d | _ => none
def ns : Syn → Names | .names n => n | _ => ⟨[], []⟩
def vl : Syn → List Names | .varsL l => l | .optVars l => l | _ => []
def pa : Syn → ParamD | .param p => p | _ => ⟨false, [], []⟩
def ps : Syn → ParamsD | .params p => p | _ => ⟨none, []⟩
def gv : Syn → VarsD | .gvars v => v | _ => ⟨none, ⟨[], []⟩, false⟩
def fn : Syn → FuncD | .func f => f | _ => ⟨none, false, [], ⟨none, []⟩, false, [], .empty⟩
def pt : Syn → Part | .part p => p | _ => .vars ⟨none, ⟨[], []⟩, false⟩
def pl : Syn → List Part | .parts l => l | _ => []
end Syn

/-- The syntax of a production from the syntax of its right side. -/
def build (p : Nat) (ys : List Syn) : Syn :=
  let y : Nat → Syn := fun i => ys.getD (i - 1) .semi
  match p with
  | 1 => .prog ⟨[], .empty⟩
  | 2 => .prog ⟨[], .body (y 1).bd⟩
  | 3 => .prog ⟨(y 1).pl, (y 2).bl⟩
  | 4 => .parts [(y 1).pt]
  | 5 => .parts ((y 1).pl ++ [(y 2).pt])
  | 6 => .part (.vars (y 1).gv)
  | 7 => .part (.func (y 1).fn)
  | 8 => .dir none
  | 9 => .dir (some (y 1).n)
  | 10 => .exp false
  | 11 => .exp true
  | 12 => .gvars ⟨(y 1).d, (y 3).ns, (y 4).ex⟩
  | 13 => .mid 137
  | 14 => .func ⟨(y 1).d, true, (y 3).n, (y 5).ps, (y 7).ex, (y 9).vl, (y 10).bl⟩
  | 15 => .func ⟨(y 1).d, false, (y 3).n, (y 5).ps, (y 7).ex, (y 8).vl, (y 9).bl⟩
  | 16 => .block .empty
  | 17 => .block (.body (y 1).bd)
  | 18 => .body (.one (y 1).st)
  | 19 => .body (.sep (y 1).bl (y 2).sp (y 3).os)
  | 20 => .optStmt .none
  | 21 => .optStmt (.some (y 1).st)
  | 22 => .sep .semi
  | 23 => .sep .colon
  | 24 => .optVars []
  | 25 => .optVars (y 1).vl
  | 26 => .varsL [(y 2).ns]
  | 27 => .varsL ((y 1).vl ++ [(y 3).ns])
  | 28 => .ifS (.ifS (y 2).e (y 4).bl (y 5).el (y 6).es)
  | 29 => .elifs .nil
  | 30 => .elifs (.cons (y 2).e (y 4).bl (y 5).el)
  | 31 => .els .none
  | 32 => .els (.some (y 2).bl)
  | 33 => .ternary (y 3).e (y 5).e (y 7).e
  | 34 => .mid 138
  | 35 => .loop (.forEach (y 3).n (y 5).src (y 8).bl)
  | 36 => .mid 139
  | 37 => .loop (.forTo (y 2).e (y 4).e (y 7).bl)
  | 38 => .mid 140
  | 39 => .loop (.while (y 2).e (y 5).bl)
  | 40 => .source (.path (y 1).p)
  | 41 => .source (.new (y 1).nw)
  | 42 => .source (.parenNew (y 2).nw)
  | 43 => (y 1).tern fun c a b => .source (.ternary c a b)
  | 44 => .stmt (.assign (y 1).p (y 3).e)
  | 45 => .stmt (.expr (y 1).e)
  | 46 => .stmt (y 1).st
  | 47 => .stmt (y 1).st
  | 48 => .stmt (y 1).st
  | 49 => .stmt .cont
  | 50 => .stmt .brk
  | 51 => .stmt (.throw (y 2).o)
  | 52 => .stmt (.ret (y 2).o)
  | 53 => .path (.one (y 1).i)
  | 54 => .path (.dot (y 1).p (y 3).i)
  | 55 => .ident (.name (y 1).n)
  | 56 => .ident (.call (y 1).n (y 3).a)
  | 57 => .ident (.index (y 1).i (y 3).e)
  | 58 => match y 2 with
    | .execStr s => .ident (.execStr (y 1).n s)
    | .execVar n => .ident (.execVar (y 1).n n)
    | y => y
  | 59 => .ident (.exec (y 1).n (y 3).e)
  | 60 => .execStr (y 1).str
  | 61 => .execVar (y 1).n
  | 62 => .mid 142
  | 63 => .tryS (.tryS (y 2).bl (y 5).bl)
  | 64 => .expr (.simple (y 1).s)
  | 65 => .expr (.paren (y 2).a)
  | 66 => .expr (.bin .plus (y 1).e (y 3).e)
  | 67 => .expr (.bin .minus (y 1).e (y 3).e)
  | 68 => .expr (.bin .mul (y 1).e (y 3).e)
  | 69 => .expr (.bin .div (y 1).e (y 3).e)
  | 70 => .expr (.bin .mod (y 1).e (y 3).e)
  | 71 => .expr (.bin .gt (y 1).e (y 3).e)
  | 72 => .expr (.bin .lt (y 1).e (y 3).e)
  | 73 => .expr (.bin .eq (y 1).e (y 3).e)
  | 74 => .expr (.bin .or (y 1).e (y 3).e)
  | 75 => .expr (.bin .and (y 1).e (y 3).e)
  | 76 => .expr (.bin .ne (y 1).e (y 3).e)
  | 77 => .expr (.bin .le (y 1).e (y 3).e)
  | 78 => .expr (.bin .ge (y 1).e (y 3).e)
  | 79 => .expr (.not (y 2).e)
  | 80 => .expr (.new (y 1).nw)
  | 81 => .expr (.goto (y 2).lab)
  | 82 => (y 1).tern fun c a b => .expr (.ternary c a b)
  | 83 => .expr (.path (y 1).p)
  | 84 => .optExpr .none
  | 85 => .optExpr (.some (y 1).e)
  | 86 => .args (.one (y 1).o)
  | 87 => .args (.more (y 1).a (y 3).o)
  | 88 => .simple (.str (y 1).str)
  | 89 => match (y 1).num with
    | some x => .simple (.num x)
    | none => .simple .undef
  | 90 => .simple (.neg (y 2).e)
  | 91 => .simple (.pos (y 2).e)
  | 92 => .simple (.bool true)
  | 93 => .simple (.bool false)
  | 94 => match (y 1).date with
    | some t => .simple (.date t)
    | none => .simple .undef
  | 95 => .simple .undef
  | 96 => .simple (.label (y 1).lab)
  | 97 => .param ⟨false, (y 1).n, []⟩
  | 98 => .param ⟨true, (y 2).n, []⟩
  | 99 => .param ⟨(y 1).pa.byVal, (y 1).pa.name, (y 1).pa.defaults ++ [(y 3).s]⟩
  | 100 => .params ⟨none, []⟩
  | 101 => .params ⟨some (y 1).pa, []⟩
  | 102 => .params ⟨(y 1).ps.first, (y 1).ps.rest ++ [(y 3).pa]⟩
  | 103 => .new (.name (y 2).n)
  | 104 => .new (.call (y 2).n (y 4).a)
  | 105 => .new (.args (y 3).a)
  | 106 => .label (y 1).n
  | 107 => .names ⟨(y 1).n, []⟩
  | 108 => .names ⟨(y 1).ns.first, (y 1).ns.rest ++ [(y 3).n]⟩
  | 109 => .semi
  | 110 => .colon
  | 111 => .comma
  | _ => .dot

mutual
/-- The syntax of a tree. -/
def Tree.read : Tree → Syn
  | .leaf k t => .tok (key (k, t))
  | .node p kids => build p (readL kids)
def readL : List Tree → List Syn
  | [] => []
  | t :: ts => t.read :: readL ts
end

end Verif.LR
