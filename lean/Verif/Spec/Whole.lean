import Verif.Spec.Text
import Verif.Spec.Program
/-!
# Specification: trees without missing parts

`N a n`: the name `n` may come from a token of class `a`.  `V v`: the constant `v` may occur.
-/
namespace Verif
open Spec

mutual
/-- Every part that the syntax of the statement requires is there, names and constants are allowed ones. -/
def Stm.whole (N : Terminal → Name → Prop) (V : Val → Prop) : Stm → Prop
  | .nil => False
  | .num x => V (.num x)
  | .str s => V (.str s)
  | .bool b => V (.bool b)
  | .date t => V (.date t)
  | .undef => True
  | .var n _ _ => N .ktoken_identifier n
  | .chain u c _ _ => u.whole N V ∧ c.whole N V
  | .method n ps _ => (N .ktoken_identifier n ∨ N .kExecute n) ∧ Stm.wholeO N V ps
  | .item i o => i.whole N V ∧ o.whole N V
  | .ternary c t e => c.whole N V ∧ t.whole N V ∧ e.whole N V
  | .new n ps => (n = [] ∨ N .ktoken_identifier n) ∧ Stm.wholeO N V ps
  | .assign v es => v.whole N V ∧ es.length = 1 ∧ Stm.wholeL N V es
  | .bin _ l r _ _ => l.whole N V ∧ r.whole N V
  | .exprs l _ => Stm.wholeO N V l
  | .ifS c t ei e => c.whole N V ∧ Stm.wholeL N V t ∧ Stm.wholeE N V ei ∧ Stm.wholeL N V e
  | .tryS b c => Stm.wholeL N V b ∧ Stm.wholeL N V c
  | .throw p => p = .nil ∨ p.whole N V
  | .ret p => p = .nil ∨ p.whole N V
  | .brk => True
  | .cont => True
  -- exactly one of: `Для Каждого name Из i`, `Для f По tl`, `Пока w`
  | .loop f tl i w b => Stm.wholeL N V b ∧
      (((∃ n, f = .str n ∧ N .ktoken_identifier n) ∧ tl = .nil ∧ i.whole N V ∧ w = .nil) ∨
       (f.whole N V ∧ tl.whole N V ∧ i = .nil ∧ w = .nil) ∨
       (f = .nil ∧ tl = .nil ∧ i = .nil ∧ w.whole N V))
  | .goto n => N .kGoToLabel n
  | .label n => N .kGoToLabel n
/-- Statements of a block. -/
def Stm.wholeL (N : Terminal → Name → Prop) (V : Val → Prop) : List Stm → Prop
  | [] => True
  | s :: l => s.whole N V ∧ Stm.wholeL N V l
/-- Lists whose elements may be missing (`Ф(а, , б)`). -/
def Stm.wholeO (N : Terminal → Name → Prop) (V : Val → Prop) : List Stm → Prop
  | [] => True
  | s :: l => (s = .nil ∨ s.whole N V) ∧ Stm.wholeO N V l
/-- `ИначеЕсли` branches: conditions with a block. -/
def Stm.wholeE (N : Terminal → Name → Prop) (V : Val → Prop) : List Stm → Prop
  | [] => True
  | .ifS c t ei e :: l => (c.whole N V ∧ Stm.wholeL N V t ∧ ei = [] ∧ e = []) ∧ Stm.wholeE N V l
  | _ :: _ => False
end

/-- The same for procedures and functions. -/
structure FuncDecl.Whole (N : Terminal → Name → Prop) (V : Val → Prop) (f : FuncDecl) : Prop where
  name : N .ktoken_identifier f.name
  directive : f.directive = [] ∨ N .kDirective f.directive
  vars : ∀ ks, f.vars = some ks → ∀ n ∈ ks, N .ktoken_identifier n
  params : ∀ p ∈ f.params, N .ktoken_identifier p.name ∧ (p.default = .nil ∨ p.default.whole N V)
  body : Stm.wholeL N V f.body

/-- The same for modules. -/
structure Module.Whole (N : Terminal → Name → Prop) (V : Val → Prop) (m : Module) : Prop where
  globals : ∀ g ∈ m.globals, N .ktoken_identifier g.name ∧ (g.directive = [] ∨ N .kDirective g.directive)
  funcs : ∀ f, Item.func f ∈ m.body → f.Whole N V
  stms : ∀ s, Item.stm s ∈ m.body → s.whole N V

namespace Spec
variable [Letters]

/-- The AstNode of the text `code` after `NewAST` and any number of calls of `Parse` that returned, with or without error. -/
inductive Parsed (code : List Char) : Ast → Prop
  | new : Parsed code (newAST code)
  | parse {a a' : Ast} : Parsed code a → Verif.parse a = .ret a' → Parsed code a'

/-- The token `k` is written somewhere in the text. -/
def WrittenIn (code : List Char) (k : Key) : Prop :=
  ∃ p w r dot F, code = p ++ (w ++ r) ∧ Lexeme dot w k F ∧ F r

/-- `v` is the constant `u` or its opposite (`-1`, `Не Истина`). -/
inductive UpToSign : Val → Val → Prop
  | same (u : Val) : UpToSign u u
  | minus (x : F64) : UpToSign (.num x.negate) (.num x)
  | not (b : Bool) : UpToSign (.bool !b) (.bool b)

/-- Constants that `json.Marshal` accepts: finite numbers, dates in the years 0 to 9999. -/
def Marshals : Val → Prop
  | .num x => Finite64 x
  | .date t => t.year ≤ 9999
  | _ => True

end Spec
end Verif
