import Verif.Parser
import Verif.Spec.Tokens
import Verif.Spec.Space
import Verif.Spec.Rules
/-!
# Specification: texts and programs
-/
namespace Verif.Spec
open Lexer

/-- The text is the program `P`: its tokens are those of `P`, and `P` groups operators by precedence. -/
def Spells [Letters] (code : List Char) (P : Program) : Prop :=
  (∃ l, TokensOf code l ∧ l.map key = P.toks) ∧ P.grouped

/-- The text has a character that is not white space. -/
def NotBlank (code : List Char) : Prop := ∃ c ∈ code, c.toNat ∉ whiteSpace

/-- `Parse` of a fresh `AstNode` for this text returns nil and leaves the module `M`. -/
def Accepts [Letters] (code : List Char) (M : Module) : Prop :=
  ∃ a, parse (newAST code) = .ret a ∧ a.err = none ∧ a.mod = M

/-- The rules beyond the grammar. -/
structure Program.Lawful (P : Program) : Prop where
  /-- `Прервать` and `Продолжить` inside loops -/
  loops : P.loopsOk
  /-- `ВызватьИсключение` without value inside handlers -/
  throws : P.throwsOk
  /-- `Возврат` with value inside functions -/
  returns : P.returnsOk
  /-- `:` only after labels -/
  colons : P.colonsOk
  /-- no variable declared twice -/
  distinct : P.distinct
  /-- module variables first -/
  ordered : P.ordered

/-! ## Expressions in a row -/

/-- An operand: a grouped expression that is not itself a binary operation or a `Не`; signs, names, literals, calls,
elements, parentheses, `?()`, `Новый`. -/
def Operand (e : Expr) : Prop := e.grouped ∧ ∀ n ≤ 10, e.closes n ∧ e.opens n

/-- The program that consists of the single statement `s`. -/
def single (s : Stmt) : Program := ⟨[], .body (.one s)⟩

/-- The texts whose tokens are these. -/
def HasKeys [Letters] (code : List Char) (ks : List Key) : Prop := ∃ l, TokensOf code l ∧ l.map key = ks

/-- Trees that have a place for a minus sign which is not yet set. -/
inductive ShowsMinus : Stm → Prop
  | num (x : F64) : ShowsMinus (.num x)
  | bin (op : Op) (l r : Stm) (n : Bool) : ShowsMinus (.bin op l r false n)
  | var (s : List Char) (n : Bool) : ShowsMinus (.var s false n)
  | chain (u c : Stm) (n : Bool) : ShowsMinus (.chain u c false n)

/-- Trees that have a place for `Не` which is not yet set. -/
inductive ShowsNot : Stm → Prop
  | bool (b : Bool) : ShowsNot (.bool b)
  | bin (op : Op) (l r : Stm) (u : Bool) : ShowsNot (.bin op l r u false)
  | exprs (l : List Stm) : ShowsNot (.exprs l false)
  | var (s : List Char) (u : Bool) : ShowsNot (.var s u false)
  | chain (a c : Stm) (u : Bool) : ShowsNot (.chain a c u false)
  | method (s : List Char) (p : List Stm) : ShowsNot (.method s p false)

end Verif.Spec
