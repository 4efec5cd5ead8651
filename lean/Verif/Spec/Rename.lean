import Verif.Spec.Syntax
import Verif.Parser
/-!
# Specification: renaming

A renaming says what becomes of names and constants; it acts on the tokens of a text and on syntax trees.
-/
namespace Verif
open Spec

/-- Other names and constants. -/
structure Spec.Renaming where
  /-- identifiers (variables, procedures, parameters, members, types) and the word `Выполнить` as written -/
  name : Name → Name
  /-- labels -/
  label : Name → Name
  /-- compilation directives -/
  directive : Name → Name
  num : F64 → F64
  str : List Char → List Char
  date : Time → Time

namespace Spec

/-- Different names stay different; the missing name and the missing directive (empty strings in the tree) stay missing; a sign
in front of a number may be applied before or after. -/
structure Renaming.Ok (ρ : Renaming) : Prop where
  inj : Function.Injective ρ.name
  noName : ρ.name [] = []
  noDirective : ρ.directive [] = []
  negate : ∀ x, ρ.num x.negate = (ρ.num x).negate

/-- Nothing changes. -/
def Renaming.none : Renaming := ⟨id, id, id, id, id, id⟩

def Renaming.val (ρ : Renaming) : Val → Val
  | .nil => .nil
  | .num x => .num (ρ.num x)
  | .str s => .str (ρ.str s)
  | .bool b => .bool b
  | .date t => .date (ρ.date t)

/-- On tokens: keywords, operators and punctuation stay. -/
def Renaming.key (ρ : Renaming) (k : Key) : Key :=
  if k.kind = Terminal.ktoken_identifier.kind ∨ k.kind = Terminal.kExecute.kind then { k with name := ρ.name k.name }
  else if k.kind = Terminal.kGoToLabel.kind then { k with name := ρ.label k.name }
  else if k.kind = Terminal.kDirective.kind then { k with name := ρ.directive k.name }
  else { k with val := ρ.val k.val }

/-- The variable of a loop: in `Для Каждого x Из y` (there is a `y`) the tree has the name `x` as a Go string, in
`Для x = … По …` it has a statement. -/
def Renaming.loopVar (ρ : Renaming) (renamed : Stm) : Stm → Stm → Stm
  | .str _, .nil => renamed
  | .str n, _ => .str (ρ.name n)
  | _, _ => renamed

end Spec

mutual
/-- On trees. -/
def Stm.rename (ρ : Renaming) : Stm → Stm
  | .nil => .nil
  | .num x => .num (ρ.num x)
  | .str s => .str (ρ.str s)
  | .bool b => .bool b
  | .date t => .date (ρ.date t)
  | .undef => .undef
  | .var n u o => .var (ρ.name n) u o
  | .chain a b u o => .chain (a.rename ρ) (b.rename ρ) u o
  | .method n ps o => .method (ρ.name n) (Stm.renameL ρ ps) o
  | .item i o => .item (i.rename ρ) (o.rename ρ)
  | .ternary c t e => .ternary (c.rename ρ) (t.rename ρ) (e.rename ρ)
  | .new n ps => .new (ρ.name n) (Stm.renameL ρ ps)
  | .assign v es => .assign (v.rename ρ) (Stm.renameL ρ es)
  | .bin op l r u o => .bin op (l.rename ρ) (r.rename ρ) u o
  | .exprs l o => .exprs (Stm.renameL ρ l) o
  | .ifS c t ei e => .ifS (c.rename ρ) (Stm.renameL ρ t) (Stm.renameL ρ ei) (Stm.renameL ρ e)
  | .tryS b c => .tryS (Stm.renameL ρ b) (Stm.renameL ρ c)
  | .throw p => .throw (p.rename ρ)
  | .ret p => .ret (p.rename ρ)
  | .brk => .brk
  | .cont => .cont
  | .loop f t i w b => .loop (ρ.loopVar (f.rename ρ) f i) (t.rename ρ) (i.rename ρ) (w.rename ρ) (Stm.renameL ρ b)
  | .goto n => .goto (ρ.label n)
  | .label n => .label (ρ.label n)
def Stm.renameL (ρ : Renaming) : List Stm → List Stm
  | [] => []
  | s :: l => s.rename ρ :: Stm.renameL ρ l
end

def Param.rename (ρ : Renaming) (p : Param) : Param := ⟨p.default.rename ρ, ρ.name p.name, p.isValue⟩

def FuncDecl.rename (ρ : Renaming) (f : FuncDecl) : FuncDecl :=
  { f with vars := f.vars.map (List.map ρ.name), name := ρ.name f.name, directive := ρ.directive f.directive,
           body := f.body.map (Stm.rename ρ), params := f.params.map (Param.rename ρ) }

def GVar.rename (ρ : Renaming) (g : GVar) : GVar := { g with directive := ρ.directive g.directive, name := ρ.name g.name }

def Item.rename (ρ : Renaming) : Item → Item
  | .func f => .func (f.rename ρ)
  | .stm s => .stm (s.rename ρ)

def Module.rename (ρ : Renaming) (m : Module) : Module := ⟨m.globals.map (GVar.rename ρ), m.body.map (Item.rename ρ)⟩

/-- What an error complains about, with the names changed: place and spelling of the token aside. -/
def Spec.Renaming.fault (ρ : Renaming) : Err → Option Msg
  | .lex _ => .none
  | .at (.dupVar n) _ _ _ => some (.dupVar (ρ.name n))
  | .at (.loopOp _) _ _ _ => some (.loopOp [])
  | .at (.throwOp _) _ _ _ => some (.throwOp [])
  | .at m _ _ _ => some m

/-- The second call did the same as the first one, with other names and constants: both returned, the tree of the second is the
renamed tree of the first, and both succeeded or both failed with the same complaint; or both panicked. -/
inductive Spec.Renaming.Outcomes (ρ : Renaming) : Outcome → Outcome → Prop
  | ret {a a' : Ast} : a'.mod = a.mod.rename ρ → a'.err.map Renaming.none.fault = a.err.map ρ.fault → Outcomes ρ (.ret a) (.ret a')
  | panic (p : Panic) : Outcomes ρ (.panic p) (.panic p)

end Verif
