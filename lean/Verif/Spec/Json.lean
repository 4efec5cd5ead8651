import Verif.Ast
import Mathlib.Data.List.Forall2
/-!
# Specification: what JSON keeps

`plain s`: what is left of a statement.
-/
namespace Verif.Spec

/-- RFC 3339. -/
def rfc3339 (t : Time) : List Char :=
  Time.pad 4 t.year ++ ['-'] ++ Time.pad 2 t.month ++ ['-'] ++ Time.pad 2 t.day ++ ['T'] ++
    Time.pad 2 t.hour ++ [':'] ++ Time.pad 2 t.min ++ [':'] ++ Time.pad 2 t.sec ++ ['Z']

mutual
/-- Lost: signs and `Не`; the difference between a date and its text, between `Прервать`, `Продолжить` and `Неопределено`,
between a label and a name, and between `ВызватьИсключение` and `Возврат`. -/
def plain : Stm → Stm
  | .nil => .nil
  | .num x => .num x
  | .str s => .str s
  | .bool b => .bool b
  | .date t => .str (rfc3339 t)
  | .undef => .undef
  | .var n _ _ => .var n false false
  | .chain u c _ _ => .chain (plain u) (plain c) false false
  | .method n ps _ => .method n (plainL ps) false
  | .item i o => .item (plain i) (plain o)
  | .ternary c t e => .ternary (plain c) (plain t) (plain e)
  | .new c ps => .new c (plainL ps)
  | .assign v l => .assign (plain v) (plainL l)
  | .bin op l r _ _ => .bin op (plain l) (plain r) false false
  | .exprs l _ => .exprs (plainL l) false
  | .ifS c tb elifs els => .ifS (plain c) (plainL tb) (plainElifs elifs) (plainL els)
  | .tryS b c => .tryS (plainL b) (plainL c)
  | .throw p => .ret (plain p)
  | .ret p => .ret (plain p)
  | .brk => .undef
  | .cont => .undef
  | .loop f t i w body => .loop (plain f) (plain t) (plain i) (plain w) (plainL body)
  | .goto n => .goto n
  | .label n => .var n false false
def plainL : List Stm → List Stm
  | [] => []
  | s :: l => plain s :: plainL l
/-- `ИначеЕсли` branches have neither `ИначеЕсли` nor `Иначе` themselves. -/
def plainElifs : List Stm → List Stm
  | [] => []
  | .ifS c tb _ _ :: l => .ifS (plain c) (plainL tb) [] [] :: plainElifs l
  | _ :: l => .nil :: plainElifs l
end

/-- Parameters that differ at most in what is lost of the default value. -/
def SameParam (p q : Param) : Prop := p.name = q.name ∧ p.isValue = q.isValue ∧ plain p.default = plain q.default

/-- The same local variables (in any order: the tree holds them in a map), or no map. -/
inductive SameVars : Option (List (List Char)) → Option (List (List Char)) → Prop
  | none : SameVars none none
  | some {l l'} : l.Perm l' → SameVars (some l) (some l')

/-- Elements of a module body that differ at most in what is lost. -/
inductive SameItem : Item → Item → Prop
  | stm {s t} : plain s = plain t → SameItem (.stm s) (.stm t)
  | func {f g : FuncDecl} : f.name = g.name → f.directive = g.directive → f.isFunc = g.isFunc → f.export = g.export →
      SameVars f.vars g.vars → List.Forall₂ SameParam f.params g.params → plainL f.body = plainL g.body → SameItem (.func f) (.func g)

/-- Modules that differ at most in what is lost (module variables in any order: they are held in a map). -/
structure SameModule (m m' : Module) : Prop where
  globals : m.globals.Perm m'.globals
  body : List.Forall₂ SameItem m.body m'.body

/-- The variables are held in maps: no name twice. -/
structure Distinct (m : Module) : Prop where
  globals : (m.globals.map GVar.name).Nodup
  locals : ∀ f, .func f ∈ m.body → ∀ l, f.vars = some l → l.Nodup

end Verif.Spec
