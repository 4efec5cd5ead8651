import Verif.Print
/-!
# Specification: the lines of printed code

Which lines the printed code of a module has, and how deep each of them is nested.  The texts of expressions (`prE`, `pr .var`)
and of statements without blocks (`PrintStatementWithConf`) do not depend on the layout and are taken from the model.
-/
namespace Verif.Spec

/-- A line: nesting depth and text. -/
structure Line where
  depth : Nat
  text : List Char
deriving DecidableEq, Repr

/-- The line with its indentation: `margin` spaces for every level. -/
def Line.indented (margin : Nat) (l : Line) : List Char := List.replicate (margin * l.depth) ' ' ++ l.text

/-- The text behind a line goes on with a line break, if at all. -/
def Breaks (s : List Char) : Prop := ∀ c r, s = c :: r → c = '\n'

/-- `Arranged margin ls s`: the text `s` consists of the lines `ls` in this order, each with its indentation, with at least one line
break between two lines (more than one: blank lines) and any number of line breaks at the beginning and at the end. -/
inductive Arranged (margin : Nat) : List Line → List Char → Prop
  | done (n : Nat) : Arranged margin [] (List.replicate n '\n')
  | line (n : Nat) (l : Line) {ls : List Line} {s : List Char} : Arranged margin ls s → Breaks s →
      Arranged margin (l :: ls) (List.replicate n '\n' ++ (l.indented margin ++ s))

/-- The head of a loop. -/
def loopHead (f to i w : Stm) : List Char :=
  match w, i, to with
  | .nil, .nil, .nil => "Для ".toList
  | .nil, .nil, to => "Для ".toList ++ prE f ++ " По ".toList ++ prE to ++ " Цикл ".toList
  | .nil, i, _ => "Для Каждого ".toList ++ forName f ++ " Из ".toList ++ prE i ++ " Цикл ".toList
  | w, _, _ => "Пока ".toList ++ prE w ++ " Цикл ".toList

mutual
/-- The lines of a statement at depth `d`: the statements of its blocks are one level deeper, the words between the blocks are not. -/
def lines (d : Nat) : Stm → List Line
  | .ifS c tb elifs els => ⟨d, "Если ".toList ++ prE c ++ " Тогда ".toList⟩ :: (blockLines (d + 1) tb ++ (elifLines d elifs ++
      ((if els.isEmpty then [] else ⟨d, "Иначе ".toList⟩ :: blockLines (d + 1) els) ++ [⟨d, "КонецЕсли;".toList⟩])))
  | .loop f to i w body => ⟨d, loopHead f to i w⟩ :: (blockLines (d + 1) body ++ [⟨d, "КонецЦикла;".toList⟩])
  | .tryS b h => ⟨d, "Попытка".toList⟩ :: (blockLines (d + 1) b ++ (⟨d, "Исключение".toList⟩ :: (blockLines (d + 1) h ++
      [⟨d, "КонецПопытки;".toList⟩])))
  | s => [⟨d, printItem ⟨0, true⟩ 0 s⟩]
/-- The lines of a block. -/
def blockLines (d : Nat) : List Stm → List Line
  | [] => []
  | s :: l => lines d s ++ blockLines d l
/-- The lines of the `ИначеЕсли` branches of a statement at depth `d`. -/
def elifLines (d : Nat) : List Stm → List Line
  | [] => []
  | .ifS c tb _ _ :: l => ⟨d, "ИначеЕсли ".toList ++ prE c ++ " Тогда ".toList⟩ :: (blockLines (d + 1) tb ++ elifLines d l)
  | _ :: l => elifLines d l
end

/-- A directive stands on a line of its own. -/
def directiveLines (dir : List Char) : List Line := if dir = [] then [] else [⟨0, dir⟩]

/-- The lines of a declaration of a module variable. -/
def globalLines (g : GVar) : List Line :=
  directiveLines g.directive ++
    [⟨0, "Перем ".toList ++ g.name ++ (if g.export then " Экспорт ;".toList else ";".toList)⟩]

/-- The text of a parameter. -/
def paramText (p : Param) : List Char :=
  (if p.isValue then "Знач ".toList else []) ++ p.name ++
    (if pr .var p.default = [] then [] else " = ".toList ++ pr .var p.default)

/-- The head of a procedure or function. -/
def headText (f : FuncDecl) : List Char :=
  (if f.isFunc then "Функция ".toList else "Процедура ".toList) ++ f.name ++ ['('] ++
    ([',', ' '].intercalate (f.params.map paramText)) ++ ") ".toList ++ (if f.export then "Экспорт ".toList else [])

/-- The lines of a procedure or function. -/
def funcLines (f : FuncDecl) : List Line :=
  directiveLines f.directive ++ (⟨0, headText f⟩ :: (blockLines 1 f.body ++
    [⟨0, if f.isFunc then "КонецФункции ".toList else "КонецПроцедуры ".toList⟩]))

/-- The lines of an element of the module. -/
def itemLines : Item → List Line
  | .func f => funcLines f
  | .stm s => lines 0 s

/-- The lines of a module whose variables are declared in the order `gs`. -/
def moduleLines (gs : List GVar) (m : Module) : List Line :=
  if m.body.isEmpty then [] else gs.flatMap globalLines ++ m.body.flatMap itemLines

/-- Put a character in front of the first line. -/
def toFirst (c : Char) : List (List Char) → List (List Char)
  | [] => [[c]]
  | l :: ls => (c :: l) :: ls

/-- A text cut at its line breaks. -/
def cut : List Char → List (List Char)
  | [] => [[]]
  | c :: s => if c = '\n' then [] :: cut s else toFirst c (cut s)

/-- The lines of a text that are not empty. -/
def textLines (s : List Char) : List (List Char) := (cut s).filter fun l => !l.isEmpty

end Verif.Spec
