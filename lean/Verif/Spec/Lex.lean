/-!
# Specification of layout, words and keywords

Independent of the model: plain descriptions of texts.
-/
namespace Verif.Spec

/-- Blank characters of the language: space, tab, carriage return, line feed. -/
def Blank (c : Char) : Prop := c = ' ' ∨ c = '\t' ∨ c = '\r' ∨ c = '\n'

/-- Layout: blanks, `//` comments with their line feed, `#` lines with their line feed, in any order. -/
inductive Layout : List Char → Prop
  | nil : Layout []
  | blank {c w} : Blank c → Layout w → Layout (c :: w)
  | comment {t w} : '\n' ∉ t → Layout w → Layout ('/' :: '/' :: (t ++ '\n' :: w))
  | hash {t w} : '\n' ∉ t → Layout w → Layout ('#' :: (t ++ '\n' :: w))

/-- Layout that runs into the end of the text: the last comment or `#` line has no line feed. -/
inductive FinalLayout : List Char → Prop
  | layout {w} : Layout w → FinalLayout w
  | comment {w t} : Layout w → '\n' ∉ t → FinalLayout (w ++ '/' :: '/' :: t)
  | hash {w t} : Layout w → '\n' ∉ t → FinalLayout (w ++ '#' :: t)

/-- Decimal digits. -/
def Digit (c : Char) : Prop := c ∈ ['0', '1', '2', '3', '4', '5', '6', '7', '8', '9']

/-- Upper-case letters that the language folds, with their lower-case forms. -/
def caseTable : List (Char × Char) :=
  [('A','a'),('B','b'),('C','c'),('D','d'),('E','e'),('F','f'),('G','g'),('H','h'),('I','i'),('J','j'),
   ('K','k'),('L','l'),('M','m'),('N','n'),('O','o'),('P','p'),('Q','q'),('R','r'),('S','s'),('T','t'),
   ('U','u'),('V','v'),('W','w'),('X','x'),('Y','y'),('Z','z'),
   ('А','а'),('Б','б'),('В','в'),('Г','г'),('Д','д'),('Е','е'),('Ж','ж'),('З','з'),('И','и'),('Й','й'),
   ('К','к'),('Л','л'),('М','м'),('Н','н'),('О','о'),('П','п'),('Р','р'),('С','с'),('Т','т'),('У','у'),
   ('Ф','ф'),('Х','х'),('Ц','ц'),('Ч','ч'),('Ш','ш'),('Щ','щ'),('Ъ','ъ'),('Ы','ы'),('Ь','ь'),('Э','э'),
   ('Ю','ю'),('Я','я'),('Ё','ё')]

/-- Lower case of a character: by the table, everything else unchanged. -/
def lowerChar (c : Char) : Char :=
  match caseTable.lookup c with
  | some d => d
  | none => c

/-- The keywords of the language and their token numbers (`%token` order of grammar.y from 57346 on). -/
def keywordTable : List (String × Nat) :=
  [("процедура", 57348), ("перем", 57349), ("конецпроцедуры", 57350), ("если", 57351), ("тогда", 57352),
   ("иначеесли", 57353), ("иначе", 57354), ("конецесли", 57355), ("для", 57356), ("каждого", 57357),
   ("из", 57358), ("по", 57359), ("цикл", 57360), ("конеццикла", 57361), ("прервать", 57362),
   ("не", 57363), ("знач", 57364), ("пока", 57365), ("продолжить", 57367), ("попытка", 57368),
   ("исключение", 57369), ("конецпопытки", 57370), ("новый", 57373), ("функция", 57374),
   ("конецфункции", 57375), ("возврат", 57376), ("вызватьисключение", 57377), ("или", 57382),
   ("и", 57383), ("истина", 57384), ("ложь", 57385), ("неопределено", 57386), ("экспорт", 57387),
   ("перейти", 57389), ("выполнить", 57390)]

/-- The token number of a word that is not a keyword. -/
def identNumber : Nat := 57347

end Verif.Spec
