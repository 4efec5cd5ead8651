/-!
# Specification: white space and positions
-/
namespace Verif.Spec

/-- The white space characters of Unicode. -/
def whiteSpace : List Nat :=
  [0x9, 0xA, 0xB, 0xC, 0xD, 0x20, 0x85, 0xA0, 0x1680, 0x2000, 0x2001, 0x2002, 0x2003, 0x2004, 0x2005, 0x2006, 0x2007,
   0x2008, 0x2009, 0x200A, 0x2028, 0x2029, 0x202F, 0x205F, 0x3000]

/-- `line` is the part of `pre` behind its last line feed. -/
inductive LastLine (pre line : List Char) : Prop
  | only : pre = line → '\n' ∉ line → LastLine pre line
  | after (before : List Char) : pre = before ++ '\n' :: line → '\n' ∉ line → LastLine pre line

/-- What stands behind `pre` is in this line (counted from 1) and column (counted from 0). -/
def At (pre : List Char) (line column : Int) : Prop :=
  line = 1 + (pre.count '\n' : Int) ∧ ∃ l, LastLine pre l ∧ column = (l.length : Int)

end Verif.Spec
