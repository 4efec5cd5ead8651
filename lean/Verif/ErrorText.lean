import Verif.Ast
import Verif.JsonText
/-!
# Model: the texts of errors

`Parse` returns an `error`; all that a caller sees of it is its text.
-/
namespace Verif
namespace ErrorText

/-- `%d`. -/
def showInt (n : Int) : List Char := (if n < 0 then ['-'] else []) ++ Nat.toDigits 10 n.natAbs

/-- `n` in hexadecimal, `k` digits. -/
def hex : Nat → Nat → List Char
  | 0, _ => []
  | k + 1, n => hex k (n / 16) ++ [hexChar (n % 16)]

/-- One character of `%q` (`strconv.appendEscapedRune`, quote `"`, neither ASCII nor graphic only).  `isPrint` is `strconv.IsPrint`,
whose table is not copied: the theorems hold for any. -/
def escape (isPrint : Char → Bool) (c : Char) : List Char :=
  if c = '"' ∨ c = '\\' then ['\\', c]
  else if isPrint c then [c]
  else if c = '\x07' then ['\\', 'a']
  else if c = '\x08' then ['\\', 'b']
  else if c = '\x0c' then ['\\', 'f']
  else if c = '\n' then ['\\', 'n']
  else if c = '\r' then ['\\', 'r']
  else if c = '\t' then ['\\', 't']
  else if c = '\x0b' then ['\\', 'v']
  else if c.toNat < 0x20 ∨ c.toNat = 0x7f then '\\' :: 'x' :: hex 2 c.toNat
  else if c.toNat < 0x10000 then '\\' :: 'u' :: hex 4 c.toNat
  else '\\' :: 'U' :: hex 8 c.toNat

/-- `%q` of a string (`strconv.Quote`).  The strings the parser puts here are made of characters (`Utf8`: broken bytes have become
U+FFFD), so that the escape for broken bytes does not occur. -/
def quote (isPrint : Char → Bool) (s : List Char) : List Char := '"' :: (s.flatMap (escape isPrint) ++ ['"'])

/-- The messages handed to `AstNode.Error`: `/repo/ast/y.go:453` (`yyErrorVerbose` is false), `/repo/ast/ast.go:85`, 93, 107,
`/repo/ast/grammar.y:154`, `/repo/ast/ast.go:152` with 27 and `/repo/ast/ast_struct.go:304`, 295, 318. -/
def msgText (isPrint : Char → Bool) : Msg → List Char
  | .syntaxError => "syntax error".toList
  | .loopOp l => "operator ".toList ++ (quote isPrint l ++ " can only be used inside a loop".toList)
  | .throwOp l => "operator ".toList ++ (quote isPrint l ++ " without arguments can only be used when handling an exception".toList)
  | .procReturn => "procedure cannot return a value".toList
  | .semicolon => "semicolon (;) is expected".toList
  | .dupVar n => "variable has already been defined: with the specified name ".toList ++ quote isPrint n
  | .varOrder => "variable declarations must be placed at the beginning of the module".toList
  | .funcOrder => "procedure and function definitions should be placed before the module body statements".toList

/-- The errors of `Token.next`: `/repo/ast/tokens.go:222`, 237, 272, 277, 397, 165.  The texts of errors of `strconv.ParseFloat` and
`time.Parse` are not modelled (`none`). -/
def lexText (isPrint : Char → Bool) : Lexer.LexErr → Option (List Char)
  | .badChar c => some ("syntax error ".toList ++ quote isPrint [c])
  | .unexpectedEOL => some "unexpected EOL".toList
  | .unexpectedEOF => some "unexpected EOF".toList
  | .identAfterNumber => some "identifier immediately follow the number".toList
  | .emptyDate => some "incorrect Date type constant".toList
  | .badNumber => none
  | .badDate => none

/-- The text of the error: `/repo/ast/ast.go:79` (`AstNode.Error`), and for errors of the tokeniser `/repo/ast/ast.go:60`
(`errors.Wrap(err, "get token error")`, text `message: text of err`). -/
def errText (isPrint : Char → Bool) : Err → Option (List Char)
  | .lex e => (lexText isPrint e).map ("get token error: ".toList ++ ·)
  | .at m line column literal => some (msgText isPrint m ++ (". line: ".toList ++ (showInt line ++ (", column: ".toList ++
      (showInt column ++ (" (unexpected literal: ".toList ++ (quote isPrint literal ++ [')'])))))))

end ErrorText
end Verif
