# Formal model of LazarenkoA/1c-language-parser — design

Source read: `/repo/ast/*.go`, `/repo/ast/grammar.y`, `/repo/ast/fast_tolower/gowrap.go`.
Properties: `properties.jsonl` (C01…). Status of each: `MANIFEST.json`. Lean project: `lean/`, all modules under `lean/Verif/`.

* `lean/Verif/*.lean` — the model; each definition cites the Go lines it models and names simplifications.
* `lean/Verif/Spec/*.lean` — small specifications, the vocabulary of the theorems. They do not use helpers of the model,
  except that `Tokens`, `Accepts`, `Prints` are about the modelled functions themselves (they have to be).
* `lean/Verif/Props/*.lean` — the property theorems `C??_*`, each with a concrete case that meets its hypotheses.
* `lean/Verif/Proofs/**` — lemmas.

## 1. What is modelled and how

| Go code | Lean module | how |
|---|---|---|
| `unicode/utf8.DecodeRuneInString` (library), `currentLet`, `nextLet`, `nextPos` on bytes | `Utf8` | byte lists, exact decoder including invalid bytes |
| `tokens.go` tokeniser (`Next`, `next`, all `scan*`, `skip*`, keyword and directive maps) | `Lexer` | functions on the not yet consumed suffix `List Char`; the suffix stands for `offset`. Lean's `Char` = Unicode scalar values = exactly the runes Go's decoder returns |
| the same functions of `tokens.go`, and `GetPosition`, statement by statement on bytes and `offset` | `ByteLexer` | C13 proves that it returns the tokens and positions of `Lexer`; a slice out of range would be the result `none` |
| `strconv.ParseFloat`, `%.0f`, unary minus on `float64` | `Float64` | exact IEEE-754 binary64, round to nearest even; overflow is an error |
| `time.Parse` for the three layouts, `Format("20060102150405")` | `Time` | calendar fields, exact range checks |
| `unicode.IsLetter` | class `Letters` (in `Lexer`) | a parameter: any table that is right on ASCII, contains А-я, Ё, ё and not U+FFFD. Theorems hold for every such table; examples use `StdLetters` |
| `ast_struct.go` types, `Append`, `UnaryMinus`, `Not` | `Ast`, `Parser` | inductive `Stm`; pointers and interfaces are values (see 5) |
| tables of `y.go` | `Tables` | generated from y.go by `tools/gen_tables.py`, row for row |
| driver `Parse` of `y.go`, `yylex1`, all actions, helpers of `ast.go`, `Parse`, `Lex`, `Error`, `GetPosition` | `Parser`, `Ast` | step function on an explicit stack **including the stale slots above the top of the value stack**, which the actions can read; explicit panics; EOF = -1 read as "no lookahead" and hence re-read; error recovery loop |
| the same driver and actions with blocks as Go slices: arrays in a heap, `append` in place or into a new array | `Memory` | C58 proves that the tree read from memory is that of `Parser`, for every growth policy |
| the tokeniser on bytes once more, counting the characters it decodes and the lines `currentLet` writes to standard output | `Work` | every call of `currentLet`, `nextLet`, `nextPos` in order; C71 proves that it returns what `ByteLexer` returns |
| the calls of `Error` along a run of the driver, and the characters `GetPosition` reads in each | `ErrorWork` | on top of `Parser`; C73 ties it to the errors that the rounds record |
| the driver reading its tokens from bytes: `NewAST(code)`, `Parse`, `Lex` on a Go string | `ByteParser` | C60 proves that it does what `Parser` does on the characters; actions and messages are those of `Parser` |
| `ast_print.go` | `Print` | to `List Char`; Go's map order is a parameter (any permutation) |
| texts of errors: `AstNode.Error` and its callers, `errors.Wrap`, `%q`, `%d` | `ErrorText` | `strconv.IsPrint` is a parameter; texts of errors of `ParseFloat` and `time.Parse` not modelled |
| `walkHelper`, `StatementWalk`, `Walk` | `Walk` | callback as a state-transforming function that may store a new statement |
| `IsMethod`, `Params` | `Calls` | on the values of `Ast` |
| `json.Marshal` of the module | `Json`, `JsonText` | JSON value tree; its text, with the escapes and number formats of encoding/json. Shortest decimals are specified by what strconv documents, not by its algorithm |
| `fastToLower`, `fastToLower_old`, C `fastToLower` | `ToLower` | byte level, the C one with its out-of-range reads |
| several goroutines, each with its own AstNode | `Concurrent`, `SharedMemory` | on values: interleaving of driver rounds; with blocks in one memory: interleaving of single reads, writes and allocations of arrays (sequentially consistent); a panic ends the process |

Not modelled: `PrintStatementWithConf`'s caller-supplied trees beyond what `Print` covers,
`yyDebug` output, `yyErrorVerbose` (both constants false/0), the mock package, the examples, speed (but see C71 and C73, which count characters) and memory (but see C68 and C84), the helpers `IsDigit` and `IF`, wrap-around of
`int32`/`int64` counters, stack overflow of Go.

### Validation of the transcription

In a scratch copy the model was evaluated on the repository's own tests: all 118 error / no-error expectations of
`ast/ast_test.go` agree, including exact messages, lines and columns; so do all 20 expectations on printed text; the large file
`ast/testdata` parses without error (91 procedures).

## 2. Specifications

* `Spec/Lex`, `Words`, `Str`, `Num`, `Date`: layout (blanks, comments, `#` lines), words, keywords, string/number/date literals, inductively on the text.
* `Spec/Tokens`: the sequence of tokens of a text, by repeated `Token.Next`.
* `Spec/Grammar`: the productions of `grammar.y` and derivability.
* `Spec/Syntax`: programs as written — a typed surface syntax (`Expr`, `Stmt`, `Block`, `FuncD`, `Program`) with `toks` (the tokens to write) and `tree` (the tree to expect), operator levels and when a spelling groups as it stands (`grouped`).
* `Spec/Rules`: rules beyond the grammar (loops, handlers, functions, colons, distinct variables, order of parts), and `clean`: no block begins with a separator.
* `Spec/Program`: `Spells code P`, `Accepts code M`.
* `Spec/Text`: when a text is a writing of a token sequence (`Written`, `Lexeme`), i.e. all layouts.
* `Spec/Errors`: token lists that can be continued to a program; which error names which token.
* `Spec/Print`, `Spec/Reprint`: what printed text must show; which trees print as code that can be read again.
* `Spec/Walk`: the statements a walk has to visit and their places. `Spec/Json`: what JSON keeps. `Spec/JsonText`: the grammar of RFC 8259.
* `Spec/Whole`: statements without missing parts.
* `Spec/Rename`, `Spec/RenameText`: renamings of names and constants, on tokens and on trees; renamings whose results can be written.
* `Spec/Memory`: the tree read from memory, the arrays of its blocks.
* `Spec/Alike`: tokens and trees that differ in constants, labels and directives only. `Spec/Jumps`: jumps and labels of a block.
* `Spec/Made`: trees that could be trees of modules.
* `Spec/Once`: which names a module declares twice.
* `Spec/Turn`: the module with its `ИначеЕсли` in the opposite order. `Spec/Bare`: trees up to parentheses that do not matter; signs that are printed.
* `Spec/Bytes`: UTF-8 by the encoder of Lean's library.

## 3. Proof architecture

**Tokeniser** (`Proofs/Lex*`): fuel-free equations for the recursive skips, then case analysis of `lexNext`.

**Soundness of the driver** (`Proofs/LR/Basic … Step`). `tools/gen_lr.py` computes annotations of the 212 automaton states
(`LR/Data`): for each state its item set and accessing symbol. The kernel checks finite obligations over these tables (`LR/Check`,
`LR/Good`: every shift, goto, reduction and base state is consistent with the items; a potential function decreases along
reductions). `LR/Inv`, `LR/Step` lift this to an invariant of all reachable configurations: the stack is a forest of derivation
trees over the tokens read, whose evaluation with the semantic actions gave the values on the stack and the state of the AstNode.
Consequences: termination with a linear bound, soundness (C15), at most the nil-map panic (C20).

**Meaning** (`LR/Sem*`, `Meaning`, `Syn`, `Says`): from an accepted derivation tree a `Program` is read back, with its tokens, and the
tree that `Parse` leaves is its `tree` up to stale slots (`shows`); the rules beyond the grammar are exactly the error tests.

**Completeness** (`LR/Cpl*`, `Kit*`, `Path`, `Chain`, `Det`, `Sim`): for each grouped, lawful program the automaton's path is
built construct by construct; determinism makes it the run of the driver. Hence acceptance with a tree that shows the program, with the
expected tree if no block begins with a separator (C16), and uniqueness of the program of a text.

**Texts** (`Proofs/Text`, `TextInv`): each writing of tokens has these tokens, and the text of every token sequence is a writing of it
(`lexNext_split`: each call of `Next` cuts the text into layout, the writing of a token, what may follow it, and white space).

**Only tokens** (`Proofs/OnlyTokens`): texts and positions are erased from configurations; actions, reductions and error handling
commute with erasure, so runs on texts with the same token numbers and literals go in parallel (C33).

**Printing** (`Proofs/Print`, `Reprint/*`): relations `ReE`/`ReS`/`ReM` between a printed tree and the program its text spells: the text
has the program's tokens (`Write`, `StmtWrite`), the program groups as it stands and prints the same (`Back`, `StmtBack`), its rules
can be read off the tree (`TreeRules`), its tree is the printed one up to parentheses (`Bare`), and each printable tree that came from a text has such a program (`Sane`, `Exist`, `Final`).

**Syntax errors** (`LR/Shape`, `PlanData`, `Viable`, `Control`, `Realise`, `Located`): a derivation forest over the automaton *is* a
program (`Shape`: every tree of the automaton groups as written). From every state that the automaton can be in, a generated plan
(`tools/gen_plan.py`, checked by the kernel) completes the stack to a program, so whatever was shifted can be continued; a token on which
the automaton stops cannot, because the automaton accepts every program. `Control` shows that the rules beyond the grammar never change
which way the driver takes; `Realise` that the tokens of a program have values of the right kinds.

**Whole trees** (`LR/Whole`): for each grammar symbol the type of its values (`Typed`), kept by every action even when it reads stale
slots, by shifts and by error handling; needs no derivation trees, so it holds for rejected texts too.

**Second Parse** (`Proofs/Again`): the completeness simulation from a non-empty AstNode.

## 4. Per property

* C01 progress and end of `Token.Next`: case analysis of every branch of `next`, lengths of suffixes.
* C02 words are longest prefixes. C03, C04 congruence of `lexNext` under layout. C05, C06 keywords: table lookup, byte-level `fastToLower` connected to character-wise lower-casing. (C06 covers words after a dot; the text `..если` is a corner: the flag is reset by the second dot.)
* C07 strings, C08 numbers (nearest binary64 characterised), C09 dates (calendar spec, both directions).
* C10 positions of errors. C11 lower-casing on bytes. C12 refuted for the C version by a witness; agreement without `A`–`Z` and NUL, hanging on stray continuation bytes.
* C13 byte offsets and characters: `C13_next` is a refinement between the two tokenisers (`ByteLexer`, `Lexer`), proved function by function with a relation `Runs` ("started at a character boundary with these characters ahead, returns this and stops there").
* C14 termination with a linear bound. C15 soundness. C16 completeness, trees, any layout; uniqueness; exactly which programs are accepted (for `tidy` ones). Refuted for a `:` behind a separator at the beginning of a block (`C16_violated`), and by C27–C29 for trees.
* C17 blank texts and texts without tokens. C18, C19 errors stick; recovery never succeeds.
* C20 refuted (nil map); no other panic, only after a recorded error; table indices in range.
* C21 refuted (`Пока` never leaves the loop context); exact rule. C22–C26, C31, C32 proved from the meaning of accepted trees.
* C27 refuted (a block that begins with a separator inherits a stale stack slot); otherwise exact. C28 refuted (reverse order), exact order proved. C29 refuted; exact characterisation.
* C30 operator levels and associativity. C33 only tokens matter.
* C34–C38 refuted by witnesses; exact parts proved. C39 order of printed variables.
* C40 walk visits. C41, C42 refuted; exact parts. C43 refuted; two trees have equal JSON exactly if they agree after erasure.
* C44 refuted; exactly when the second Parse succeeds and what it leaves.
* C45 all schedules of single accesses to memory (see C66); weak memory is outside, but C66 shows that there are no races.
* C46 syntax errors exactly for texts that are no programs. C47 they name the first token that no program has there (or the last token).
  C48 refuted (the last error wins); proved for syntax errors, for all continuations (`Proofs/LexAppend`: a token that is not at the end
  of the text does not depend on what is appended).
* C49 the tokeniser against the description of texts, in both directions.
* C50 refuted by witnesses; the same module for everything that `C38_roundtrip_partial` covers and whose signs are printed, and for no others (`C50_exact_partial`).
* C51–C53 an invariant of the driver on every text: every slot of the value stack, live or stale, holds a value of the type of its grammar symbol that has no missing parts and is made of tokens of the text.
* C54 refuted by C27's and C21's defects; proved for texts without blocks that begin with a separator (`Proofs/Join`: writings joined by a line feed; the rules hold of both programs together).
* C55: proved by running the driver on both texts side by side (`Proofs/LR/Rename`: every production takes related values to related values; `Proofs/Rename`: so does every step).
* C56: the walk of a callback that stores nothing is a fold over the list of visits, by mutual induction on trees.
* C57: the completeness induction (every production: what its action needs and gives) is repeated with errors allowed: `EvE` says
  that an action adds the faults of its construct to the error, or panics; `LRF.simE` runs the driver over the derivation tree.
  `Proofs/Faults.lean` relates the list of faults to the rules.
* C58: simulation of the driver on values by the driver on a heap (`Proofs/Memory`): the slice in a stack slot, live or stale, ends where its
  array ends, and no two slots are in one array, so `append` never writes over a cell that is in use.
* C59: simulation of the driver on a heap along the derivation tree (`Proofs/MemUses`, `MemShare`, `MemSim`, `MemClean`): each action uses a
  block of its right side at most once, new blocks get new arrays. Refuted for blocks that begin with a separator.
* C60: `C13_next` holds after errors too, so the driver on bytes and the driver on characters go in step (`Proofs/ByteParser`).
* C61: the tokeniser commutes with putting the text in lower case (`Proofs/Recase`, every skip and scan); a keyword in another case is
  another way to write the same token, and what must follow a token does not look at case; then C55 with nothing renamed.
* C62: `Spec/Lines` lists the lines of a module with their depths; induction over the printer with the text behind it as a parameter
  (`Proofs/Lines`); that names have no line breaks comes from C53. Texts of expressions are taken from the printer: C62 is about layout.
* C63: `Spec/JsonText` is the grammar of RFC 8259 with values; the text is a derivation (`Proofs/JsonText`), and derivations are unique
  (`Proofs/JsonGrammar`: pieces are determined by what may follow them). Numbers (`Proofs/JsonNum`): the decimal found reads back by its
  definition, the two formats give its value; `F64` is normalised (`ofRat_canon`), so equal texts come from equal numbers.
* C64: `Spec/Snippet` says what a statement of a module is and how deep it stands. The lines of a statement shift with its depth and are
  consecutive in the lines of the module (C62); for margin 0 the printed text does not depend on the depth (`Proofs/Snippet`).
* C65: violated (`Прервать` without its loop, signs of arguments); for the statements that C38 allows and that need nothing around them
  (`alone`) the relation of C38 between trees and printed statements gives a program of one statement.
* C66: goroutines run the driver of C58 in one memory, as programs that may be interrupted between any two accesses. For each goroutine the
  invariant of C58 holds in every memory that agrees with the real one on the arrays it owns; so its stack slots are in its own arrays, the
  rest of a round reads and writes only these, and what others do in the meantime does not matter. C45 follows.
* C67: a map of texts that commutes with one call of `Token.Next` and with positions commutes with the whole driver (`Proofs/TextMap`,
  every action and the error recovery); the tokeniser commutes with inserting CR before every LF (`Proofs/LineEnds`). Lone CRs and texts
  with mixed line ends are covered as well: the text before the change is arbitrary. Only string constants contain line ends, so for
  accepted texts nothing but string constants changes in the tree.
* C68: violated through the defect of C27. For programs in which no block begins with a separator the tree is `Program.tree` (C16), and
  structural induction over programs counts its nodes (`Spec/Size`) against the tokens. How bad the violation is: for every depth `m` there
  is a text of `31 + 32 (m + 1)²` characters whose tree has at least `2^m` nodes (`C68_exponential`). `Proofs/SizeGrow` follows the driver
  through it round by round, with the stale stack slots as an explicit list of blocks; a recurrence counts the nodes. So no power of the
  length bounds the tree, what `Print` writes, or the calls that `Walk` makes. `C68_at_most`: on every text it is at most
  exponential (`Proofs/SizeBound`: in a round the largest tree on the stack grows at most fivefold, and the module by at most that).
* C69: `%q` is a prefix code (`readEscape` reads one character back), numbers end at the first character that is not a digit, and the
  messages differ in their first characters or behind the quoted word.
* C70: two runs in lockstep (`Ahead` in `Proofs/Kept`), the second on a text with more tokens. They agree until the first asks for a
  token at its end. From there on the first can only add statements to the module, because no reduction under end of text declares
  anything new, and the second can only append. It holds for all texts, also for those of the defect C27.
* C71: an amortised count. The potential of the text left is ten times its length and ten times the part of it behind the word it begins
  with; the second part pays for words behind `&` that are read twice. Each call of `Next` costs at most what the potential drops by, and
  17. The rounds of the driver are bounded by C14.
* C72: violated; for texts without U+FFFD the same induction shows that nothing is written. The number of U+FFFD in the text left
  plus the lines written never falls (`Keeps` in `Proofs/WorkShown`), and a text is accepted at its end only, so no others are quiet.
* C73: violated. An identifier with colons behind it: a loop of six rounds per colon, each with one call of `Error` (`waits_next` in
  `Proofs/ErrorWork`), gives a lower bound for texts of every length. For accepted texts no round calls `Error`, because an error stays.
  The upper bound: a round calls `Error` once at most, but for a list of variables of the module; every name in such a list on the stack is
  a credit for one call, and a round adds one name at most (`Proofs/ErrorBound`).
* C74: violated with C38 and C50. Tokens that can be written one by one have a text: an empty comment between lines ends every token
  (`written_gap` in `Proofs/RenameText`). So the renamed program has a text, C55 gives its tree, and C38 and C50 say what is printed of it;
  their hypotheses look at the shape of a tree only, which a renaming does not change.
* C75: violated. The first call of `Next` fails on the mark, and an error of the tokeniser among the tokens asked for stays (C18).
* C76: violated through the defect of C21. The relation of C38 between a tree and the syntax that is printed of it does not limit the
  number of branches; what is read is the tree turned round (`Spec/Turn`). Turning twice changes nothing, and all conditions are
  kept by turning, so the theorem can be applied to its own result. The exact condition for C50 (`Proofs/Reprint/Signs`): the number of
  signs of a tree never grows by printing and reading, and stays the same only if all signs are printed.
* C77: violated (words are glued). Otherwise the texts have the same tokens (C37), and only tokens matter (C55 with nothing renamed).
* C78: violated. That headers do not count comes from C16: the conditions for acceptance do not mention them.
* C79: violated (strings and names are not escaped). The proof of C76 uses of a parsed module only that its tree is well made (`Spec/Made`),
  so it holds for all well-made trees.
* C80: C55 asks that different names stay different, but not so for constants, labels and directives: both texts are mapped to a third
  one in which all of these are the same; that there is such a text is shown with the gaps of C74.
* C81: violated. That labels are not looked at is a case of C80.
* C82: the tree of a chain is known (C16); its last part is a call exactly if its tokens end with `)`, because `Выполнить` behind a point
  is a name.
* C83: violated for `Ф()`. The tree of a call is known (C16).
* C84: in the heap model of C58 a round allocates at most one array and makes no array longer by more than one statement
  (`Proofs/MemorySize`); the rounds are bounded by C14. With C58 and C68: a tree of `2^m` nodes read from polynomially many statements.
* C85: the lemmas of C40, C42 and C56 for lists of statements (`Proofs/Walk`); the calls for a statement with another first argument
  are the same calls with that argument (`visits_root`).
* C86: violated. By induction on the size of statements, the calls of C56 are for what `Open` reaches (`Spec/Shown`).
* C87: violated by the texts of C68. For the others, calls are counted along the syntax as nodes are for C68 (`Proofs/WalkSize`).

### Defects of the code found (each is a `C??_violated` theorem or a remark in the model)

* Procedure with the same local variable twice in the first `Перем`, then another `Перем`: nil-map panic (C20).
* A block that begins with `;` gets statements of an earlier block, through the uncleared stack slot (C27). The two blocks share memory: changing a statement of one changes the other (C59). Repeated in nested blocks this makes the tree exponentially big in the square root of the length of the text: `Print` and `Walk` on it need exponential time (C68).
* `Пока` increments the loop counter and never decrements it, so `Прервать` behind it is accepted (C21).
* `ИначеЕсли` branches are stored in reverse order (C28).
* `-(б + 1)` loses the minus; `Не а[0]` loses `Не` (C29). Printing loses signs of variables as arguments and of chains (C35).
* `%.0f` prints `1.5` as `2` (C34). Local variables are never printed; a module of variables only prints as nothing (C36).
* OneLine with margin 0, or with empty blocks, prints `ПопыткаА` (C37); an empty `Попытка` becomes the variable `ПопыткаИсключениеКонецПопытки`, which is accepted (C77). Printed code that is rejected or regroups: `(Не б) = в`, lists in parentheses, jumps inside expressions (C38, C50).
* Module code after a procedure is reported with that procedure as root (C41). Stores through `Walk` are lost for conditions, operands, return values (C42).
* JSON drops signs, negations and node kinds (C43). A second `Parse` doubles the module (C44).
* `currentLet` writes a line to standard output for U+FFFD, also in comments and strings of accepted texts (C72). `Error` calls `GetPosition`, which reads the text from its beginning, and nothing stops the parser at errors outside the grammar: a text with many of them takes quadratic time (C73).
* Names are compared letter by letter, so `Перем а; Перем А;` is accepted; procedures and parameters of the same name are (C78).
* `Print` does not double quotes in strings: a tree with the string `" + Удалить() + "` prints as code with a call (C79).
* `Walk` does not look into assignments, chains, indices, `Новый`, parentheses, `ВызватьИсключение` and loop headers, so that calls there are not shown (C86).
* `Walk` can make exponentially many calls on the tree of a text with blocks that begin with `;` (C87).
* Labels are not checked: jumps without label and labels that stand twice are accepted (C81).
* C `FastToLower`: wrong for Latin capitals, hangs on invalid UTF-8 (C12).
* A text with a byte order mark in front, as 1C writes files, is always rejected, usually with the error of a later line (C75).
* Of several errors only the last is reported, so an error of an earlier line is hidden by a later one (C48).
* A date literal is scanned like a string: an apostrophe with a quotation mark behind it does not end it, and it goes over line breaks with `|` (`DateSrc`).
* `Процедура А(, б = 1 = 2)` and `-~метка:` are accepted; the check for duplicate variables is case-sensitive; a lexical error acts as end of input once and lexing goes on afterwards.

## 5. Trusted base

* Lean 4.33.0's kernel. No axioms of our own, no `sorry`, no `native_decide`, no `bv_decide`. `decide +kernel` is evaluation by the
  kernel; it is used for whole finite tables (then lifted by induction) and for concrete witnesses.
* Axioms: every theorem depends on at most `propext`, `Classical.choice`, `Quot.sound`. Generated list in `AXIOMS.md`
  (`tools/axioms.lean.txt`).
* The transcription of the Go code into the model, checked by reading, by the repository's tests as above and by mutation (6).
* The transcription of library functions: UTF-8 decoding, `ParseFloat`, `time.Parse`/`Format`, `%.0f`, `encoding/json`, `unicode.IsSpace`.
* Pointers as values: the parser never lets two places of the finished tree share a node that is later changed. The exceptions are
  modelled: the map of local variables (`appendVars` returns the changed map), stack slots (`stale`), slices handed to `Walk`
  callbacks (`Walk` models which stores reach the tree). Blocks, the only slices the parser extends
  starting from a stack slot it has used before, are modelled as slices in a heap as well (`Memory`, C58): values are adequate.
  Two blocks that share statements after the C27 defect share memory too (`C59_violated`), which `Walk` on values does not show; all other
  blocks have arrays of their own (`C59_apart_partial`).
* `tools/gen_tables.py` copies the tables; the LR annotations from `gen_lr.py` need no trust, the kernel checks them.
* The Go compiler, runtime, and cgo.

## 6. Mutation testing

`tools/mutations.py` lists realistic wrong programs (edits of the model), `tools/mutate.py` applies each in a scratch copy, finds an
input on which the edited model behaves differently (a probe), rebuilds what depends on it and records which property theorems fail;
`tools/deps.lean.txt` lists which theorems depend on which definitions, so that only the claims that mention the edited behaviour are
expected to fail. One line per attempt in `seeded/LOG.jsonl`.
