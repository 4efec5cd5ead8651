{
 "C12": {
  "note": "The claim is false of the code: C12_violated gives the witness AB. Proved: agreement on every text without A-Z and NUL, that the loop returns on every text, and that it hangs on stray continuation bytes."
 },
 "C45": {
  "note": "C45_accesses: goroutines build their trees in one memory and may be interrupted between any two accesses to it (read, write or allocation of an array of a block); for any number of them, all texts, every schedule, every growth policy of append and every memory before, each Parse that returns has in memory the tree it has alone, and returns once scheduled often enough; the process ends by a panic only if one of the texts panics alone (C45_accesses_panic); C45_any_schedule: the result does not depend on the schedule. C45_rounds, C45_panic: the same on values with switches between driver rounds. Memory is sequentially consistent in the model; by C66 there are no data races on it. The state of each parser is its own by construction of the model, and package variables are constants (by reading, they are never assigned)."
 },
 "C20": {
  "note": "The claim is false of the code: C20_violated gives a text on which Parse panics (write into a nil map after a local variable was declared twice). Proved: no other panic exists in the model, it only happens after an error has been recorded, and all table indices of the driver are in range."
 },
 "C16": {
  "note": "A program that keeps the rules but has ;: at the beginning of a block can be rejected (C16_violated). Proved: every other program that keeps the rules is accepted, in any layout, and the tree shows it (C16_shown_partial); exactly which of them are accepted (C16_exactly_partial); without blocks that begin with a separator the tree is Program.tree (C16_accepted_partial), which deviates from what is written for ИначеЕсли (C28) and lost signs (C29). Every accepted text is such a program, uniquely."
 },
 "C21": {
  "note": "Violated by the code for texts with Пока (C21_violated). Proved: exact rule (inside a loop or behind the beginning of a Пока), and the property for texts without Пока."
 },
 "C27": {
  "note": "Violated by the code for blocks that begin with a separator (C27_violated). Proved: exact tree otherwise; foreign statements appear only in front of such blocks."
 },
 "C28": {
  "note": "Violated by the code for two and more ИначеЕсли (C28_violated): they are listed in reverse order, which is proved."
 },
 "C29": {
  "note": "Violated by the code for several operands (C29_violated). Proved: exact characterisation of the operands on which the operators show."
 },
 "C41": {
  "note": "The claim as stated is false of the code: module code after a procedure is reported with that procedure as root (C41_violated). Proved: the root is right for everything inside procedures and functions and is nil for module code before the first of them (C41_root_partial). C41_reported states exactly what is passed in every case: the last procedure before the visited node."
 },
 "C42": {
  "note": "Stores for conditions, operands and values of Возврат are lost, they go to temporary slices (C42_violated). Proved: a callback that stores nothing leaves the tree unchanged, and stores for statements of bodies and blocks and for call arguments take effect and change nothing else (C42_replaced_partial)."
 },
 "C43": {
  "note": "The JSON text drops signs, negations and kinds of nodes, so two different trees can give the same JSON (C43_violated). Proved: two trees give the same JSON exactly when they agree after the dropped information is erased (C43_statements_partial, C43_modules_partial); C43_modules_iff_partial and C43_accepted_partial give both directions for whole modules, up to the order of the variables in maps."
 },
 "C44": {
  "note": "False of the code: after a second Parse every procedure and statement is in the tree twice, or Parse returns an error (C44_violated). Proved for programs without blocks that begin with a separator: exactly when the second Parse succeeds and what it gives (C44_again_partial), and that the tree is the same exactly if the module is empty (C44_same_partial)."
 },
 "C34": {
  "note": "False for numbers that are not integers: they are printed rounded (C34_violated). Proved: integers are printed exactly and read back (C34_integers_partial), and only they are (C34_exact_iff)."
 },
 "C35": {
  "note": "False: the signs of variables as arguments and the minus of chains are not printed (C35_violated). Proved: the signs of all other expressions are printed (C35_signs_partial; places listed in Spec/Print.lean)."
 },
 "C36": {
  "note": "False: local variables are never printed, and module variables are not printed when the module has no procedures or statements (C36_violated). Proved: otherwise every module variable is printed with directive and Export (C36_globals_partial)."
 },
 "C37": {
  "note": "C37_violated: with OneLine and margin 0 (or with OneLine and an empty block) `Попытка` and `Исключение` are glued to the next word, so the tokens change. C37_tokens_partial: for every accepted text whose blocks do not begin with a separator, whose parenthesised lists have exactly one element, with no labels or jumps inside expressions and only literal defaults, all other settings give the same token sequence, for every order of the variables."
 },
 "C38": {
  "note": "C38_violated: six accepted texts whose printed code is rejected or printed differently. C38_roundtrip_partial: for every accepted text whose tree is Printable and Stable (Spec/Reprint.lean lists exactly what is excluded) and every setting that does not glue `Попытка`, the printed code is accepted and its module has exactly the same printed texts, for all settings. Modules with several ИначеЕсли, which Stable excludes, are covered by C76."
 },
 "C46": {
  "note": "C46_iff: for every text whose tokens can all be read, Parse (if it returns; C20) reports a syntax error exactly if no grouped Program has these tokens. A program gives no syntax error even if it breaks other rules (C46_program)."
 },
 "C47": {
  "note": "C47_first: the error names the first token that makes the tokens read no prefix of any program, whatever follows (even unreadable text); the alternative is the nil-map panic of C20. C47_end: texts that end too early. C47_named: the converse. Viable is defined by prefixes of token lists of programs (Spec/Errors.lean), not by the automaton."
 },
 "C48": {
  "note": "C48_violated: Parse keeps the last error; `Прервать;` is rejected for `Прервать`, with a second line `Возврат 1` only the second line is reported. C48_syntax_partial: if the first impossible token of the text is not its end, the syntax error it gets is the one every longer text gets. Missing: the other errors, for which it is false, and impossible tokens at the very end of the text (appended letters can make it another token)."
 },
 "C49": {
  "note": "Written and Lexeme (Spec/Text.lean) describe texts without reference to the tokeniser. C49_tokens: both directions. C49_error: the texts with an error. C49_accepted: every accepted text is a way to write exactly one program. C49_texts: a sequence of tokens belongs to some text exactly if each token can be written in its place."
 },
 "C50": {
  "note": "C50_violated: accepted texts whose printed code gives another module (signs of arguments and chains, a module of variables only, the order of ИначеЕсли, (Не б) + в). C50_same_partial: under the hypotheses of C38_roundtrip_partial, if no sign is lost (ShowsSigns) and the module is not just variables, the printed code is accepted and gives the same module: variables, declarations, parameters, statements, up to parentheses, digits behind the decimal point and local variables (Spec/Bare.lean). C50_exact_partial: under the hypotheses of C38_roundtrip_partial this condition is also necessary: the module comes back exactly if ShowsSigns holds and it is not just variables. For several ИначеЕсли see C76."
 },
 "C51": {
  "note": "For every text and every number of calls of Parse that return. Stm.whole (Spec/Whole.lean) lists the parts of every kind of statement."
 },
 "C52": {
  "note": "C52_print: every type assertion in ast_print.go holds, for every statement of the tree at any depth. C52_json: numbers are finite and dates have years 0 to 9999; these are the only values of the tree on which json.Marshal can fail."
 },
 "C53": {
  "note": "C53_from_text for every text; C53_tokens: for accepted texts they are among the tokens of the text."
 },
 "C54": {
  "note": "C54_violated: a procedure whose block begins with a separator gets a statement of the text before; a text with Прервать outside loops is accepted behind a text with Пока. C54_joined_partial: for texts without blocks that begin with a separator; the result can be joined again."
 },
 "C55": {
  "note": "C55_renamed for every outcome of Parse (tree, error, panic); C55_accepts, C55_accepted_iff; C55_one_name: one name replaced by a new one. The hypotheses on a renaming (Renaming.Ok) are: injective on names, empty name and empty directive stay, a minus sign commutes with the change of numbers. An example shows that injectivity is necessary."
 },
 "C56": {
  "note": "C56_calls: the exact sequence of calls with all three arguments (moduleVisits, Spec/Walk.lean). C56_parent: the second argument. In the model a parent is given as it was before the walk; for callbacks that store nothing this is no simplification."
 },
 "C57": {
  "note": "C57_last: the error is about the last element of P.faults (Spec/Faults.lean); C57_rules relates the list to the rules used in C21-C26 and C32; C57_true, C57_only: consequences without the list; C57_panics: panics exactly on the doomed programs. Only programs that are tidy (no ':' before the first statement of a block other than as its first token), see C16_violated."
 },
 "C58": {
  "note": "A second model (Memory.lean) of driver and actions in which blocks are slices in a heap; simulation by the model on values. C58_reads: same outcome, the tree read from memory is that of the model on values; C58_one: a reading is unique; C58_growth: independence of growth policy and memory; C58_old: arrays that were there before are untouched. Slices other than blocks are values (Memory.lean says why)."
 },
 "C59": {
  "note": "Fails for a block that begins with a separator: it gets the slice of an earlier block, and a store in one shows in the other (C59_violated). C59_apart_partial: for texts that spell a program without such blocks (whether it keeps the rules or not), every block, at any depth, has an array of its own, allocated in this call; C59_store_partial: a store in one element of the module is not seen in another; C59_local: in general, a store is seen only where the array is used. Missing: texts with blocks that begin with a separator but do not share."
 },
 "C63": {
  "note": "C63_valid: a JSON text of the value of the tree. C63_only: it has no other reading. C63_safe: characters that do not occur. C63_same: equal bytes exactly for equal modules up to C43."
 },
 "C64": {
  "note": "C64_part: character by character. C64_lines, C64_text_lines: lines with indentation. A branch ИначеЕсли is not counted as a statement (printed alone it is an Если), the statements in it are."
 },
 "C65": {
  "note": "C65_violated: Прервать is rejected without its loop, Ф(-а) is printed without the sign. C65_reads_partial: for programs without blocks that begin with a separator, for statements that are plainS and stableS (as in C38) and need nothing around them, and for settings that do not glue Попытка: accepted, one statement, printed in the same ways; the same statement up to parentheses and digits if no sign is lost. The condition on signs is exact: the statement comes back exactly if all its signs are printed. C65_turned_partial: with several ИначеЕсли the branches change places (C76)."
 },
 "C66": {
  "note": "In the model with one memory for all goroutines and switches between any two accesses: each array has one owner, a scheduled goroutine reads and writes only its own arrays and does the same whatever the others contain, and a returned tree lies in the arrays of its goroutine. Only arrays of block slices are in the memory of the model."
 },
 "C67": {
  "note": "C67_parse: for every text, what Parse does on the text with CR LF line ends is what it does on the text: same message, same line, tree with only line ends changed, or the same panic. C67_accepts, C67_accepts_iff: accepted texts stay accepted, only string constants change. C67_tokens: kinds, errors, literals and positions of all tokens. The reported column is the end of the token less its length, so it moves by one for each line end inside a string constant (Err.withCR, example)."
 },
 "C68": {
  "note": "Violated: with blocks that begin with a separator (defect of C27) the tree can be far bigger than the text (C68_violated: 1450 characters, 13024 nodes). C68_exponential: for every m there is an accepted text of 31 + 32 (m + 1)^2 characters whose tree has at least 2^m nodes; C68_no_power: so no power of the length bounds the nodes; C68_print_walk: Print writes at least 2^m characters for it and Walk calls back at least 2^m times. C68_size_partial, C68_length_partial: the bound for all accepted texts in which no block begins with a separator. C68_tokens: every token takes a character. C68_at_most: on every text, accepted or not, at most 5^(15n+16)."
 },
 "C69": {
  "note": "Model ErrorText: the formats of AstNode.Error, of its callers and of errors.Wrap, with %q as in strconv.Quote; strconv.IsPrint is a parameter and may be anything. C69_text: the text determines message, line, column, literal. C69_place, C69_quote: how the place and the literal are shown. C69_printable: printable characters only. The texts of errors of ParseFloat and time.Parse are not modelled (C69_some says which errors have a text in the model)."
 },
 "C70": {
  "note": "C70_tokens: any text that begins with the tokens of another one. C70_kept, C70_accepted: a text, a line feed and any text behind that does not continue a string at the end of the first one. Only the declarations are kept: the statements outside procedures of the first text may become part of a larger statement, or may be lost when the longer text has an error."
 },
 "C71": {
  "note": "Model Work: a third model of the tokeniser which counts the calls of utf8.DecodeRuneInString. C71_same: it returns what the model on bytes returns. C71_linear: the bound for Parse. C71_calls: the bound for successive calls of Next. Not counted: the passes of GetPosition, one over the text in front of each error, see C73; and the test for a blank text."
 },
 "C72": {
  "note": "Violated: currentLet writes a line with fmt.Println for each U+FFFD it decodes, so for bytes that are not UTF-8 and for the valid character U+FFFD, also in comments and strings of accepted texts (C72_violated). C72_quiet_partial: nothing is written for texts without U+FFFD. C72_lines: an accepted text has had a line written for every U+FFFD in it, so texts without U+FFFD are the only accepted ones that are quiet."
 },
 "C73": {
  "note": "Violated: each call of Error reads the text from its beginning to find line and column, and errors outside the grammar do not stop the parser. C73_quadratic: for an identifier with n + 1 colons behind, at least n(n+4)/2 characters. C73_violated: no linear bound holds. C73_accepted_partial: nothing is read for accepted texts. C73_counted, C73_only: the count of a round is tied to the error it records. C73_at_most: for every text no more than 15 n^2 + 16 n characters are read for errors, so with C71_linear Parse reads no more than quadratically much."
 },
 "C74": {
  "note": "Violated already where C38 and C50 are: C74_violated renames а to б in Ф(-а), which is printed as Ф(б). C74_text (in full): the renamed tree of an accepted text is the tree of the text with the renamed tokens, and there is such a text. C74_printed_partial: under the hypotheses of C50_same_partial on the original tree, for every renaming that is Ok and Writable, the printed renamed tree is accepted, gives the renamed tree up to parentheses, and is printed in the same ways. exchange_writable, writable_names: renamings of names that meet the hypotheses."
 },
 "C75": {
  "note": "Violated by every text: C75_violated (texts), C75_violated_bytes (files): nothing with a mark in front is accepted; the caller has to remove it. C75_foreign: the same for every character no token begins with, behind any number of tokens. C75_comment_partial: in a comment in front of the text the mark does not matter. Missing: the claim itself, which is false."
 },
 "C76": {
  "note": "C76_violated: an accepted text with Прервать behind a loop Пока (defect of C21) whose printed code is rejected because the branches change places. C76_turned_partial: for accepted texts whose tree is Printable and Steady (Stable without the limit of one ИначеЕсли), whose Прервать and Продолжить stand in loops, the printed code is accepted and is printed, with all settings, as the module with its branches reversed. C76_same_partial: the trees agree (bare). C76_twice_partial: printing and reading twice restores what is printed. C76_exact_partial: the trees agree exactly if all signs are printed. Missing: the same shapes as in C38."
 },
 "C77": {
  "note": "C77_violated: OneLine turns one module into text that is rejected, and another (Попытка Исключение КонецПопытки with empty blocks) into text that is accepted as another program, the name of a variable. C77_same_partial: for every accepted text without blocks that begin with a separator whose tree is Printable, and all settings that do not glue Попытка, the printed texts are read in the same way, also where they are not read back as the module. Missing: trees that are not Printable (see C37)."
 },
 "C78": {
  "note": "C78_violated: five accepted modules with names declared twice: variables that differ in case only (module and local), two procedures, two parameters, a parameter and a local variable. C78_written_partial: of all accepted modules, variables of the module, and local variables of one procedure, have different spellings. C78_headers_partial: names and parameters in headers are not looked at at all: programs that differ in headers only are both accepted or both rejected. Missing: the claim itself, which is false."
 },
 "C79": {
  "note": "C79_violated: Print writes strings and names as they are, so a string value with quotes is read back as code (here a call), and a call of a procedure named Если is rejected. C79_reads_partial: for all well-made trees (Spec/Made: shape of trees of modules, names that are names, strings with doubled quotes, numbers and dates that can be written, rules on variables, ВызватьИсключение and Возврат), parsed or not, that are Printable and Steady, whose Прервать stands in loops, the printed code is accepted and is printed as the tree with its ИначеЕсли reversed. C79_same_partial: the trees agree exactly if all signs are printed. C79_parsed: all parsed modules are well made. Missing: the same shapes as in C38."
 },
 "C80": {
  "note": "C80_accepted, C80_trees: in full, for token sequences that differ token by token (Spec/Alike). Signs of numbers in trees come from minus tokens, which stay. C55 is about consistent replacement and includes names."
 },
 "C81": {
  "note": "C81_violated: three accepted texts: a jump without label, a label twice, a jump to a label of another procedure. C81_labels_partial: labels are not looked at: texts that differ in labels only are both accepted or both rejected. Missing: the claim itself, which is false."
 },
 "C82": {
  "note": "C82_is_method: for every chain on the right of an assignment. That a word behind a point is a name even if it is a keyword (Выполнить) is used."
 },
 "C83": {
  "note": "Violated: Ф() has one argument, nil (C83_violated), so it cannot be told from a call with one argument left out. C83_call_partial, C83_new_partial: with at least one place for an argument (every place between parentheses and commas gives one, left out ones are nil); C83_new_name: Новый without parentheses has none."
 },
 "C84": {
  "note": "Counts arrays and statements stored in them, in use or left over from growing; not spare capacity, and not the memory of expressions, names and stacks."
 },
 "C85": {
  "note": "For lists without procedures among the statements; those are walked as module bodies (C40-C42, C56)."
 },
 "C86": {
  "note": "Calls in assignments, chains, indices, Новый, parentheses, ВызватьИсключение and loop headers are not shown (C86_violated: five programs). Proved: exactly what is shown (C86_shown_partial), and that everything else is in one of these places of something shown (C86_rest)."
 },
 "C87": {
  "note": "False for texts with blocks that begin with a separator, because these blocks contain statements of earlier blocks (C27, C68): 14143 characters can make more than a million calls (C87_violated). Proved for all other texts; counts calls of the callback, not the work between them."
 }
}