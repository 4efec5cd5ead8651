{"id": "C01", "title": "The tokeniser always reaches the end of the text", "statement": "Calling Token.Next repeatedly on any text reaches the end-of-file token after at most one call per character: every call that does not report end-of-file consumes at least one character, also when it reports an error, and after end-of-file every further call reports end-of-file again.", "quantifier": "every source text (any bytes) and every tokeniser state reached on it", "why_tests_cant": "Tests tokenise a handful of texts; a text on which a scanning loop makes no progress hangs the caller and cannot be excluded by examples.", "anchors": ["ast/tokens.go:Token.Next", "ast/tokens.go:Token.next", "ast/tokens.go:scanIdentifier", "ast/tokens.go:scanString", "ast/tokens.go:scanNumber", "ast/tokens.go:skipComment", "ast/tokens.go:skipRegions"]}
{"id": "C02", "title": "Identifiers are read whole", "statement": "When the tokeniser returns an identifier or keyword, its literal is the longest run of letters, digits and underscores at that place of the text (after blanks, comments and # lines); no character of it is skipped or altered and the next call continues directly after it.", "quantifier": "every source text and every position in it", "why_tests_cant": "Maximal munch must hold for every run of Unicode letters in every context; tests use a few Russian words.", "anchors": ["ast/tokens.go:scanIdentifier", "ast/tokens.go:Token.next", "ast/tokens.go:isLetter", "ast/tokens.go:isDigit"]}
{"id": "C03", "title": "Blank space between tokens does not matter", "statement": "Inserting or removing any amount of spaces, tabs, carriage returns and line feeds in front of a token does not change the kind, literal or value of that token nor anything that follows.", "quantifier": "every source text, every tokeniser state, every string of blanks", "why_tests_cant": "There are infinitely many layouts of a program.", "anchors": ["ast/tokens.go:skipSpace", "ast/tokens.go:isSpace", "ast/tokens.go:Token.next"]}
{"id": "C04", "title": "Comments and # lines are invisible", "statement": "A // comment up to the end of its line, and a line starting with #, in front of a token changes neither that token nor anything that follows, whatever the text of the comment, in any number and any mixture.", "quantifier": "every source text, every tokeniser state, every sequence of comments and # lines", "why_tests_cant": "Comment text is arbitrary (quotes, slashes, keywords, any Unicode) and the skipping is recursive.", "anchors": ["ast/tokens.go:skipComment", "ast/tokens.go:skipRegions", "ast/tokens.go:Token.next"]}
{"id": "C05", "title": "Keywords are exactly the table entries, in any letter case", "statement": "A word that does not follow a dot is a keyword token exactly when its Russian/Latin lower-casing is one of the words of the keyword table, and then it is the token the table gives; any other word is an identifier. Changing the case of any letter A-Z, А-Я, Ё of a word never changes the kind of token.", "quantifier": "every word (any sequence of letters, digits and underscores)", "why_tests_cant": "2^n case variants per keyword, and all non-keywords.", "anchors": ["ast/tokens.go:tokens", "ast/tokens.go:Token.next", "ast/tokens.go:fastToLower"]}
{"id": "C06", "title": "Any word may be a member name", "statement": "Directly after a dot token that does not itself directly follow a dot, every word is an identifier, also when it is spelled like a keyword, and this lasts for exactly one token.", "quantifier": "every source text and every tokeniser state after a dot", "why_tests_cant": "The flag is carried between calls and cleared by a deferred function; every next token kind must be considered.", "anchors": ["ast/tokens.go:Token.next", "ast/tokens.go:Token.prevDot"]}
{"id": "C07", "title": "String literals survive printing and re-reading", "statement": "If the tokeniser returns a string token with value v, then the text formed by a quote, v and a quote is again read as exactly one string token with value v, provided the next non-blank character after it is not a quote.", "quantifier": "every source text containing a string literal (doubled quotes, multi-line, adjacent literals, comments between lines, any Unicode)", "why_tests_cant": "All string contents; the scanner has five interacting rules.", "anchors": ["ast/tokens.go:scanString", "ast/ast_print.go:printExpression", "ast/ast_print.go:printVarStatement"]}
{"id": "C08", "title": "Number literals", "statement": "A number token is the longest run of digits and dots; it is accepted exactly when it has at most one dot and its value does not overflow a float64, and not directly followed by a letter or underscore; otherwise an error is reported. The value is the float64 nearest to the written decimal.", "quantifier": "every source text starting with a digit", "why_tests_cant": "All digit sequences.", "anchors": ["ast/tokens.go:scanNumber", "ast/tokens.go:Token.Next"]}
{"id": "C09", "title": "Date literals", "statement": "A date token is accepted exactly when its decimal digits (all other characters in the quotes ignored) are all zero, or form a calendar-correct date in one of the forms YYYYMMDD, YYYYMMDDhhmm, YYYYMMDDhhmmss; the value is that moment (the zero time for all zeros). Otherwise an error is reported.", "quantifier": "every literal in single quotes", "why_tests_cant": "All calendars days, lengths and separators.", "anchors": ["ast/tokens.go:Token.Next", "ast/tokens.go:extractDigits", "ast/tokens.go:scanString"]}
{"id": "C10", "title": "Error positions point at the word that is wrong", "statement": "When the offending token is an identifier or keyword, the line in the error of Parse is 1 plus the number of line feeds in front of the word, and the column is the number of characters between the start of that line and the first character of the word.", "quantifier": "every source text and every identifier or keyword token in it", "why_tests_cant": "Every layout, multi-byte characters, comments and strings before the word.", "anchors": ["ast/tokens.go:GetPosition", "ast/ast.go:AstNode.Error"]}
{"id": "C11", "title": "Lower-casing is correct, length preserving and idempotent", "statement": "On valid UTF-8 the lower-casing used for keywords and directives changes exactly the letters A-Z, А-Я and Ё to a-z, а-я, ё, changes nothing else, keeps the byte length, is idempotent, and agrees with the older implementation kept in the source.", "quantifier": "every valid UTF-8 string", "why_tests_cant": "It patches bytes in place; every position and every rune must be considered.", "anchors": ["ast/tokens.go:fastToLower", "ast/tokens.go:fastToLower_old"]}
{"id": "C12", "title": "The C lower-casing agrees with the Go one", "statement": "fast_tolower.FastToLower returns the same string as the Go lower-casing and returns at all.", "quantifier": "every valid UTF-8 string", "why_tests_cant": "Same as for the Go version; a C byte loop.", "anchors": ["ast/fast_tolower/gowrap.go:FastToLower"]}
{"id": "C13", "title": "Bytes and characters agree", "statement": "On any byte string the tokeniser's byte offset never leaves the string, always sits between two decoded characters, and reading through it yields exactly the characters Go's own string iteration yields, each invalid byte counting as one replacement character; no input can make it slice out of range.", "quantifier": "every byte string, valid UTF-8 or not", "why_tests_cant": "All byte strings; crashes hide in malformed input.", "anchors": ["ast/tokens.go:currentLet", "ast/tokens.go:nextLet", "ast/tokens.go:nextPos"]}
{"id": "C14", "title": "Parse always returns", "statement": "Parse finishes after a number of steps bounded by a linear function of the length of the text.", "quantifier": "every source text", "why_tests_cant": "An LR driver with empty productions and a lookahead that is re-read at end of file can loop; no test can exclude it.", "anchors": ["ast/y.go:yyParserImpl.Parse", "ast/ast.go:AstNode.Parse", "ast/ast.go:AstNode.Lex"]}
{"id": "C15", "title": "What Parse accepts is in the grammar", "statement": "If Parse returns nil, the whole text was tokenised without error and its token sequence is derivable from the start symbol of the grammar in grammar.y; nothing at the end of the text is left unread.", "quantifier": "every source text", "why_tests_cant": "The generated tables are 600+ opaque numbers; soundness concerns all token sequences.", "anchors": ["ast/grammar.y", "ast/y.go:yyParserImpl.Parse"]}
{"id": "C16", "title": "Well-formed programs are accepted with the expected tree", "statement": "Every program built from the documented constructs (expressions with explicit parentheses, calls, member and index access, ternary, New, assignment, if/elseif/else, the three loops, try, throw, return, goto and labels, procedures and functions with parameters, directives, export, local and global variables) is accepted by Parse in any layout, and the resulting tree is the one written.", "quantifier": "every such program, any size and nesting, any layout", "why_tests_cant": "Infinitely many programs.", "anchors": ["ast/grammar.y", "ast/y.go:yyParserImpl.Parse", "ast/ast_struct.go"]}
{"id": "C17", "title": "Blank text is accepted", "statement": "If the text is empty or consists of white space only, Parse returns nil and the module has no statements and no variables.", "quantifier": "every string of Unicode white space", "why_tests_cant": "Infinite family; the check uses another notion of white space than the tokeniser.", "anchors": ["ast/ast.go:AstNode.Parse"]}
{"id": "C18", "title": "Lexical errors are never swallowed", "statement": "If the tokeniser reports an error on a token that Parse reads, Parse returns a non-nil error, whatever happens later in the text.", "quantifier": "every source text", "why_tests_cant": "The driver treats the failure as end of file, re-reads and goes on; that no path loses the error must hold for every continuation.", "anchors": ["ast/ast.go:AstNode.Lex", "ast/ast.go:AstNode.Parse"]}
{"id": "C19", "title": "Errors are final", "statement": "Once an error has been recorded during Parse, Parse returns a non-nil error; a syntax error ends parsing at once (there is no error recovery).", "quantifier": "every source text and every moment of the run", "why_tests_cant": "All continuations.", "anchors": ["ast/ast.go:AstNode.Error", "ast/y.go:yyParserImpl.Parse"]}
{"id": "C20", "title": "Parse never panics", "statement": "Parse returns (with or without error) and never panics.", "quantifier": "every source text", "why_tests_cant": "All texts; a crash of the host program is the worst outcome for a library.", "anchors": ["ast/ast.go:appendVarStatements", "ast/ast.go:AstNode.Error", "ast/tokens.go:GetPosition", "ast/grammar.y:explicit_variables"]}
{"id": "C21", "title": "Прервать and Продолжить only inside loops", "statement": "If Parse returns nil, every Прервать and every Продолжить lies between Цикл and the matching КонецЦикла.", "quantifier": "every source text and every such token in it", "why_tests_cant": "Flags are set and cleared by parser actions; all nestings.", "anchors": ["ast/ast.go:checkLoopOperator", "ast/ast.go:setLoopFlag", "ast/grammar.y:stmt_loop"]}
{"id": "C22", "title": "ВызватьИсключение without argument only in an exception handler", "statement": "If Parse returns nil, every ВызватьИсключение without argument lies between Исключение and the matching КонецПопытки.", "quantifier": "every source text and every such token in it", "why_tests_cant": "All nestings.", "anchors": ["ast/ast.go:checkThrowParam", "ast/ast.go:setTryFlag", "ast/grammar.y:stmt_tryCatch"]}
{"id": "C23", "title": "A value is returned only from functions", "statement": "If Parse returns nil, every Возврат with a value lies between Функция and КонецФункции.", "quantifier": "every source text and every such token in it", "why_tests_cant": "All nestings and orders of procedures, functions and module code.", "anchors": ["ast/ast.go:checkReturnParam", "ast/ast.go:isFunction", "ast/grammar.y:funcProc"]}
{"id": "C24", "title": "Module variables are unique", "statement": "If Parse returns nil, no name is declared twice among the module variables; every declared name is in ModuleStatement.GlobalVariables with the Export flag and directive of its declaration, and nothing else is.", "quantifier": "every source text", "why_tests_cant": "Any number of declarations and names.", "anchors": ["ast/ast_struct.go:ModuleStatement.Append", "ast/grammar.y:global_variables"]}
{"id": "C25", "title": "Local variables are unique", "statement": "If Parse returns nil, no procedure or function declares a name twice in its Перем sections, and ExplicitVariables holds exactly the declared names.", "quantifier": "every source text, every procedure and function", "why_tests_cant": "Any number of declarations.", "anchors": ["ast/ast.go:appendVarStatements", "ast/grammar.y:explicit_variables"]}
{"id": "C26", "title": "Order of module parts", "statement": "If Parse returns nil, then in the text all module variable declarations come before the first procedure or function, and these before the first module-level statement; in ModuleStatement.Body all procedures and functions come before all statements, in source order.", "quantifier": "every source text", "why_tests_cant": "All interleavings.", "anchors": ["ast/ast_struct.go:ModuleStatement.Append", "ast/grammar.y:module"]}
{"id": "C27", "title": "A block holds exactly the statements written in it", "statement": "If Parse returns nil, the statements of each block (branch, loop body, try/catch part, procedure or function body, module body) are exactly the statements written there, in that order.", "quantifier": "every source text and every block", "why_tests_cant": "Depends on the parser's value stack, i.e. on everything parsed before.", "anchors": ["ast/grammar.y:body", "ast/grammar.y:opt_body", "ast/y.go:yyParserImpl.Parse"]}
{"id": "C28", "title": "ИначеЕсли branches keep their order", "statement": "IfElseBlock of an IfStatement lists the ИначеЕсли branches in source order.", "quantifier": "every if statement with any number of branches", "why_tests_cant": "Order matters only from two branches on; any number is possible.", "anchors": ["ast/grammar.y:opt_elseif_list"]}
{"id": "C29", "title": "Unary minus and Не are not lost", "statement": "The tree of -e and of Не e differs from the tree of e, for every operand e on which the operator has an effect.", "quantifier": "every operand expression", "why_tests_cant": "All operand forms and nestings.", "anchors": ["ast/ast.go:unaryMinus", "ast/ast.go:not", "ast/ast_struct.go:IUnary", "ast/ast_struct.go:INot"]}
{"id": "C30", "title": "Operator precedence and associativity", "statement": "For operands a, b, c and binary operators, a op1 b op2 c is grouped to the right exactly when op2 binds tighter than op1 (Или < И < <> < <= < >= < = < '<' '>' < + - < * / %), otherwise to the left; Не binds between >= and =, unary minus tighter than all.", "quantifier": "all operands and operators", "why_tests_cant": "Precedence is encoded in table entries for every state and token.", "anchors": ["ast/grammar.y:expr", "ast/y.go"]}
{"id": "C31", "title": "Procedure and function headers are recorded", "statement": "The tree of a procedure or function has the name, kind, directive, Export flag, and the parameters in order with names, Знач flag and default value, as written.", "quantifier": "every procedure and function", "why_tests_cant": "Any number of parameters, optional parts.", "anchors": ["ast/ast.go:createFunctionOrProcedure", "ast/ast_struct.go:ParamStatement.Fill", "ast/ast_struct.go:ParamStatement.DefaultValue", "ast/grammar.y:funcProc"]}
{"id": "C32", "title": "A colon is allowed only after a label", "statement": "If Parse returns nil, every colon used as statement separator follows a label statement or stands at the start of a block.", "quantifier": "every source text and every colon", "why_tests_cant": "All statement sequences.", "anchors": ["ast/grammar.y:body"]}
{"id": "C33", "title": "Only tokens matter", "statement": "Two texts with the same sequence of token kinds, literals and values give the same tree and are both accepted or both rejected.", "quantifier": "all pairs of texts", "why_tests_cant": "All layouts and all programs; the position bookkeeping must not leak into the tree.", "anchors": ["ast/ast.go:AstNode.Lex", "ast/y.go:yyParserImpl.Parse"]}
{"id": "C34", "title": "Printing keeps numbers", "statement": "A number literal is printed as a literal with the same value.", "quantifier": "every number", "why_tests_cant": "All float64 values.", "anchors": ["ast/ast_print.go:printExpression", "ast/ast_print.go:printVarStatement"]}
{"id": "C35", "title": "Printing keeps unary operators", "statement": "Print writes a minus or Не wherever the tree has one.", "quantifier": "every tree", "why_tests_cant": "All positions: operands, arguments, conditions.", "anchors": ["ast/ast_print.go:printExpression", "ast/ast_print.go:printVarStatement", "ast/ast_print.go:printParams"]}
{"id": "C36", "title": "Printing keeps declarations", "statement": "Print writes every module variable and every local variable of the tree, each with its directive and Export flag.", "quantifier": "every module tree", "why_tests_cant": "Any number of declarations, empty bodies.", "anchors": ["ast/ast_print.go:print", "ast/ast_print.go:printGlobalVariables", "ast/ast_print.go:printFunctionOrProcedure"]}
{"id": "C37", "title": "Print options change layout only", "statement": "For one tree, all settings of Margin and OneLine give texts with the same token sequence.", "quantifier": "every tree, every Margin >= 0, both values of OneLine", "why_tests_cant": "All trees and margins.", "anchors": ["ast/ast_print.go:PrintStatementWithConf", "ast/ast_print.go:newLine", "ast/ast_print.go:printTryStatement"]}
{"id": "C38", "title": "Printed code parses back", "statement": "The text printed for a parsed module is accepted by Parse and printing the result gives the same text.", "quantifier": "every module tree produced by Parse", "why_tests_cant": "All programs.", "anchors": ["ast/ast_print.go", "ast/grammar.y"]}
{"id": "C39", "title": "The order of printed module variables is the only freedom", "statement": "The printed text of a module is determined by the tree and the options up to the order of the module variable declarations, and each is printed exactly once.", "quantifier": "every module tree with a non-empty body, every map iteration order", "why_tests_cant": "Map iteration order is random in Go; all permutations.", "anchors": ["ast/ast_print.go:printGlobalVariables"]}
{"id": "C40", "title": "Walk visits every statement of every block exactly once, children first", "statement": "Walk calls the callback exactly once for every statement in the module body, in procedure and function bodies and in all nested blocks, inner statements before the statement containing them, and in order within a block.", "quantifier": "every module tree", "why_tests_cant": "All shapes and nestings.", "anchors": ["ast/ast_struct.go:ModuleStatement.Walk", "ast/ast_struct.go:walkHelper"]}
{"id": "C41", "title": "Walk reports the enclosing procedure", "statement": "The first callback argument is the procedure or function containing the statement, and nil for module-level statements.", "quantifier": "every module tree and every visited statement", "why_tests_cant": "Order of functions and module code.", "anchors": ["ast/ast_struct.go:walkHelper"]}
{"id": "C42", "title": "Replacing a statement through Walk takes effect", "statement": "If the callback stores a new statement through its pointer, the walked tree contains the new statement at that place afterwards, and nothing else is changed; a callback that stores nothing leaves the tree unchanged.", "quantifier": "every module tree, every callback", "why_tests_cant": "All callbacks and positions; some pointers lead to temporary copies.", "anchors": ["ast/ast_struct.go:walkHelper", "ast/ast_struct.go:StatementWalk"]}
{"id": "C43", "title": "JSON keeps the program", "statement": "Two modules with different meaning have different JSON; in particular -x, Не x and x differ.", "quantifier": "every pair of module trees", "why_tests_cant": "All trees.", "anchors": ["ast/ast.go:AstNode.JSON", "ast/ast_struct.go"]}
{"id": "C44", "title": "Parse may be called once per AstNode", "statement": "Calling Parse again on an AstNode that was parsed successfully gives the same tree again.", "quantifier": "every source text", "why_tests_cant": "History property: state left over from the first run.", "anchors": ["ast/ast.go:AstNode.Parse", "ast/ast_struct.go:ModuleStatement.Append"]}
{"id": "C45", "title": "Parsers do not share state", "statement": "Parsing in several goroutines on different AstNode values gives the same results as parsing one after another.", "quantifier": "all schedules, all texts", "why_tests_cant": "All interleavings.", "anchors": ["ast/ast.go:AstNode.Parse", "ast/y.go"]}
{"id": "C46", "title": "A syntax error means: not a program", "statement": "If every token of the text is readable, Parse reports a syntax error if and only if the text is not a program of the language, whatever other rules (jumps outside loops, returned values, duplicate variables) the text breaks.", "quantifier": "every source text", "why_tests_cant": "All texts, in both directions.", "anchors": ["ast/ast.go:AstNode.Parse", "ast/ast.go:AstNode.Error", "ast/grammar.y"]}
{"id": "C47", "title": "A syntax error names the first impossible token", "statement": "The token named by a syntax error is the first one with which the text can no longer be continued to a program, whatever comes after it; if the text ends too early, it is the last token.", "quantifier": "every source text", "why_tests_cant": "All prefixes of programs and all ways to continue them.", "anchors": ["ast/ast.go:AstNode.Error", "ast/y.go", "ast/grammar.y"]}
{"id": "C48", "title": "Later text does not change an error", "statement": "If a text is rejected, appending more text does not change the error that is reported: the first error is reported.", "quantifier": "every pair of texts", "why_tests_cant": "All texts and all continuations.", "anchors": ["ast/ast.go:AstNode.Error", "ast/ast.go:AstNode.Parse"]}
{"id": "C49", "title": "The tokens of a text are exactly what is written in it", "statement": "There is a description of how tokens are written (words, numbers, strings with doubled quotes and continuation lines, dates, marks, directives, labels, with white space, comments and # lines between them) such that repeated calls of Next give a sequence of tokens if and only if the text is a way to write that sequence; no text is a way to write two sequences, and Next reports an error for exactly the texts that are no way to write tokens.", "quantifier": "every text and every sequence of tokens", "why_tests_cant": "All texts, in both directions.", "anchors": ["ast/tokens.go:Token.Next", "ast/tokens.go:Token.next", "ast/tokens.go:Token.scanString", "ast/tokens.go:Token.scanNumber", "ast/tokens.go:Token.scanIdentifier", "ast/tokens.go:Token.skipComment"]}
{"id": "C50", "title": "Printing and parsing again gives the same module", "statement": "If a text is accepted, the text that Print returns for its tree is accepted, and the tree of the printed text has the same module-level variables, the same procedures and functions with the same parameters, defaults, directives and export marks, and the same statements, up to parentheses that do not change the grouping.", "quantifier": "every accepted text, every setting of PrintConf, every order of the variables", "why_tests_cant": "All programs and all settings.", "anchors": ["ast/ast_print.go:AstNode.Print", "ast/ast_print.go:astPrint", "ast/ast.go:AstNode.Parse"]}
{"id": "C51", "title": "Trees have no missing parts", "statement": "Whatever the text, and whether Parse accepted it or not, every statement in the tree it leaves has all the parts its kind needs, each of the right kind: both operands, the condition and the target of an assignment, exactly one form of loop header, ИначеЕсли branches that are conditions with a block. Nil appears only where the syntax allows a part to be left out.", "quantifier": "every text, any number of calls of Parse", "why_tests_cant": "All texts, including rejected ones where parsing stops in the middle.", "anchors": ["ast/ast.go:AstNode.Parse", "ast/grammar.y", "ast/y.go:yyParserImpl.Parse", "ast/ast_struct.go"]}
{"id": "C52", "title": "Print and JSON do not fail on what Parse leaves", "statement": "After Parse has returned, with or without error, Print and PrintStatement do not panic on the module or any statement in it, and JSON returns no error.", "quantifier": "every text, any number of calls of Parse, every statement at any depth", "why_tests_cant": "All trees that any text can leave.", "anchors": ["ast/ast_print.go:printLoopStatement", "ast/ast_print.go:printIfStatement", "ast/ast.go:AstNode.JSON"]}
{"id": "C53", "title": "Names and constants come from the text", "statement": "Every name in the tree is written in the text as a token of its kind (identifier, label, directive), and every constant is the value of a literal in the text or its opposite.", "quantifier": "every text, accepted or not, any number of calls of Parse", "why_tests_cant": "All texts and all places in the tree.", "anchors": ["ast/ast.go:AstNode.Parse", "ast/tokens.go:Token.Next", "ast/grammar.y"]}
{"id": "C54", "title": "Declarations do not depend on what is declared before", "statement": "If two texts are accepted and their declarations may stand one behind the other (variables before procedures, no name twice, no statements first), then the texts joined by a line feed are accepted, and the tree has the declarations of the first, then those of the second, unchanged.", "quantifier": "every two accepted texts, hence any number of them", "why_tests_cant": "All pairs of texts; the parser carries state (stack slots, loop counters) from one declaration to the next.", "anchors": ["ast/ast.go:AstNode.Parse", "ast/y.go:yyParserImpl.Parse", "ast/ast_struct.go:ModuleStatement.Append"]}
{"id": "C55", "title": "Names and constants are opaque to the parser", "statement": "If one text is obtained from another by consistently replacing names (different names staying different), labels, directives and the values of constants, then both are accepted or both rejected with the same complaint, and the tree of the second is the tree of the first with the same replacement.", "quantifier": "every pair of texts whose tokens correspond, every injective renaming", "why_tests_cant": "All programs and all renamings; the parser could treat particular names, numbers or strings specially.", "anchors": ["ast/ast.go:AstNode.Parse", "ast/grammar.y", "ast/tokens.go:Token"]}
{"id": "C56", "title": "Walk tells the callback what directly contains the visited element", "statement": "The second callback argument is the module body for elements of the module body, the procedure for its statements, and for anything else the statement it is directly part of; a callback that stores nothing is called for exactly the parts of the tree the walk goes into, each after its own parts.", "quantifier": "every module tree, every callback that stores nothing", "why_tests_cant": "All shapes and nestings of trees.", "anchors": ["ast/ast_struct.go:ModuleStatement.Walk", "ast/ast_struct.go:walkHelper"]}
{"id": "C57", "title": "Errors about rules beyond the grammar are true and name the rule", "statement": "If a text follows the grammar but breaks rules beyond it (loop control, empty rethrow, returned value, colon, repeated declaration, order of declarations), the error is about a rule that is broken, in fact about the last violation in the order of the text, with the name that is declared twice; if one rule only is broken it is about that rule; without violation there is no error. Parse panics exactly if some procedure has a name twice in its first list of local variables and then another list.", "quantifier": "every text that spells a program, except that in no block a colon stands before the first statement other than as the first token", "why_tests_cant": "All programs with any number of violations at any depth; error state, loop and try counters are carried through the whole run.", "anchors": ["ast/ast.go:checkLoopOperator", "ast/ast.go:checkThrowParam", "ast/ast.go:checkReturnParam", "ast/ast.go:appendVarStatements", "ast/grammar.y"]}
{"id": "C58", "title": "How slices grow in memory does not show in the tree", "statement": "The tree Parse builds depends on the text only, not on how the runtime grows slices or which arrays are shared while parsing: no statement of a block is overwritten while other blocks are extended. Trees obtained earlier, from the same or another AstNode, are read unchanged after a further Parse.", "quantifier": "every text, every policy of growing slices, every content of memory before the call", "why_tests_cant": "The runtime's growth policy is not fixed, and overwriting would need particular lengths and nestings of blocks; the parser extends slices that it finds in stack slots it has used before.", "anchors": ["ast/grammar.y:body", "ast/y.go:yyParserImpl.Parse", "ast/ast.go:AstNode.Parse"]}
{"id": "C59", "title": "Blocks of a tree do not share storage", "statement": "In a tree returned by Parse, no two blocks (bodies of procedures, of conditions, loops and exception handlers) share storage: if a callback of Walk replaces a statement of one block, all other blocks stay as they were. Nor do they share storage with trees built before.", "quantifier": "every text, every policy of growing slices, every content of memory before the call, every later store in a block", "why_tests_cant": "Sharing shows only when a statement of one block is replaced and another block is then looked at; it depends on which stack slot a block was built in and on the capacities of arrays.", "anchors": ["ast/grammar.y:body", "ast/grammar.y:opt_body", "ast/y.go:yyParserImpl.Parse", "ast/ast_struct.go:Walk"]}
{"id": "C60", "title": "Parse on arbitrary bytes", "statement": "Parse can be called on any byte string. It never slices out of range and always returns or panics as it does on the characters of the string; bytes that are not UTF-8 are read as U+FFFD, so a source and its repaired form give the same tree and the same error. The line and column of an error are those computed from the byte offset of a token that was read.", "quantifier": "every byte string, valid UTF-8 or not", "why_tests_cant": "Malformed input of every kind, at every place the tokeniser can be in, also after an error when the parser goes on reading.", "anchors": ["ast/ast.go:Parse", "ast/ast.go:Lex", "ast/tokens.go:Next", "ast/tokens.go:GetPosition", "ast/y.go:yyParserImpl.Parse"]}
{"id": "C61", "title": "Layout and the letter case of keywords do not matter to Parse", "statement": "Two texts that write the same tokens, in whatever layout and with whatever letter case of the keywords, give the same tree and are both accepted or both rejected with the same complaint. Rewriting one keyword (other than Выполнить, whose spelling the tree keeps) in another case keeps the tree. Changing the case of letters anywhere, also in comments, names and strings, changes neither the kinds of the tokens nor the errors nor the places where tokens begin and end.", "quantifier": "all pairs of texts, all places of a keyword", "why_tests_cant": "Case and layout can be changed at any place in infinitely many programs, and the tokeniser's skips, scans and tables all look at characters.", "anchors": ["ast/tokens.go:Next", "ast/tokens.go:fastToLower", "ast/tokens.go:scanIdentifier", "ast/ast.go:Parse"]}
{"id": "C62", "title": "Layout of printed code", "statement": "Printed without OneLine, the code of an accepted text has every statement, every head of a block or procedure, every directive and every word between blocks (ИначеЕсли, Иначе, Исключение, КонецЕсли, КонецЦикла, ...) at the beginning of a line of its own, in the order of the module, indented by exactly Margin spaces for every block around it; if the string constants are written on one line, the non-empty lines of the output are exactly these. With OneLine the code of a module without directives has no line break.", "quantifier": "all accepted texts, all margins, all orders of the module variables", "why_tests_cant": "Blocks nest to any depth and any kind of statement may stand before and after any other; a missing line break or a wrong depth shows only for particular combinations.", "anchors": ["ast/ast_print.go:print", "ast/ast_print.go:printBody", "ast/ast_print.go:printBodyItem", "ast/ast_print.go:newLine"]}
{"id": "C63", "title": "JSON gives valid JSON that reads back", "statement": "Whatever Parse made of the text, with or without error, JSON() returns a text that RFC 8259 reads as exactly one value, the one of the tree: same strings, same structure, every number read back as the same binary64 number with its sign. The text holds no control characters and no <, >, &, U+2028, U+2029. For accepted texts the returned bytes are equal exactly if the modules agree up to what JSON drops (C43).", "quantifier": "all texts, any number of calls of Parse, all values the grammar of JSON can give to the returned text; all pairs of accepted texts", "why_tests_cant": "Strings may hold any characters and numbers any of 2^64 values; that the output is unambiguous is a statement about all readings.", "anchors": ["ast/ast.go:AstNode.JSON", "ast/ast_struct.go"]}
{"id": "C64", "title": "PrintStatement shows what Print shows", "statement": "For every statement of an accepted module, at any depth, PrintStatement and PrintStatementWithConf return what Print writes for it inside the module: the same lines in the same order, each without the indentation of the blocks around it; with margin 0, or for statements outside of all blocks, a contiguous part of the printed module character by character.", "quantifier": "all accepted texts, all statements of their modules at any depth, all settings, all orders of the variables", "why_tests_cant": "Statements nest without bound and every combination of kinds and settings counts.", "anchors": ["ast/ast_print.go:AstNode.PrintStatement", "ast/ast_print.go:AstNode.PrintStatementWithConf", "ast/ast_print.go:AstNode.Print"]}
{"id": "C65", "title": "A printed statement can be parsed on its own", "statement": "The text PrintStatement returns for a statement of an accepted module is accepted by Parse as a text of its own, and its module consists of exactly that statement.", "quantifier": "all accepted texts, all statements of their modules at any depth, all settings", "why_tests_cant": "Statements nest without bound; the printer drops parentheses and the parser regroups.", "anchors": ["ast/ast_print.go:AstNode.PrintStatementWithConf", "ast/ast.go:AstNode.Parse"]}
{"id": "C66", "title": "Goroutines that parse at the same time share no tree memory", "statement": "When several goroutines parse different AstNode values at the same time in one process, none of them reads or writes a block of statements that another one has built or is building, whatever the order in which they run: each tree found in memory afterwards is the one that Parse gives alone, and it stays so whatever happens to the memory of the others.", "quantifier": "any number of goroutines, all texts, all schedules, all memories before, all growth policies of append", "why_tests_cant": "All interleavings; the race detector sees only the accesses of one run.", "anchors": ["ast/ast.go:AstNode.Parse", "ast/grammar.y:body", "ast/y.go:yyParserImpl.Parse"]}
{"id": "C67", "title": "Windows line ends do not matter", "statement": "A text whose lines end with CR LF is parsed like the same text with LF: Parse accepts both or complains about both at the same line with the same message, and the trees differ only inside string constants of several lines, which keep the line ends of the text. The tokens are the same ones, and end at the same lines and columns.", "quantifier": "all texts, accepted or not, and every call of Token.Next", "why_tests_cant": "Line ends may stand at any place: between tokens, in comments, in preprocessor lines, in strings, in broken texts; the error recovery has to agree as well.", "anchors": ["ast/tokens.go:Token.Next", "ast/tokens.go:Token.skipSpace", "ast/tokens.go:Token.skipComment", "ast/tokens.go:Token.skipRegions", "ast/tokens.go:Token.scanString", "ast/tokens.go:Token.GetPosition", "ast/ast.go:AstNode.Parse"]}
{"id": "C68", "title": "The tree is no bigger than the text", "statement": "The tree that Parse builds for an accepted text has at most as many nodes (declarations, parameters, variables, statements, expressions) as the text has tokens, and hence at most as many as it has characters; so a short text cannot make Print, JSON or Walk run out of memory.", "quantifier": "all accepted texts", "why_tests_cant": "Needs a bound for texts of every size and nesting; the trees that break it need many nested blocks.", "anchors": ["ast/ast.go:AstNode.Parse", "ast/grammar.y:body", "ast/ast_struct.go:ModuleStatement"]}
{"id": "C69", "title": "The text of an error identifies it", "statement": "The text of the error that Parse returns tells which fault was found and where: two different faults, places or literals never give the same text. The text gives line and column in decimal and quotes the literal, and it is a single line of printable characters whatever the source text contains.", "quantifier": "all errors of Parse but those of number and date conversion, all literals", "why_tests_cant": "Literals are arbitrary strings, also with quotation marks, line ends and control characters; all pairs of errors.", "anchors": ["ast/ast.go:AstNode.Error", "ast/ast.go:AstNode.Lex", "ast/ast.go:checkLoopOperator", "ast/ast.go:checkThrowParam", "ast/ast_struct.go:ModuleStatement.Append"]}
{"id": "C70", "title": "Text further down does not change the declarations above it", "statement": "Appending text to a source does not change what has been declared before: the variables, procedures and functions that Parse reads from a text are, unchanged and in the same order, the first ones it reads from that text followed by a line feed and anything else. This holds also if the text behind is wrong and Parse returns an error.", "quantifier": "all texts without lexical errors, accepted or not, and all texts behind them", "why_tests_cant": "Every continuation of every text; slices in parser registers are shared between parts of the tree, so what is read later could write into what was read before.", "anchors": ["ast/ast.go:AstNode.Parse", "ast/ast.go:AstNode.Lex", "ast/tokens.go:Token.Next", "ast/ast_struct.go:ModuleStatement.Append"]}
{"id": "C71", "title": "Parse reads its input in linear time", "statement": "The tokeniser never reads a text over and over: the number of characters that Parse decodes while it reads tokens is at most a constant times the length of the text, whatever the text. This includes texts with errors, with comments and # lines in any nesting, with unterminated strings, with words behind & that are not directives (which are read twice), and bytes that are not UTF-8.", "quantifier": "all byte strings", "why_tests_cant": "Quadratic behaviour shows only on particular long inputs; skipComment and skipRegions call each other, unknown directives make the tokeniser go back, and at the end of the text the parser asks for the same end again and again.", "anchors": ["ast/tokens.go:Token.next", "ast/tokens.go:Token.skipComment", "ast/tokens.go:Token.skipRegions", "ast/tokens.go:Token.nextLet", "ast/tokens.go:Token.currentLet", "ast/ast.go:AstNode.Parse"]}
{"id": "C72", "title": "Parse writes nothing to standard output", "statement": "Parse reports through its result only and writes nothing to standard output, whatever the text.", "quantifier": "all byte strings", "why_tests_cant": "A program that prints its own result to standard output, such as a formatter or a JSON exporter, is corrupted by a single unexpected line, and the texts are arbitrary.", "anchors": ["ast/tokens.go:Token.currentLet", "ast/ast.go:AstNode.Parse"]}
{"id": "C73", "title": "Reporting errors does not make Parse slow", "statement": "The work Parse does to find the lines and columns of errors is at most a constant times the length of the text, however many errors the text has; for accepted texts there is none.", "quantifier": "all texts", "why_tests_cant": "Errors outside the grammar do not stop the parser, so one text can have as many errors as characters; quadratic behaviour shows only on long texts of a particular kind, such as files in another language fed by mistake.", "anchors": ["ast/ast.go:AstNode.Error", "ast/tokens.go:Token.GetPosition", "ast/ast.go:AstNode.Parse", "ast/ast.go:AstNode.checkLoopOperator"]}
{"id": "C74", "title": "Renaming in the tree and printing renames the program", "statement": "If a program is parsed, names or constants are changed in its tree (different names staying different, names staying names), and the tree is printed, then Parse accepts the printed text and gives the changed tree, up to parentheses that do not matter; and every changed tree is the tree of some text.", "quantifier": "all accepted texts, all renamings, all print settings, all orders in which the variables of a module may be printed", "why_tests_cant": "Obfuscators and refactoring tools rely on it for every program and every choice of new names; a test covers one program and one choice.", "anchors": ["ast/ast_print.go:AstNode.Print", "ast/ast.go:AstNode.Parse", "ast/ast_struct.go"]}
{"id": "C75", "title": "A byte order mark does not matter", "statement": "A byte order mark (U+FEFF, the bytes EF BB BF) at the beginning of a module, as files written by 1C have it, does not change whether Parse accepts the module nor its tree.", "quantifier": "all texts and byte strings behind the mark; in general, all characters with which no token begins, at every place between tokens", "why_tests_cant": "Every file of a real configuration begins with these bytes; a test reads string literals, and one example does not show what happens in front of every text.", "anchors": ["ast/ast.go:NewAST", "ast/ast.go:AstNode.Parse", "ast/tokens.go:Token.Next", "ast/tokens.go:Token.next", "ast/tokens.go:isSpace"]}
{"id": "C76", "title": "Reading printed code reverses the branches ИначеЕсли and changes nothing else", "statement": "If the tree of an accepted program is printed and the printed text is parsed, the text is accepted and the new tree is the old one with the branches ИначеЕсли of every Если in the opposite order, up to parentheses that do not matter; printing and parsing twice gives back a module that is printed like the first one. Signs that printing leaves out are exactly what is lost otherwise.", "quantifier": "all accepted texts, any number and nesting of branches, all print settings, all orders in which the variables of a module may be printed", "why_tests_cant": "A formatter that is run on its own output moves branches, and with them the meaning of the program; tests with one branch ИначеЕсли show nothing, and a finite number of programs does not show that nothing else moves.", "anchors": ["ast/ast_print.go:AstNode.Print", "ast/ast_print.go:printIfStatement", "ast/grammar.y:opt_elseif_list", "ast/ast.go:AstNode.Parse"]}
{"id": "C77", "title": "Code on one line and code on many lines are the same program", "statement": "The texts that Print gives for one module with different settings (one line or many lines, any margin) are read by Parse in the same way: both are accepted, with the same tree, or both are rejected. In particular putting a program on one line never changes it silently.", "quantifier": "all accepted texts, all pairs of settings, all orders in which the variables of a module may be printed (the same for both)", "why_tests_cant": "OneLine is used to make code small for transport; whether two words are glued depends on every combination of statements, depths and margins.", "anchors": ["ast/ast_print.go:AstNode.Print", "ast/ast_print.go:newLine", "ast/ast_print.go:printTryStatement", "ast/ast.go:AstNode.Parse"]}
{"id": "C78", "title": "No name is declared twice", "statement": "In an accepted module no two module variables, no two procedures or functions, and no two of the parameters and local variables of one procedure have the same name, where the case of letters does not matter (as in the language).", "quantifier": "all accepted texts", "why_tests_cant": "Every pair of declarations of every module counts, in every letter case; tests show that one pair is detected, not which pairs are not.", "anchors": ["ast/ast.go:appendVarStatements", "ast/ast.go:createFunctionOrProcedure", "ast/grammar.y", "ast/ast.go:AstNode.Parse"]}
{"id": "C79", "title": "Trees made by a program print as code that reads back", "statement": "If a user builds a module tree (or changes a parsed one) and prints it, the printed code is accepted, whatever the settings, and what is read has the same variables, declarations and statements as the tree.", "quantifier": "all module trees that have the shape of parsed ones, with names and literals of any kind, and all print settings", "why_tests_cant": "Trees can have any size and nesting and hold any names, strings and numbers; a test prints a few trees, mostly ones that were parsed before.", "anchors": ["ast/ast_print.go:AstNode.Print", "ast/ast_struct.go", "ast/ast.go:AstNode.Parse", "ast/tokens.go"]}
{"id": "C80", "title": "Constants, labels and directives do not decide about acceptance", "statement": "If two texts have the same tokens except that single constants, labels and compilation directives are replaced by others of the same kind (each occurrence separately), then both are accepted or both are rejected, and the trees differ in these places only.", "quantifier": "all pairs of texts whose tokens differ in values of numbers, strings, dates, labels and directives only", "why_tests_cant": "Any number of places may change in programs of any size, independently of each other; a test changes a few values.", "anchors": ["ast/ast.go:AstNode.Parse", "ast/grammar.y", "ast/y.go", "ast/tokens.go:Token.Next"]}
{"id": "C81", "title": "Jumps have labels", "statement": "In an accepted module every Перейти goes to a label of the same procedure (or of the statements of the module), and no label stands twice there.", "quantifier": "all accepted texts", "why_tests_cant": "Every jump in every nesting of statements counts; tests show some programs with labels.", "anchors": ["ast/grammar.y:goToLabel", "ast/ast_struct.go:GoToStatement", "ast/ast_struct.go:GoToLabelStatement", "ast/ast.go:AstNode.Parse"]}
{"id": "C82", "title": "IsMethod tells calls from names", "statement": "For a chain like a.b or a.b().c in parsed code, IsMethod returns true if the chain as written ends with the closing parenthesis of a call, and false if it ends with a name or with an element in brackets.", "quantifier": "all texts that assign a chain: every chain of names, calls and elements, every way to write it", "why_tests_cant": "Chains may be of any length, with any arguments and indexes in them, and any keyword may be a name behind a point.", "anchors": ["ast/ast_struct.go:CallChainStatement.IsMethod", "ast/grammar.y:through_dot", "ast/ast.go:AstNode.Parse"]}
{"id": "C83", "title": "Params gives the arguments as written", "statement": "Params of a call or of Новый returns the arguments in the order of the text, as many as are written, with nil for those left out between commas, and nothing when there are no arguments.", "quantifier": "all texts that assign a call or Новый: every name, every list of arguments", "why_tests_cant": "Lists may be of any length with any expressions in them, and with arguments left out anywhere.", "anchors": ["ast/ast_struct.go:MethodStatement.Params", "ast/ast_struct.go:NewObjectStatement.Params", "ast/grammar.y:exprs", "ast/ast.go:AstNode.Parse"]}
{"id": "C84", "title": "Parse itself needs little memory for blocks", "statement": "Parsing a text of n characters allocates at most 15n+16 arrays of statements, and none of them ever holds more than 15n+16 statements, whatever the runtime's policy of growing slices; so all arrays together hold at most (15n+16)^2 statements, even where the tree read from them has exponentially many nodes.", "quantifier": "every text, accepted or not, every policy of growing slices", "why_tests_cant": "The growth policy belongs to the runtime, and the bound must hold for texts of every length, with every nesting of blocks and after every error.", "anchors": ["ast/grammar.y:body", "ast/y.go:yyParserImpl.Parse", "ast/ast.go:AstNode.Parse"]}
{"id": "C85", "title": "StatementWalk on any list of statements", "statement": "StatementWalk calls the callback for every statement of the given list and of all blocks in it exactly once, inner statements first, and besides only for parts of these; always with nil as first argument, and with the given parent for the statements of the list, the enclosing statement for all others. A callback that stores nothing changes nothing; what is stored replaces statements of the list, of blocks and arguments of calls. On the body of a procedure it makes the calls that Walk makes for that procedure, except for the first argument; two lists in a row are walked like one.", "quantifier": "all lists of statements, all parents, all callbacks", "why_tests_cant": "Lists may be nested to any depth, and the callback is any function with any state.", "anchors": ["ast/ast_struct.go:StatementWalk", "ast/ast_struct.go:walkHelper"]}
{"id": "C86", "title": "Walk shows every call", "statement": "Every call of a procedure or function anywhere in a parsed program is passed to the callback of Walk, as is every other part of the tree.", "quantifier": "all modules, all parts of their statements at any depth", "why_tests_cant": "Programs nest statements and expressions without bound, in every combination; a linter built on Walk silently misses what is not shown.", "anchors": ["ast/ast_struct.go:Walk", "ast/ast_struct.go:walkHelper"]}
{"id": "C87", "title": "Walk takes time proportional to the text", "statement": "On the tree of an accepted text Walk calls its callback at most twice for every token of the text, whatever the callback does.", "quantifier": "all accepted texts, all callbacks", "why_tests_cant": "The number of calls depends on how statements of earlier blocks get into later ones; tests on small files do not show exponential growth.", "anchors": ["ast/ast_struct.go:walkHelper", "ast/ast.go:Parse", "ast/grammar.y:body"]}
