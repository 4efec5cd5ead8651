"""The mutations applied by mutate.py: edits of the model as a realistic bug would edit the program."""
MUTATIONS = []


def M(name, file, definition, old, new, bug, claim, probe='', targets=None, **kw):
    edits = old if isinstance(old, list) else [(old, new)]
    MUTATIONS.append(dict(name=name, file=file, **{'def': definition}, edits=edits, bug=bug,
                          claim=[claim] if isinstance(claim, str) else claim, probe=probe,
                          targets=targets or ['Verif'], **kw))


def tok(*texts):
    return '\n'.join(f'#eval tokens "{t}"' for t in texts)


def par(*texts):
    return '\n'.join(f'#eval parsed "{t}"' for t in texts)


LEX = ['Verif.Props.Tokens', 'Verif.Props.Literals']
LIT = ['Verif.Props.Literals']
TXT = ['Verif.Props.Text']
PRG = ['Verif.Props.Program']
PRS = ['Verif.Props.Parse']
PRT = ['Verif.Props.Print']
WLK = ['Verif.Props.Walk']
JSN = ['Verif.Props.Json']
LOW = ['Verif.Props.ToLower']
BYT = ['Verif.Props.Bytes']
RPR = ['Verif.Props.Reprint']
BLX = ['Verif.Props.ByteLexer']
CON = ['Verif.Props.Concurrent']
ERR = ['Verif.Props.Errors']

# --- tokeniser -----------------------------------------------------------------------------------
M('lex_keyword_missing', 'Lexer.lean', 'keywords', '  ("или".toList, tOR),\n', '',
  'a keyword is missing from the table', 'C05', tok('ИЛИ или'), LEX)
M('lex_keyword_swapped', 'Lexer.lean', 'keywords', '("по".toList, tTo)', '("по".toList, tIn)',
  'a keyword has the number of another one', 'C05', tok('По'), LEX)
M('lex_keyword_case', 'Lexer.lean', 'lexWord', 'keywords.lookup (lower w)', 'keywords.lookup w',
  'keywords are compared without lower-casing', 'C05', tok('Если если'), LEX)
M('lex_space_cr', 'Lexer.lean', 'isSpace', " || c == '\\r' ||", ' ||',
  'carriage return is not blank', 'C03', tok('а\\r\\nб'), LEX)
M('lex_space_ff', 'Lexer.lean', 'isSpace', "c == ' ' ||", "c == ' ' || c == Char.ofNat 12 ||",
  'form feed counts as blank', ['C03', 'C01', 'C04'], tok('а\\x0cб'), LEX)
M('lex_comment_cr', 'Lexer.lean', 'skipLine', "if c = '\\n' then c :: r else skipLine r",
  "if c = '\\n' ∨ c = '\\r' then c :: r else skipLine r",
  'a comment ends at a carriage return', 'C04', tok('//к\\rб\\nв'), LEX)
M('lex_region_then_comment', 'Lexer.lean', 'skipRegionsF',
  "      | _ => s\n    match s1 with\n    | '/' :: _ => skipCommentF n s1\n",
  "      | _ => s\n    match s1 with\n",
  'a comment after a # line is not skipped', 'C04', tok('#x\\n//к\\nв'), LEX)
M('lex_comment_one', 'Lexer.lean', 'skipCommentF', "      | '/' :: _ => skipCommentF n s1\n", '',
  'only one comment line is skipped', 'C04', tok('//а\\n//к\\nв'), LEX)
M('lex_word_digits', 'Lexer.lean', 'isWordChar', 'isLetter c || isDigit c', 'isLetter c',
  'digits end an identifier', 'C02', tok('а1б'), LEX)
M('lex_word_skips', 'Lexer.lean', 'scanIdentifier', '(s.takeWhile isWordChar, s.dropWhile isWordChar)',
  '(s.takeWhile isWordChar, (s.dropWhile isWordChar).tail)',
  'one character after an identifier is lost', 'C02', tok('а+б'), LEX)
M('lex_word_underscore', 'Lexer.lean', 'isLetter', "Letters.isL c || c == '_'", 'Letters.isL c',
  'the underscore is not a letter', 'C02', tok('а_б'), LEX)
M('lex_dot_twice', 'Lexer.lean', 'lexNext', "(!t.prevDot && s.head? == some '.')", "(s.head? == some '.')",
  'the flag is set also by a dot after a dot', 'C06', tok('..если'), LEX)
M('lex_dot_sticky', 'Lexer.lean', 'lexNext', "(!t.prevDot && s.head? == some '.')",
  "(t.prevDot || s.head? == some '.')",
  'the flag is never cleared', 'C06', tok('а.б если'), LEX)
M('lex_dot_ignored', 'Lexer.lean', 'lexWord', '| some k => if prevDot then tIdent else k', '| some k => k',
  'keywords stay keywords after a dot', 'C06', tok('а.если'), LEX)
M('lex_string_quote', 'Lexer.lean', 'scanStringF', 'then addLit [\'"\', \'"\'] (scanStringF close n r)',
  'then addLit [\'"\'] (scanStringF close n r)',
  'a doubled quote is stored once', 'C07', '#eval tokens "\\"а\\"\\"б\\""', LIT)
M('lex_string_newline', 'Lexer.lean', 'scanStringF', "addLit ['\\n', d]", 'addLit [d]',
  'the line feed of a continued string is lost', 'C07', '#eval tokens "\\"а\\n|б\\""', LIT)
M('lex_string_bar', 'Lexer.lean', 'scanStringF', "addLit ['\\n', d]", "addLit ['\\n']",
  'the bar of a continued string is lost, so that the printed text has none', 'C07',
  '#eval tokens "\\"а\\n|б\\""', LIT)
M('lex_string_join', 'Lexer.lean', 'scanStringF',
  "if s2.head? = some '\"' then scanStringF close n s2 else (.ok [], s2)", '(.ok [], s2)',
  'strings that follow each other are not joined', 'C07', '#eval tokens "\\"а\\" \\"б\\""', LIT)
M('lex_string_eof', 'Lexer.lean', 'scanStringF', '    | [] => (.error .unexpectedEOF, [])\n    | c :: r',
  '    | [] => (.ok [], [])\n    | c :: r',
  'an unterminated string is accepted', 'C07', '#eval tokens "\\"а"', LIT)
M('lex_number_letter', 'Lexer.lean', 'scanNumber',
  'if isLetter c then (.error .identAfterNumber, r) else (.ok (s.takeWhile p), r)', 'let _ := c; (.ok (s.takeWhile p), r)',
  'a letter after a number is not reported', 'C08', tok('1а'), LIT)
M('lex_number_int', 'Lexer.lean', 'scanNumber', "isDigit c || c == '.'", 'isDigit c',
  'numbers end at a dot', 'C08', tok('1.5'), LIT)
M('lex_number_comma', 'Lexer.lean', 'scanNumber', "isDigit c || c == '.'", "isDigit c || c == '.' || c == ','",
  'a comma belongs to a number', 'C08', tok('1,5'), LIT)
M('float_two_dots', 'Float64.lean', 'parseFloat', "    if frac.contains '.' then none\n    else ofRat",
  '    ofRat', 'a number with two dots is accepted', 'C08', tok('1.2.3'), LIT)
M('float_ties', 'Float64.lean', 'roundHalfEven', 'else if q % 2 = 0 then q else q + 1', 'else q + 1',
  'ties are rounded up', 'C08', tok('9007199254740993'), LIT)
M('float_trunc', 'Float64.lean', 'roundHalfEven', 'else if d < 2 * r then q + 1', 'else if d < 2 * r then q',
  'rounding truncates', 'C08', tok('0.1'), LIT)
M('float_overflow_low', 'Float64.lean', 'ofRat', 'if 971 < q then none', 'if 970 < q then none',
  'the largest exponent is refused', 'C08', f'#eval tokens "{2**1023}"', LIT)
M('float_overflow_carry', 'Float64.lean', 'ofRat',
  'let (m, q) := if m = 2 ^ 53 then (2 ^ 52, q + 1) else (m, q)', 'let (m, q) := (m, q)',
  'a carry into the next binade is not normalised, so some overflow is not noticed', 'C08',
  f'#eval tokens "{2**1024 - 1}"', LIT)
M('float_subnormal', 'Float64.lean', 'ofRat', '(-1074)', '(-1022)',
  'subnormal numbers are rounded too coarsely', 'C08', '#eval tokens "0.' + '0' * 320 + '1"', LIT)
M('float_digits', 'Float64.lean', 'parseFloat', '(10 ^ frac.length)', '(10 ^ (frac.length - 1))',
  'the decimal point is one place off', 'C08', tok('1.25'), LIT)
M('date_leap', 'Time.lean', 'isLeap', 'y % 4 = 0 && (y % 100 ≠ 0 || y % 400 = 0)', 'y % 4 = 0 && y % 100 ≠ 0',
  'every century year is a common year', 'C09', tok("'20000229'"), LIT)
M('date_days', 'Time.lean', 'daysIn', 'm = 4 ∨ m = 6 ∨ m = 9', 'm = 4 ∨ m = 9',
  'June has 31 days', 'C09', tok("'20240631'"), LIT)
M('date_hour', 'Time.lean', 'valid', 't.hour < 24', 't.hour ≤ 24',
  'hour 24 is accepted', 'C09', tok("'20240101240000'"), LIT)
M('date_minutes', 'Lexer.lean', 'valueOf',
  '      | none => match Time.parse 12 l with\n        | some t => .ok (.date t)\n        | none => match',
  '      | none => match',
  'the form without seconds is not accepted', 'C09', tok("'202401010101'"), LIT)
M('date_zero', 'Lexer.lean', 'valueOf', "if l.all (· == '0') then .ok (.date Time.zero)\n    else match",
  'match', 'the empty date is refused', 'C09', tok("'00000000'"), LIT)
M('date_empty', 'Lexer.lean', 'lexDate', 'if extractDigits l = [] then ⟨.error .emptyDate, [], r⟩\n    else', '',
  'a date without digits is accepted', 'C09', tok("''"), LIT)
M('date_field', 'Time.lean', 'parse', 'field s 4 6, field s 6 8,', 'field s 6 8, field s 4 6,',
  'day and month are exchanged', 'C09', tok("'20240203'"), LIT)
M('lex_bad_char', 'Lexer.lean', 'nextRaw', 'else ⟨.error (.badChar c), [c], r⟩\n\nend', 'else ⟨.error (.badChar c), [c], c :: r⟩\n\nend',
  'a wrong character is not consumed', 'C01', '#eval tokens "@" 3', LEX)
M('lex_directive_rest', 'Lexer.lean', 'lexDirective', "⟨.error (.badChar '&'), ['&'], r⟩",
  "⟨.error (.badChar '&'), ['&'], '&' :: r⟩",
  'after an unknown directive nothing is consumed', 'C01', '#eval tokens "&х" 3', LEX)
M('lex_eof_error', 'Lexer.lean', 'nextRaw', '  | [] => ⟨.ok none, [], []⟩\n', "  | [] => ⟨.error .unexpectedEOF, [], []⟩\n",
  'the end of the text is an error', 'C01', '#eval tokens "а" 3', LEX)
M('lex_ne', 'Lexer.lean', 'lexLess', "  | '>' :: r => ⟨.ok (some tNeEQ), ['<', '>'], r⟩\n", '',
  '<> is read as two tokens', 'C16', tok('<>'), TXT)
M('lex_ge', 'Lexer.lean', 'lexGreater', "some tGE", 'some tLE', '>= has the number of <=', 'C16', tok('>='), TXT)
M('lex_percent', 'Lexer.lean', 'isPunct', " || c == '%'", '', '% is not a token', 'C16', tok('1 % 2'), TXT)
M('lex_directive_missing', 'Lexer.lean', 'directives', '  ("&насервере".toList, tDirective),\n', '',
  'a directive is missing', 'C16', tok('&НаСервере'), TXT)
M('lex_bool', 'Lexer.lean', 'valueOf', 'else if k = tTrue then .ok (.bool true)', 'else if k = tTrue then .ok (.bool false)',
  'Истина has the value false', 'C16', tok('Истина'), TXT)
M('lex_label', 'Lexer.lean', 'lexLabel', '⟨.ok (some tGoToLabel), (scanIdentifier r).1,', "⟨.ok (some tGoToLabel), '~' :: (scanIdentifier r).1,",
  'the tilde is kept in the name of a label', 'C16', tok('~м'), TXT)

# --- bytes, lower-casing -------------------------------------------------------------------------
M('utf8_surrogates', 'Utf8.lean', 'accept2', 'if b0.toNat = 0xED then 0x9F else ', '',
  'encoded surrogates are decoded', 'C13', '#eval (Utf8.decodeAll [0xED, 0xA0, 0x80]).map Char.toNat', BYT)
M('utf8_overlong', 'Utf8.lean', 'decodeRune', 'x < 0xC2', 'x < 0xC0',
  'overlong two-byte forms are decoded', 'C13', '#eval (Utf8.decodeAll [0xC1, 0x81]).map Char.toNat', BYT)
M('utf8_size', 'Utf8.lean', 'decodeRune', 'b1.toNat % 0x40), 2) else', 'b1.toNat % 0x40), 1) else',
  'a two-byte character advances by one byte', 'C13', '#eval (Utf8.decodeAll [0xD0, 0x90]).map Char.toNat', BYT)
M('utf8_end', 'Utf8.lean', 'currentLetB', 'if offset ≥ code.length then', 'if offset > code.length then',
  'the test for the end is one off', 'C13', '#eval (Utf8.currentLetB [] 0).map Char.toNat', BYT)
M('low_yo', 'ToLower.lean', 'fastToLowerFrom', 'else if n = 0x401 then\n      match', 'else if n = 0x400 then\n      match',
  'Ё is not lower-cased', 'C11', '#eval ToLower.fastToLower (Utf8.encode "Ё".toList)', LOW)
M('low_last', 'ToLower.lean', 'fastToLowerFrom', '0x410 ≤ n ∧ n ≤ 0x42F then\n      match', '0x410 ≤ n ∧ n < 0x42F then\n      match',
  'Я is not lower-cased', 'C11', '#eval ToLower.fastToLower (Utf8.encode "Я".toList)', LOW)
M('low_half', 'ToLower.lean', 'fastToLowerFrom', '0x41F < n', '0x420 < n',
  'the first letter of the second half gets the wrong bytes', 'C11', '#eval ToLower.fastToLower (Utf8.encode "Р".toList)', LOW)
M('low_ascii', 'ToLower.lean', 'fastToLowerFrom', 'if 0x41 ≤ n ∧ n ≤ 0x5A then (b + 32)', 'if 0x41 < n ∧ n ≤ 0x5A then (b + 32)',
  'the letter A is not lower-cased', 'C11', '#eval ToLower.fastToLower (Utf8.encode "A".toList)', LOW)
M('low_skip', 'ToLower.lean', 'fastToLowerFrom', 'fastToLowerFrom ((decodeRune (b :: r)).2 - 1) r', 'fastToLowerFrom 0 r',
  'the walk goes byte by byte after other characters', 'C11', '#eval ToLower.fastToLower [0xE2, 0x84, 0x96]', LOW,
  note='continuation bytes decode as U+FFFD and are copied unchanged, so the result is the same')
M('low_old', 'ToLower.lean', 'lowerRune', 'Char.ofNat 0x451', 'Char.ofNat 0x450',
  'the old implementation maps Ё wrongly', ['C11', 'C05'], '#eval ToLower.fastToLowerOld (Utf8.encode "Ё".toList)', LOW)
M('c_yo', 'ToLower.lean', 'cStep', 'else if ch = 1025 then (s.buf.set (i - 2) 209).set (i - 1) 145\n', '',
  'the C function does not lower-case Ё', 'C12', '#eval ToLower.cRun 9 ⟨Utf8.encode "Ё".toList, 0⟩', LOW)
M('c_size', 'ToLower.lean', 'cStep', 'b2 % 0x40, s.i + 3)', 'b2 % 0x40, s.i + 2)',
  'the C function advances by two bytes after a three-byte character and hangs', 'C12',
  '#eval ToLower.cRun 9 ⟨Utf8.encode "№".toList, 0⟩', LOW)
M('c_fixed', 'ToLower.lean', 'cStep', '(cTolower (cget s.buf i))', '(cTolower (cget s.buf (i - 1)))',
  'the opposite of a bug: the known error of the C function is repaired', 'C12',
  '#eval ToLower.cRun 9 ⟨Utf8.encode "AB".toList, 0⟩', LOW)

# --- parser --------------------------------------------------------------------------------------
M('par_var_order', 'Parser.lean', 'appendGlobal', 'if a.mod.body ≠ [] then a.error .varOrder\n  else if', 'if',
  'variables are accepted after procedures', 'C26', par('Процедура А() КонецПроцедуры Перем б;'), PRG)
M('par_var_dup', 'Parser.lean', 'appendGlobal', 'else if a.mod.globals.any (fun g => g.name == v.name) then a.error (.dupVar v.name)\n', '',
  'duplicate module variables are accepted', 'C24', par('Перем а; Перем а;'), PRG)
M('par_var_front', 'Parser.lean', 'appendGlobal', 'a.mod.globals ++ [v]', '[v]',
  'a variable replaces the earlier ones', 'C24', par('Перем а; Перем б;'), PRG)
M('par_func_order', 'Parser.lean', 'appendFunc', 'a.mod.body ++ [.func f]', '.func f :: a.mod.body',
  'procedures are stored in reverse', 'C26', par('Процедура А() КонецПроцедуры Процедура Б() КонецПроцедуры'), PRG)
M('par_func_after', 'Parser.lean', 'appendFunc', '  match a.mod.body.getLast? with\n  | some (.stm _) => a.error .funcOrder\n  | _ => .ok',
  '  match a.mod.body.getLast? with\n  | _ => .ok',
  'the check that procedures come before statements is missing', 'C44',
  '#eval match @parse stdLetters (newAST "Процедура А() КонецПроцедуры б = 1".toList) with | .ret a => (match @parse stdLetters a with | .ret b => reprStr b.err | _ => "") | _ => ""',
  ['Verif.Props.Again'],
  note='in one Parse the grammar already forces the order (C26_order holds with either); the check matters for a second Parse')
M('par_stms_front', 'Parser.lean', 'appendStms', 'a.mod.body ++ l.map .stm', 'l.map .stm ++ a.mod.body',
  'module statements are put before the procedures', 'C26', par('Процедура А() КонецПроцедуры б = 1'), PRG)
M('par_loop_check', 'Parser.lean', 'checkLoop', 'if a.isLoop = 0 then', 'if a.isLoop < 0 then',
  'Прервать is accepted everywhere', 'C21', par('Прервать'), PRG)
M('par_loop_clear', 'Parser.lean', 'act', '      setLoop a false)\n  | 36', '      a)\n  | 36',
  'Для Каждого does not clear the loop flag', 'C21',
  par('Для Каждого а Из б Цикл КонецЦикла; Прервать'), PRG)
M('par_loop_set', 'Parser.lean', 'act', '  | 36 => .ok (v, setLoop a true)\n', '  | 36 => .ok (v, a)\n',
  'Для По does not set the loop flag', 'C16', par('Для а = 1 По 2 Цикл Прервать КонецЦикла'), PRG)
M('par_throw_check', 'Parser.lean', 'checkThrow', 'if a.isTry = 0 ∧ param.isNil then', 'if a.isTry < 0 ∧ param.isNil then',
  'ВызватьИсключение without argument is accepted everywhere', 'C22', par('ВызватьИсключение'), PRG)
M('par_throw_any', 'Parser.lean', 'checkThrow', 'if a.isTry = 0 ∧ param.isNil then', 'if a.isTry = 0 then',
  'ВызватьИсключение with argument is refused outside handlers', 'C16', par('ВызватьИсключение \\"а\\"'), PRG)
M('par_try_clear', 'Parser.lean', 'act', '.tryS (d 2).opt_body (d 5).opt_body }, setTry a false)', '.tryS (d 2).opt_body (d 5).opt_body }, a)',
  'the handler flag is not cleared', 'C22', par('Попытка Исключение КонецПопытки; ВызватьИсключение'), PRG)
M('par_try_parts', 'Parser.lean', 'act', '.tryS (d 2).opt_body (d 5).opt_body', '.tryS (d 5).opt_body (d 2).opt_body',
  'the two parts of Попытка are exchanged', 'C27', par('Попытка а = 1 Исключение б = 2 КонецПопытки'), PRG)
M('par_return_check', 'Parser.lean', 'checkReturn', 'if !a.isFunc ∧ !param.isNil then', 'if false ∧ !a.isFunc ∧ !param.isNil then',
  'a value may be returned from a procedure', 'C23', par('Процедура А() Возврат 1 КонецПроцедуры'), PRG)
M('par_func_clear', 'Parser.lean', 'act', '      { a with isFunc := false })\n', '      a)\n',
  'the flag "in a function" is never cleared', 'C23', par('Функция А() КонецФункции Возврат 1'), PRG)
M('par_export', 'Parser.lean', 'createFunc', '«export» := exp.isSome', '«export» := exp.isNone',
  'the Export flag of procedures is inverted', 'C31', par('Процедура А() Экспорт КонецПроцедуры'), PRG)
M('par_directive', 'Parser.lean', 'createFunc', 'directive := match directive with | some t => t.literal | none => []', 'directive := match directive with | some _ => [] | none => []',
  'the directive of a procedure is lost', 'C31', par('&НаКлиенте Процедура А() КонецПроцедуры'), PRG)
M('par_var_export', 'Parser.lean', 'act', '(d 4).opt_export.isSome } }, a)', 'false } }, a)',
  'the Export flag of variables is lost', 'C24', par('Перем а Экспорт;'), PRG)
M('par_kind', 'Parser.lean', 'act', 'createFunc false (d 1)', 'createFunc true (d 1)',
  'procedures are recorded as functions', 'C31', par('Процедура А() КонецПроцедуры'), PRG)
M('par_local_dup', 'Parser.lean', 'appendVars', 'if ks.contains t.literal then .ok ⟨some ks, some t.literal⟩\n      else appendVars (some (ks ++ [t.literal])) ts',
  'if ks.contains t.literal then appendVars (some ks) ts\n      else appendVars (some (ks ++ [t.literal])) ts',
  'duplicate local variables are accepted', 'C25', par('Процедура А() Перем а, а; КонецПроцедуры'), PRG)
M('par_local_first', 'Parser.lean', 'act', '    let r ← appendVars (d 1).explicit_variables (d 3).identifiers\n',
  '    let r ← appendVars (some []) (d 3).identifiers\n',
  'a second Перем forgets the variables of the first', 'C25', par('Процедура А() Перем а; Перем б; КонецПроцедуры'), PRG)
M('par_block_order', 'Parser.lean', 'act', 'v.body ++ [(d 3).stmt] }', '(d 3).stmt :: v.body }',
  'the statements of a block are reversed', 'C27', par('а = 1; б = 2'), PRG)
M('par_block_lost', 'Parser.lean', 'act', 'v.body ++ [(d 3).stmt] }', '[(d 3).stmt] }',
  'only the last statement of a block is kept', 'C27', par('а = 1; б = 2'), PRG)
M('par_colon', 'Parser.lean', 'checkColon', '    | some _ => a.error .semicolon\n', '    | some _ => .ok a\n',
  'a colon is accepted after every statement', 'C32', par('а = 1: б = 2'), PRG)
M('par_if_parts', 'Parser.lean', 'act', '(d 4).opt_body (d 5).opt_elseif_list (d 6).opt_else }', '(d 6).opt_else (d 5).opt_elseif_list (d 4).opt_body }',
  'the branches of Если are exchanged', 'C28', par('Если а Тогда б = 1 Иначе в = 2 КонецЕсли'), PRG)
M('par_elif_order', 'Parser.lean', 'act', '(d 5).opt_elseif_list ++ [.ifS (d 2).stmt (d 4).opt_body [] []] }', '(List.cons (Stm.ifS (d 2).stmt (d 4).opt_body [] []) (d 5).opt_elseif_list) }',
  'the opposite of a bug: the order of ИначеЕсли is repaired', 'C28', par('Если а Тогда ИначеЕсли б Тогда ИначеЕсли в Тогда КонецЕсли'), PRG)
M('par_minus_operands', 'Parser.lean', 'act', 'mkBin .minus (d 1).stmt (d 3).stmt', 'mkBin .minus (d 3).stmt (d 1).stmt',
  'the operands of minus are exchanged', 'C30', par('а = б - в'), PRG)
M('par_op', 'Parser.lean', 'act', 'mkBin .ge (d 1)', 'mkBin .gt (d 1)', '>= is stored as >', 'C30', par('а = б >= в'), PRG)
M('par_neg_number', 'Parser.lean', 'unaryMinus', '| .num x => .num x.negate\n', '| .num x => .num x\n',
  'the minus of a number is lost', 'C29', par('а = -1'), PRG)
M('par_not_bool', 'Parser.lean', 'notStm', '| .bool b => .bool !b\n', '| .bool b => .bool b\n',
  'Не Истина is Истина', 'C29', par('а = Не Истина'), PRG)
M('par_neg_var', 'Parser.lean', 'unaryMinus', '| .var s _ n => .var s true n\n', '| .var s _ _ => .var s true false\n',
  'a minus clears Не', 'C29', par('а = -(Не б)'), PRG,
  note='no source text applies minus to a variable that carries Не: -(Не б) acts on the parentheses')
M('par_args', 'Parser.lean', 'act', '{ v with exprs := v.exprs ++ [(d 3).stmt] }', '{ v with exprs := (d 3).stmt :: v.exprs }',
  'arguments are reversed', 'C16', par('Ф(1, 2)'), PRG)
M('par_default', 'Parser.lean', 'act', 'v.dparam.defaultValue (d 3).stmt', 'v.dparam.defaultValue .nil',
  'default values are replaced by Неопределено', 'C31', par('Процедура А(а = 1) КонецПроцедуры'), PRG)
M('par_value', 'Parser.lean', 'act', 'fillParam true (d 2).token', 'fillParam false (d 2).token',
  'Знач is lost', 'C31', par('Процедура А(Знач а) КонецПроцедуры'), PRG)
M('par_params', 'Parser.lean', 'act', '(d 1).dparams ++ [(d 3).dparam]', '(d 3).dparam :: (d 1).dparams',
  'parameters are reversed', 'C31', par('Процедура А(а, б) КонецПроцедуры'), PRG)
M('par_chain', 'Parser.lean', 'act', '.chain (d 3).stmt (d 1).stmt', '.chain (d 1).stmt (d 3).stmt',
  'the two sides of a dot are exchanged', 'C16', par('а.б = 1'), PRG)
M('par_item', 'Parser.lean', 'act', '.item (d 3).stmt (d 1).stmt', '.item (d 1).stmt (d 3).stmt',
  'index and object are exchanged', 'C16', par('а[1] = 1'), PRG)
M('par_ternary', 'Parser.lean', 'act', '.ternary (d 3).stmt (d 5).stmt (d 7).stmt', '.ternary (d 3).stmt (d 7).stmt (d 5).stmt',
  'the two values of ?( , , ) are exchanged', 'C16', par('а = ?(б, 1, 2)'), PRG)
M('par_new', 'Parser.lean', 'act', '.new (d 2).token.literal (d 4).exprs', '.new (d 2).token.literal []',
  'the arguments of Новый are lost', 'C16', par('а = Новый Ф(1)'), PRG)
M('par_column', 'Ast.lean', 'Ast.error', '(col - (t.literal.length + 1))', '(col - t.literal.length)',
  'columns are one too large', 'C10', par('а = б в'), PRS)
M('par_line', 'Ast.lean', 'getPosition', "((pre.count '\\n' : Int) + 1,", "((pre.count '\\n' : Int),",
  'lines are counted from 0', 'C10', par('а = б в'), PRS)
M('par_lex_error', 'Parser.lean', 'lexCall', '| (t\', .error e) => ({ a with err := some (.lex e) }, t\', none)', '| (t\', .error _) => (a, t\', none)',
  'errors of the tokeniser are not recorded', 'C18', par('а = 1 @'), PRS)
M('par_syntax_error', 'Parser.lean', 'syntaxError', '  | none => .ok (.done 1 a)\n', '  | none => .ok (.done 1 c.ast)\n',
  'a syntax error is not recorded', 'C15', par('а = ='), PRS)
M('par_err_reset', 'Parser.lean', 'lexCall', '| (t\', .ok (some k)) => ({ a with cur := some t\' }, t\', some k)',
  '| (t\', .ok (some k)) => ({ a with cur := some t\', err := none }, t\', some k)',
  'an error is forgotten when the next token is read', 'C19', par('Прервать; а = 1'), PRS)
M('par_blank', 'Parser.lean', 'isUnicodeSpace', ' || n == 0x85', '', 'U+0085 is not white space', 'C17',
  '#eval reprStr (@parse stdLetters (newAST [Char.ofNat 0x85]) matches .ret ⟨_, none, _, _, _, _, _⟩)', PRS)
M('par_eof_early', 'Parser.lean', 'fetch', '({ c with ast := a, lval := t }, tokEnd)', '({ c with ast := a, lval := t, look := some tokEnd }, tokEnd)',
  'the end of the text is kept as lookahead', ['C15', 'C20'], par('а = 1'), PRS,
  note='observable only in the number of tokeniser calls')

# --- printing ------------------------------------------------------------------------------------
M('prt_neg', 'Float64.lean', 'fmt0', "(if x.neg then ['-'] else []) ++ ", '',
  'negative numbers are printed without sign', 'C34', '#eval printed "а = -1"', PRT)
M('prt_var_not', 'Print.lean', 'pr', 'onFlag (m.isExpr && n) "Не ".toList ++ onFlag (m.isExpr && u)', 'onFlag (m.isExpr && u)',
  'Не of a variable is not printed', 'C35', '#eval printed "а = Не б"', PRT)
M('prt_var_minus', 'Print.lean', 'pr', "onFlag (m.isExpr && u) ['-'] ++ s", 's',
  'minus of a variable is not printed', 'C35', '#eval printed "а = -б"', PRT)
M('prt_method_not', 'Print.lean', 'pr', '| .method f ps n => onFlag n "Не ".toList ++ f', '| .method f ps _ => f',
  'Не of a call is not printed', 'C35', '#eval printed "а = Не Ф()"', PRT)
M('prt_bin_minus', 'Print.lean', 'pr', "onFlag u ['-'] ++ onFlag (u || n)", 'onFlag (u || n)',
  'minus of an operation is not printed', 'C35', '#eval printed "а = -(б + 1)"', PRT)
M('prt_bin_paren', 'Print.lean', 'pr', "onFlag (0 < m.level) ['('] ++ onFlag n", 'onFlag n',
  'the opening parenthesis of an inner operation is missing', ['C37', 'C38'], '#eval printed "а = (б + 1) * 2"', RPR)
M('prt_op', 'Print.lean', 'Op.text', "| .le => ['<', '=']", "| .le => ['<']",
  '<= is printed as <', 'C38', '#eval printed "а = б <= 2"', RPR)
M('prt_global_export', 'Print.lean', 'printGlobal', ' ++\n    onFlag v.export " Экспорт ".toList ++ [\';\']', " ++ [';']",
  'Экспорт of module variables is not printed', 'C36', '#eval printed "Перем а Экспорт; б = 1"', PRT)
M('prt_global_directive', 'Print.lean', 'printGlobal', "(if v.directive = [] then [] else ['\\n'] ++ v.directive ++ ['\\n']) ++ ", '',
  'the directive of module variables is not printed', 'C36', '#eval printed "&НаКлиенте Перем а; б = 1"', PRT)
M('prt_global_order', 'Print.lean', 'printModule', '(gs.map fun g => printGlobal g ++ cf.nl 1).flatten ++ printItems cf m.body',
  'printItems cf m.body ++ (gs.map fun g => printGlobal g ++ cf.nl 1).flatten',
  'module variables are printed last', 'C39', '#eval printed "Перем а; б = 1"', PRT)
M('prt_items_first', 'Print.lean', 'printItems', '| .func f :: l => printFunc cf f ++ cf.nl 3 ++ printItems cf l', '| .func f :: _ => printFunc cf f ++ cf.nl 3',
  'printing stops after the first procedure', ['C35', 'C38'], '#eval printed "Процедура А() КонецПроцедуры б = 1"', PRT)
M('prt_else', 'Print.lean', 'printItem', '| els => cf.sp d ++ "Иначе ".toList ++ printBody cf (d + 1) els)', '| _ => [])',
  'the Иначе branch is not printed', 'C35', '#eval printed "Если а Тогда Иначе б = 1 КонецЕсли"', PRT)

# --- walking -------------------------------------------------------------------------------------
WP = '''def names (s : String) : List String := match parseStd s with
  | some (m, _) => (walk (σ := List String) ⟨fun st v => (st ++ [s!"{v.root} {(reprStr v.elem).take 60}"], v.elem),
      fun st v => (st ++ [s!"{v.root} item"], v.elem)⟩ [] m).1
  | none => []
#eval names "Процедура А() Если а Тогда б = 1 Иначе в = 2 КонецЕсли; Попытка г = 1 Исключение д = 2 КонецПопытки; Пока е Цикл ж = 1 КонецЦикла КонецПроцедуры з = 1"'''
M('walk_else', 'Walk.lean', 'walkKids', '    let (st, els\') := walkL f root v st els\n', "    let els' := els\n",
  'the Иначе branch is not walked', 'C40', WP, WLK)
M('walk_catch', 'Walk.lean', 'walkKids', "    let (st, c') := walkL f root v st c\n    (st, .tryS b' c')", "    (st, .tryS b' c)",
  'the handler is not walked', 'C40', WP, WLK)
M('walk_loop', 'Walk.lean', 'walkKids', "    let (st, body') := walkL f root v st body\n    (st, .loop", "    let body' := body; let _ := v\n    (st, .loop",
  'loop bodies are not walked', 'C40', WP, WLK)
M('walk_order', 'Walk.lean', 'walkL', "    let (st, s') := walkKids f root st s\n    let (st, s'') := f.stm st ⟨root, parent, s'⟩\n",
  "    let (st, s'') := f.stm st ⟨root, parent, s⟩\n    let (st, s') := walkKids f root st s; let _ := s'\n",
  'the callback comes before the children', 'C40', WP, WLK)
M('walk_last', 'Walk.lean', 'walkL', '  | s :: l =>\n    let (st, s\')', '  | [s] => (st, [s])\n  | s :: l =>\n    let (st, s\')',
  'the last statement of a block is skipped', 'C40', WP, WLK)
M('walk_root', 'Walk.lean', 'walkItems', 'walkL f (some i) (.func i) st d.body', 'walkL f root (.func i) st d.body',
  'the body of a procedure gets the root of the element before', 'C41', WP, WLK)
M('walk_root_next', 'Walk.lean', 'walkItems', "let (st, l') := walkItems f (some i) (i + 1) st l", "let (st, l') := walkItems f none (i + 1) st l",
  'the opposite of a bug: module statements get the root nil', 'C41', WP, WLK)
M('walk_store', 'Walk.lean', 'walkL', "(st, s'' :: l')", "let _ := s''; (st, s' :: l')",
  'what the callback stores is lost', 'C42', '', WLK)
M('walk_store_rest', 'Walk.lean', 'walkL', "(st, s'' :: l')", "let _ := l'; (st, s'' :: l)",
  'only the first store of a block is kept', 'C42', '', WLK)
M('walk_unchanged', 'Walk.lean', 'walkKids', "(st, .tryS b' c')", "(st, .tryS b' [])",
  'walking drops the handler', 'C42', '', WLK)

# --- JSON ----------------------------------------------------------------------------------------
M('json_param', 'Json.lean', 'jStm', '| .method n ps _ => .obj [fld "Name" (.str n), fld "Param" (.obj [fld "Statements" (jSlice (jL ps))])]', '| .method n _ _ => .obj [fld "Name" (.str n), fld "Param" .null]',
  'arguments are not in the JSON', 'C43', '', JSN)
M('json_op', 'Json.lean', 'Op.num', '.ge => 10', '.ge => 9', 'two operations have the same number', 'C43', '', JSN)
M('json_default', 'Json.lean', 'jParam', 'fldOpt "Default" p.default (jStm p.default) ++ ', '', 'default values are not in the JSON', 'C43', '', JSN)
M('json_export', 'Json.lean', 'jFunc', 'fld "Export" (.bool f.export)]', 'fld "Export" (.bool false)]', 'Export is not in the JSON', 'C43', '', JSN)
M('json_else', 'Json.lean', 'jStm', 'fld "IfElseBlock" (.arr (jElifs elifs)), fld "ElseBlock" (jSlice (jL els))]', 'fld "IfElseBlock" (.arr (jElifs elifs)), fld "ElseBlock" (jSlice (jL tb))]',
  'the Иначе branch is replaced by the first branch', 'C43', '', JSN)
M('json_globals', 'Json.lean', 'jModule', '(m.globals.map fun g => (g.name, jGVar g))', '((m.globals.take 1).map fun g => (g.name, jGVar g))',
  'only one module variable is in the JSON', 'C43', '', JSN)
M('json_globals_name', 'Json.lean', 'jModule', '(m.globals.map fun g => (g.name, jGVar g))', '(m.globals.map fun g => ([], jGVar g))',
  'module variables lose their key', 'C43', '', JSN)
M('json_date', 'Json.lean', 'jTime', "[':'] ++ Time.pad 2 t.sec ++ ['Z'])", "['Z'])", 'seconds are not in the JSON', 'C43', '', JSN)

# --- tokeniser on bytes --------------------------------------------------------------------------
M('blx_str_space', 'ByteLexer.lean', 'scanStrB', '      skipSpaceB code (code.length + 1)\n      skipCommentB code (2 * code.length + 3)\n', '      skipCommentB code (2 * code.length + 3)\n',
  'indentation before | is not skipped', 'C13', '', BLX)
M('blx_str_comment', 'ByteLexer.lean', 'scanStrB', '      skipSpaceB code (code.length + 1)\n      skipCommentB code (2 * code.length + 3)\n', '      skipSpaceB code (code.length + 1)\n',
  'comments between the lines of a string are not skipped', 'C13', '', BLX)
M('blx_ident', 'ByteLexer.lean', 'scanIdentB', '!isLetter c && !isDigit c', '!isLetter c',
  'digits end a word', 'C13', '', BLX)
M('blx_keyword', 'ByteLexer.lean', 'scanB', 'lookupB keywords (ToLower.fastToLower literal)', 'lookupB keywords literal',
  'keywords are compared without lower-casing', 'C13', '', BLX)
M('blx_directive_pos', 'ByteLexer.lean', 'scanB', '        setOff pos\n', '        let _ := pos\n',
  'the offset is not reset after an unknown directive', 'C13', '', BLX)
M('blx_adv', 'ByteLexer.lean', 'adv', '(nextPosB code o).map fun o\' => ((), o\')', 'let _ := code; some ((), o + 1)',
  'the offset advances by one byte for every letter', 'C13', '', BLX)
M('blx_line_eof', 'ByteLexer.lean', 'skipLineB', "ch ≠ some '\\n' ∧ ch ≠ none", "ch ≠ some '\\n'",
  'a comment on the last line never ends', 'C13', '', BLX)
M('blx_dot', 'ByteLexer.lean', 'lexNextB', '!t.prevDot && dot', 'dot', 'the flag for dots is not reset by a second dot', 'C13', '', BLX)
M('blx_value_err', 'ByteLexer.lean', 'valueB', 'then none else r.err)', 'then none else none)',
  'a good value hides the error of the token', 'C13', '', BLX)
M('blx_pos_bytes', 'ByteLexer.lean', 'getPositionB', '((decodeAll line).length : Int)', '(line.length : Int)',
  'columns count bytes', ['C13', 'C10'], '', BLX)
M('blx_pos_line', 'ByteLexer.lean', 'getPositionB', '(pre.count 10 : Int) + 1', '(pre.count 10 : Int)',
  'lines count from zero', ['C13', 'C10'], '', BLX)
M('blx_num_letter', 'ByteLexer.lean', 'scanB', 'if behind.any isLetter then pure ⟨none, [], some .identAfterNumber⟩ else pure', 'let _ := behind; pure',
  'a letter may follow a number', 'C13', '', BLX)
M('blx_ne', 'ByteLexer.lean', 'scanB', "        adv code\n        adv code\n        pure ⟨some tNeEQ", "        adv code\n        pure ⟨some tNeEQ",
  'the second character of <> is left', 'C13', '', BLX)
M('blx_region', 'ByteLexer.lean', 'skipRegionsB', "      skipSpaceB code (code.length + 1)\n    let cl ← cur code\n    if cl = some '/' then skipCommentB code n\n    else if",
  "      skipSpaceB code (code.length + 1)\n    let cl ← cur code\n    if",
  'comments behind # lines are not skipped', 'C13', '', BLX)

# --- driver and tables ---------------------------------------------------------------------------
M('drv_fresh', 'Parser.lean', 'reduce', 'act p d (stale.headD {}) c.ast', 'act p d (if k = 0 then {} else stale.headD {}) c.ast',
  'the opposite of a bug: empty right sides start from a cleared slot', 'C27', par('а = 1; Если б Тогда ; КонецЕсли'), PRG)
M('drv_goto_sign', 'Parser.lean', 'gotoOf', 'get yyChk m ≠ -n', 'get yyChk m ≠ n', 'the check of the goto table has the wrong sign', ['C15', 'C16'], par('а = 1'), PRS)
M('drv_goto_base', 'Parser.lean', 'gotoOf', 'g + (s : Int) + 1', 'g + (s : Int)', 'the goto table is read at the wrong place', ['C15', 'C16'], par('а = 1'), PRS)
M('drv_exca', 'Parser.lean', 'excaFind', 'if x < 0 ∨ x = (t : Int)', 'if x = (t : Int)', 'the default entry of the exception table is skipped', ['C15', 'C16'],
  par('Процедура А() КонецПроцедуры а = 1'), PRS)
M('drv_look', 'Parser.lean', 'step', '({ c with look := none } : Cfg)', 'c', 'the lookahead is not cleared after a shift', ['C14', 'C15', 'C16'], par('а = 1'), PRS)
M('drv_lval', 'Parser.lean', 'step', "push s' { token := c.lval }", "push s' {}", 'the token is not pushed', ['C15', 'C16'], par('а = 1'), PRG)
M('drv_private', 'Parser.lean', 'tokNum', 'c < yyPrivate + 50', 'c < yyPrivate + 40', 'the last token numbers are unknown', ['C15', 'C16'], par('Выполнить(\'а\')', 'а = Новый Ф', 'а = б >= в'), PRG)
M('drv_tok1', 'Parser.lean', 'tokNum', 'else if c < 94', 'else if c < 91', 'the bracket is an unknown token', ['C15', 'C16'], par('а = б[1]'), PRG)
M('drv_fuel', 'Parser.lean', 'fuel', '15 * n + 16', '2 * n + 16', 'the bound on the rounds of the driver is too small', 'C14', par('а = ((((((б))))))'), PRS)
M('drv_recover', 'Parser.lean', 'recover', '    | none => recover l\n', '    | none => if s = 0 then some (0, [(0, {})]) else recover l\n',
  'after a syntax error parsing starts again', 'C19', '', PRS)
M('tab_r2', 'Tables.lean', 'yyR2', '[0, 1, 5, 0, 11, 10, 0, 1, 1, 3],', '[0, 1, 5, 0, 10, 10, 0, 1, 1, 3],', 'the length of a production is wrong', ['C15', 'C16'],
  par('Функция А() КонецФункции'), PRS)
M('tab_r1', 'Tables.lean', 'yyR1', '[12, 12, 32, 37, 5, 5, 2, 2, 1, 1],', '[12, 12, 32, 37, 5, 5, 2, 2, 2, 1],', 'the left side of a production is wrong', ['C15', 'C16'],
  par('а = 1; б = 2'), PRS)
M('tab_def', 'Tables.lean', 'yyDef', '[47, 48, 49, 50, 84, 84, 6, 7, 53, 64],', '[47, 48, 50, 49, 84, 84, 6, 7, 53, 64],', 'Продолжить and Прервать are exchanged', ['C15', 'C16'],
  par('Пока а Цикл Прервать КонецЦикла'), PRG)
M('tab_act', 'Tables.lean', 'yyAct', '[66, 63, 67, 68, 64, 65, 91, 92, 116, 7],', '[67, 63, 66, 68, 64, 65, 91, 92, 116, 7],', 'two operators go to each other\'s state', ['C15', 'C16'],
  par('а = б <= в', 'а = б > в', 'а = б ИЛИ в'), PRS)
M('tab_exca', 'Tables.lean', 'yyExca', '[-2, 16]]', '[-2, 0]]', 'the default of a state is an error', ['C16', 'C46'], par('Процедура А() КонецПроцедуры а = 1'), PRG)

# --- goroutines ----------------------------------------------------------------------------------
M('con_shared', 'Concurrent.lean', 'Sys.sched', 'if j = i then q else ps j', 'if j = i ∨ j = i + 1 then q else ps j', 'two goroutines share their state', 'C45', '', CON)
M('con_lost', 'Concurrent.lean', 'Sys.sched', 'if j = i then q else ps j', 'ps j', 'the step of a goroutine is lost', 'C45', '', CON)
M('con_blank', 'Concurrent.lean', 'Proc.move', '.start a => if a.code.all isUnicodeSpace then .ok (.done a) else .ok (.loop (initCfg a))', '.start a => .ok (.loop (initCfg a))',
  'blank texts go to the driver', 'C45', '', CON)
M('con_restart', 'Concurrent.lean', 'Proc.move', '  | .done a => .ok (.done a)', '  | .done a => .ok (.start a)', 'a goroutine that has returned parses again', 'C45', '', CON)

# --- printing, as code ---------------------------------------------------------------------------
def prt(name, definition, old, new, bug, claim, text):
    M(name, 'Print.lean', definition, old, new, bug, claim, f'#eval printed "{text}"', RPR)


prt('prt_ternary', 'pr', 'pr (.expr 0) t ++ [\',\', \' \'] ++ pr (.expr 0) e', 'pr (.expr 0) e ++ [\',\', \' \'] ++ pr (.expr 0) t',
    'the branches of ?( , , ) are exchanged', 'C50', 'а = ?(б, 1, 2)')
prt('prt_args_sep', 'pr', "++ f ++ ['('] ++ join [',', ' '] (prList ps)", "++ f ++ ['('] ++ join [' '] (prList ps)",
    'no comma between arguments', ['C38', 'C50'], 'Ф(1, 2)')
prt('prt_func_export', 'printFunc', 'onFlag f.export "Экспорт ".toList ++\n', '\n', 'Экспорт of procedures is not printed', 'C50', 'Процедура А() Экспорт КонецПроцедуры')
prt('prt_value', 'printParam', 'onFlag p.isValue "Знач ".toList ++ ', '', 'Знач is not printed', 'C50', 'Процедура А(Знач а) КонецПроцедуры')
prt('prt_each', 'printItem', '"Каждого ".toList ++ forName f', 'forName f', 'Каждого is not printed', ['C38', 'C50'], 'Для Каждого а Из б Цикл КонецЦикла')
prt('prt_throw', 'printItem', "| .exprs l _ => ['('] ++ join [',', ' '] (prList l) ++ [')']", "| .exprs l _ => join [',', ' '] (prList l)",
    'the parentheses of ВызватьИсключение are missing', ['C38', 'C50'], 'ВызватьИсключение (а)')
prt('prt_label', 'printItem', "['~'] ++ n ++ [':'] ++ cf.nl 1", "['~'] ++ n ++ cf.nl 1", 'the colon behind a label is missing', ['C38', 'C50'], '~а: б = 1')
prt('prt_new', 'pr', '"Новый ".toList ++ c ++ [\'(\'] ++ join [\',\', \' \'] (prList ps)', '"Новый ".toList ++ c ++ [\'(\'] ++ join [\',\', \' \'] (prList ps).dropLast',
    'the last argument of Новый is not printed', 'C50', 'а = Новый Ф(1, 2)')
prt('prt_default', 'printParam', "(if pr .var p.default = [] then [] else [' ', '=', ' '] ++ pr .var p.default)", "[]", 'default values are not printed', 'C50',
    'Процедура А(а = 1) КонецПроцедуры')
prt('prt_item', 'pr', "pr .var o ++ ['['] ++ pr (.expr 0) i", "pr .var i ++ ['['] ++ pr (.expr 0) o", 'object and index are exchanged', 'C50', 'а = б[в]')
prt('prt_ret', 'printItem', "| p => [' '] ++ prE p) ++ [';']", "| _ => []) ++ [';']", 'the value of Возврат is not printed', 'C50', 'Функция А() Возврат 1 КонецФункции')
prt('prt_end', 'printFunc', 'if f.isFunc then "КонецФункции ".toList else', 'if !f.isFunc then "КонецФункции ".toList else', 'the end words are exchanged', ['C38', 'C50'],
    'Функция А() КонецФункции')
prt('prt_func_directive', 'printFunc', "  (if f.directive = [] then [] else ['\\n'] ++ f.directive ++ ['\\n']) ++\n  (if f.isFunc", "  (if f.isFunc",
    'the directive of a procedure is not printed', 'C50', '&НаКлиенте Процедура А() КонецПроцедуры')
prt('prt_string', 'pr', "('\"' :: s ++ ['\"'])", "('\"' :: s)", 'the closing quotation mark is missing', ['C38', 'C50'], "а = \\\"б\\\"")
prt('prt_chain', 'pr', "pr .chain c ++ ['.'] ++ pr .var u", "pr .var u ++ ['.'] ++ pr .chain c", 'the sides of a dot are exchanged', 'C50', 'а.б = 1')
prt('prt_to', 'printItem', '| to => prE f ++ " По ".toList', '| to => forName f ++ " По ".toList', 'the start of a counting loop is not printed', ['C38', 'C50'], 'Для а = 1 По 2 Цикл КонецЦикла')
prt('prt_nl', 'PrintConf.nl', "List.replicate n '\\n'", "List.replicate n ' '", 'lines are not broken', ['C37', 'C38'], 'а = 1')
prt('prt_elif_body', 'printElifs', "      printBody cf (d + 1) tb ++ printElifs cf d l\n", "      printElifs cf d l\n", 'the statements of ИначеЕсли are not printed', 'C50',
    'Если а Тогда ИначеЕсли б Тогда в = 1 КонецЕсли')
M('prt_date', 'Time.lean', 'Time.format', ' ++ pad 2 t.min ++ pad 2 t.sec', ' ++ pad 2 t.min', 'seconds are not printed', 'C50', '#eval printed "а = \'20200101101010\'"', RPR)

# --- JSON and walking ----------------------------------------------------------------------------
M('json_while', 'Json.lean', 'jStm', 'fldOpt "WhileExpr" w (jStm w) ++ ', '', 'the condition of Пока is not in the JSON', 'C43', '', JSN)
M('json_type', 'Json.lean', 'jFunc', '(if f.isFunc then 2 else 1)', '1', 'functions and procedures have the same type', 'C43', '', JSN)
M('json_sort', 'Json.lean', 'jMap', '.obj (l.mergeSort keyLe)', '.obj l', 'the keys of a map are not sorted', 'C43', '', JSN)
M('walk_ternary', 'Walk.lean', 'walkKids', "    let (st, e') := walkKids f root st e\n    let st := (f.stm st ⟨root, v, e'⟩).1\n    (st, .ternary c' t' e')", "    (st, .ternary c' t' e)",
  'the third part of ?( , , ) is not walked', 'C40', '', WLK)
M('walk_twice', 'Walk.lean', 'walkKids', "    (st, .bin op l' r' u n)", "    let st := (f.stm st ⟨root, v, l'⟩).1\n    (st, .bin op l' r' u n)", 'the left operand is visited twice', 'C40', '', WLK)
M('walk_func', 'Walk.lean', 'walkItems', "    let (st, it) := f.item st ⟨some i, .body, .func { d with body := body' }⟩\n", "    let it := Item.func { d with body := body' }\n",
  'the callback is not called for procedures', 'C40', '', WLK)
M('walk_parent', 'Walk.lean', 'walkKids', "    let (st, tb') := walkL f root v st tb\n", "    let (st, tb') := walkL f root .body st tb\n", 'statements of a branch get the wrong parent', ['C40', 'C41'], '', WLK)

# --- errors --------------------------------------------------------------------------------------
M('err_first', 'Ast.lean', 'Ast.error', '.ok { a with err := some (.at m line (col - (t.literal.length + 1)) t.literal) }',
  '.ok { a with err := a.err <|> some (.at m line (col - (t.literal.length + 1)) t.literal) }',
  'the opposite of a bug: the first error is kept', 'C48', par('Прервать; Функция'), ERR)
M('err_literal', 'Ast.lean', 'Ast.error', '(col - (t.literal.length + 1)) t.literal)', '(col - (t.literal.length + 1)) [])', 'the error does not name the token', ['C47', 'C10'],
  par('а = = 1'), ERR)
M('err_cur', 'Parser.lean', 'lexCall', "({ a with cur := some t' }, t', some k)", "({ a with cur := some t }, t', some k)", 'errors name the token before', ['C47', 'C10'],
  par('а = = 1'), ERR)

# --- rules and what errors say about them (C57), whole trees (C51-C53), joining (C54), renaming (C55), walks (C56) --
FLT = ['Verif.Props.Faults']
REN = ['Verif.Props.Rename']
JOI = ['Verif.Props.Join']
WHO = ['Verif.Props.Whole']
M('flt_loop_msg', 'Parser.lean', 'checkLoop', 'a.error (.loopOp t.literal)', 'a.error (.throwOp t.literal)',
  'Прервать outside a loop is reported with the message about ВызватьИсключение', 'C57', par('Прервать'), FLT)
M('flt_dup_name', 'Parser.lean', 'appendGlobal', 'a.error (.dupVar v.name)', "a.error (.dupVar ((a.mod.globals.headD ⟨[], [], false⟩).name))",
  'the error about a repeated module variable names the first variable', 'C57', par('Перем а, б; Перем б;'), FLT)
M('flt_late_msg', 'Parser.lean', 'appendGlobal', 'a.error .varOrder', 'a.error .funcOrder',
  'a late variable declaration is reported as a late procedure', 'C57', par('Процедура А() КонецПроцедуры Перем б;'), FLT)
M('flt_first', 'Ast.lean', 'Ast.error', '.ok { a with err := some (.at m line (col - (t.literal.length + 1)) t.literal) }',
  '.ok { a with err := a.err <|> some (.at m line (col - (t.literal.length + 1)) t.literal) }',
  'the first violated rule is reported, not the last', 'C57', par('Прервать; ВызватьИсключение'), FLT)
M('flt_colon', 'Parser.lean', 'checkColon', "if sep.literal = [':'] then", "if sep.literal ≠ [';'] ∧ sep.literal = [] then",
  'a colon may separate any statements', 'C57', par('а = 1: б = 2'), FLT)
M('flt_map_copy', 'Parser.lean', 'act', '.ok ({ v with explicit_variables := r.map }, ← a.error (.dupVar n))', '.ok (v, ← a.error (.dupVar n))',
  'variables before a repeated one are forgotten', 'C57', par('Процедура А() Перем а; Перем б, а; Перем б; КонецПроцедуры'), FLT)
M('flt_nil_map', 'Parser.lean', 'act', '    | some n => do .ok (v, ← a.error (.dupVar n))\n', '    | some n => do .ok ({ v with explicit_variables := r.map }, ← a.error (.dupVar n))\n',
  'the opposite of a bug: the nil map after a repeated local variable is repaired', ['C57', 'C20'], par('Процедура А() Перем а, а; Перем б; КонецПроцедуры'), FLT)
M('flt_try_flag', 'Parser.lean', 'setTry', 'isTry := a.isTry + (if flag then 1 else -1)', 'isTry := if flag then 1 else 0',
  'a Попытка inside an Исключение part switches the permission off', ['C57', 'C22'],
  par('Попытка Исключение Попытка Исключение КонецПопытки; ВызватьИсключение; КонецПопытки'), FLT)
M('flt_loop_flag', 'Parser.lean', 'setLoop', 'isLoop := a.isLoop + (if flag then 1 else -1)', 'isLoop := if flag then 1 else 0',
  'an inner loop switches the permission of Прервать off', ['C57', 'C22'],
  par('Для а = 1 По 2 Цикл Для б = 1 По 2 Цикл КонецЦикла; Прервать; КонецЦикла'), FLT)
M('flt_while', 'Parser.lean', 'act', '(d 2).stmt (d 5).opt_body }, a)', '(d 2).stmt (d 5).opt_body }, setLoop a false)',
  'the opposite of a bug: a Пока loop ends its permission of Прервать', 'C57', par('Пока а Цикл КонецЦикла; Прервать'), FLT)
M('flt_func_flag', 'Parser.lean', 'act', '  | 13 => .ok (v, { a with isFunc := true })', '  | 13 => .ok (v, a)',
  'functions do not permit Возврат with a value', ['C57', 'C24'], par('Функция А() Возврат 1 КонецФункции'), FLT)
M('flt_proc_body', 'Parser.lean', 'appendFunc', '  | some (.stm _) => a.error .funcOrder\n', '',
  'procedures behind statements are accepted', ['C57', 'C25'], par('а = 1; Процедура А() КонецПроцедуры'), FLT)
M('ren_special', 'Parser.lean', 'act', "  | 55 => .ok ({ v with stmt := .var (d 1).token.literal false false }, a)",
  "  | 55 => .ok ({ v with stmt := if (d 1).token.literal = \"Null\".toList then .undef else .var (d 1).token.literal false false }, a)",
  'one name is treated as a constant by the parser', 'C55', par('а = Null'), REN)
M('ren_empty', 'Parser.lean', 'Val.toStm', '  | .str s => .str s\n', '  | .str s => if s = [] then .undef else .str s\n',
  'the empty string is taken for no value', 'C55', par('а = \\"\\"'), REN)
M('ren_negzero', 'Parser.lean', 'unaryMinus', '  | .num x => .num x.negate\n', '  | .num x => if x.mant = 0 then .num x else .num x.negate\n',
  'minus zero is made zero', 'C55', par('а = -0'), REN)
M('who_assign', 'Parser.lean', 'act', '.assign (d 1).stmt [(d 3).stmt]', '.assign (d 1).stmt [.nil]',
  'the right side of an assignment is lost', ['C51', 'C52', 'C53'], par('а = б'), WHO)
M('who_while', 'Parser.lean', 'act', '.loop .nil .nil .nil (d 2).stmt (d 5).opt_body', '.loop .nil .nil .nil .nil (d 5).opt_body',
  'the condition of Пока is lost', ['C51', 'C52', 'C53'], par('Пока а Цикл КонецЦикла'), WHO)
M('who_label', 'Parser.lean', 'act', '.label (d 1).token.literal }', ".label ('~' :: (d 1).token.literal) }",
  'the name of a label gets the sign in front', 'C53', par('~а: б = 1'), WHO)
M('who_string', 'Parser.lean', 'act', '.loop (.str (d 3).token.literal) .nil', '.loop (.str (\"i\".toList)) .nil',
  'the variable of Для Каждого is always called i', 'C53', par('Для Каждого а Из б Цикл КонецЦикла'), WHO)
M('joi_stale', 'Parser.lean', 'act', '  | 16 => .ok ({ v with opt_body := [] }, a)', '  | 16 => .ok (v, a)',
  'an empty body keeps what is left on the stack', 'C54', par('Процедура А() КонецПроцедуры Процедура В(б) Экспорт б = 1 КонецПроцедуры Процедура Г() КонецПроцедуры'), JOI)
M('joi_params', 'Parser.lean', 'act', '  | 100 => .ok ({ v with dparams := [] }, a)', '  | 100 => .ok (v, a)',
  'an empty list of parameters keeps what is left on the stack', 'C54', par('Процедура А() КонецПроцедуры Процедура В(б) Экспорт б = 1 КонецПроцедуры Процедура Г() КонецПроцедуры'), JOI)
M('joi_export', 'Parser.lean', 'act', '  | 10 => .ok ({ v with opt_export := none }, a)', '  | 10 => .ok (v, a)',
  'a missing Экспорт keeps what is left on the stack', 'C54', par('Процедура А() КонецПроцедуры Процедура В(б) Экспорт б = 1 КонецПроцедуры Процедура Г() КонецПроцедуры'), JOI)
M('joi_isfunc', 'Parser.lean', 'act', '(d 9).opt_explicit_variables (d 10).opt_body) },\n      { a with isFunc := false })', '(d 9).opt_explicit_variables (d 10).opt_body) }, a)',
  'the permission of Возврат with a value is not ended by КонецФункции', 'C54', par('Функция А() КонецФункции Процедура В() Возврат 1 КонецПроцедуры'), JOI)
M('walk_parent_again', 'Walk.lean', 'walkKids', "    let (st, tb') := walkL f root v st tb\n", "    let (st, tb') := walkL f root .body st tb\n",
  'statements of a branch get the wrong parent', 'C56', '', WLK, tightened=['C56_calls', 'C56_parent'], note='survived as walk_parent before C56 was stated')
M('json_sort_again', 'Json.lean', 'jMap', '.obj (l.mergeSort keyLe)', '.obj l', 'the keys of a map are not sorted', 'C43', '', JSN,
  tightened=['C43_modules_iff_partial'], note='survived as json_sort before maps were compared as sets')
M('walk_root_again', 'Walk.lean', 'walkItems', "⟨some i, .body, .func { d with body := body' }⟩", "⟨none, .body, .func { d with body := body' }⟩",
  'the callback for a procedure does not name it as the current one', 'C56', '', WLK)
M('walk_parent_loop', 'Walk.lean', 'walkKids', "    let (st, body') := walkL f root v st body\n", "    let (st, body') := walkL f root .body st body\n",
  'statements of a loop get the wrong parent', 'C56', '', WLK)

# --- blocks in memory ------------------------------------------------------------------------------
MEM = ['Verif.Props.Memory', 'Verif.Props.Share', 'Verif.Props.MemorySize']
MP = '''partial def showH (h : Heap) : HStm → String
  | .var n _ _ => String.ofList n
  | .method n ps _ => String.ofList n ++ "(" ++ String.join (ps.map (showH h)) ++ ")"
  | .assign v es => showH h v ++ "=" ++ String.join (es.map (showH h))
  | .ifS c t ei e => s!"if {showH h c} [{blk t}] {ei.map (showH h)} [{blk e}]"
  | .tryS b c => s!"try [{blk b}] [{blk c}]"
  | .loop _ _ _ w b => s!"while {showH h w} [{blk b}]"
  | _ => "?"
where blk (s : Slice) : String := s!"{reprStr s}: " ++ String.intercalate "; " ((h.elems s).map (showH h))
def mem (s : String) (h : Heap := []) : List String := match parseH goGrow (newASTH s.toList) h with
  | .ret a h => s!"{a.ctl.err.isSome} {h.map fun x => (x.1, x.2.length)}" :: a.items.map fun
    | .func f => String.ofList f.name ++ " " ++ showH.blk h f.body
    | .stm s => showH h s
  | _ => ["panic"]
'''
def mem(*texts):
    return MP + '\n'.join(f'#eval mem "{t}"' for t in texts)
M('mem_inplace', 'Memory.lean', 'Heap.append', '    if n < cap then', '    if n < cap + 1 then',
  'append writes one element past the capacity into the array of another block', 'C58', mem('Процедура А() КонецПроцедуры Процедура Б() д() КонецПроцедуры Процедура В() ;е() КонецПроцедуры Процедура Г() ;ж() КонецПроцедуры'), MEM)
M('mem_no_copy', 'Memory.lean', 'Heap.append', '(cells.take n ++ [x])\n', '[x]\n',
  'the elements are not copied when the array grows', 'C58', mem('а(); б(); в()'), MEM)
M('mem_index', 'Memory.lean', 'Heap.append', 'cells.take n ++ x :: cells.drop (n + 1)', 'cells.take (n - 1) ++ x :: cells.drop n',
  'append writes over the last element', 'C58', mem('а(); б(); в(); г()'), MEM)
M('mem_len', 'Memory.lean', 'Heap.append', '(some (i, n + 1), h.set', '(some (i, n), h.set',
  'append in place does not make the slice longer', 'C58', mem('а(); б(); в(); г()'), MEM)
M('mem_elems', 'Memory.lean', 'Heap.elems', '(h.arr i).2.take n', '(h.arr i).2',
  'a slice shows what was appended through another slice', 'C58', '', MEM)
M('mem_fresh', 'Memory.lean', 'initCfgH', 'stale := [], heap := h }', 'stale := [], heap := [] }',
  'a call of Parse takes arrays in use for free ones', 'C58', '', MEM)
M('mem_first', 'Memory.lean', 'actH', "  | 18 => .ok ({ v with body := (h.alloc 1 [(d 1).stmt]).1 }, a, (h.alloc 1 [(d 1).stmt]).2)",
  "  | 18 => .ok ({ v with body := (h.append g v.body (d 1).stmt).1 }, a, (h.append g v.body (d 1).stmt).2)",
  'the first statement of a block is appended to what the stack slot holds', ['C58', 'C59'], mem('Процедура А() КонецПроцедуры Процедура Б() д() КонецПроцедуры Процедура В() е() КонецПроцедуры'), MEM)
M('mem_reuse', 'Memory.lean', 'actH', "  | 18 => .ok ({ v with body := (h.alloc 1 [(d 1).stmt]).1 }, a, (h.alloc 1 [(d 1).stmt]).2)",
  "  | 18 => match v.body with\n    | some (i, _) => .ok ({ v with body := some (i, 1) }, a, h.set i ((h.arr i).1, (d 1).stmt :: (h.arr i).2.tail))\n    | none => .ok ({ v with body := (h.alloc 1 [(d 1).stmt]).1 }, a, (h.alloc 1 [(d 1).stmt]).2)",
  'a new block takes the array of the stack slot instead of a new one', ['C58', 'C59'], mem('Процедура А() КонецПроцедуры Процедура Б() д() КонецПроцедуры Процедура В() е() КонецПроцедуры'), MEM)
M('mem_try', 'Memory.lean', 'actP', '.tryS (d 2).opt_body (d 5).opt_body', '.tryS (d 2).opt_body (d 2).opt_body',
  'the handler is the block of Попытка', ['C58', 'C59'], mem('Попытка а() Исключение б() КонецПопытки'), MEM)
M('mem_else', 'Memory.lean', 'actP', '  | 31 => .ok ({ v with opt_else := none }, a)', '  | 31 => .ok (v, a)',
  'a missing Иначе keeps the slice left on the stack', ['C58', 'C59'], mem('Если а Тогда б() Иначе в() КонецЕсли; Если а Тогда б() КонецЕсли'), MEM)
M('mem_cap', 'Memory.lean', 'actH', '(h.alloc 1 [(d 1).stmt]).2)', '(h.alloc 0 [(d 1).stmt]).2)',
  'an array has less room than cells', ['C58', 'C59'], mem('а(); б()'), MEM,
  note='if this is not caught: only the growth differs, no claim depends on it')
M('msz_double', 'Memory.lean', 'Heap.alloc', 'h ++ [(cap, cells)])', 'h ++ [(cap, cells), (cap, [])])',
  'two arrays are allocated for one', 'C84', mem('а(); б()', 'Процедура А() б(); в(); КонецПроцедуры'), MEM)
M('msz_twice', 'Memory.lean', 'Heap.alloc', 'h ++ [(cap, cells)])', 'h ++ [(cap, cells ++ cells)])',
  'what is copied when an array grows is copied twice', 'C84', mem('а(); б()', 'Процедура А() б(); в(); г(); КонецПроцедуры'), MEM)
M('msz_behind', 'Memory.lean', 'Heap.append', 'cells.take n ++ x :: cells.drop (n + 1)', 'cells.take n ++ x :: cells', 
  'what is behind a slice moves when an element is appended in place', 'C84', mem('Процедура А() б(); в(); г(); д(); КонецПроцедуры'), MEM)

# --- Parse on bytes -------------------------------------------------------------------------------
BPR = ['Verif.Props.ByteParser', 'Verif.Props.ByteLexer']
BP = '''def outB (code : List UInt8) : String := match ByteParser.parseB code with
  | .ret a => reprStr a.err ++ " " ++ reprStr (a.mod.body.length) ++ " " ++ reprStr a.mod.globals.length
  | .panic _ => "panic"
  | .loops => "loops"
'''
def byt(*texts):
    return BP + '\n'.join(f'#eval outB {t}' for t in texts)
u8 = lambda s: f'"{s}".toUTF8.toList'
M('byp_cur', 'ByteParser.lean', 'lexCallB', '.ok ({ a with cur := some (chars code t\') }, t\', some k)', '.ok (a, t\', some k)',
  'the current token of the AstNode is not set', 'C60', byt(u8('а = = 1')), BPR)
M('byp_look', 'ByteParser.lean', 'fetchB', 'lval := t, look := some (tokNum k) }', 'lval := t }',
  'the lookahead is read again for every round', 'C60', byt(u8('а = 1; б = 2')), BPR)
M('byp_lval', 'ByteParser.lean', 'fetchB', '(a, t, none) => .ok ({ c with ast := a, lval := t }, tokEnd)', '(a, _, none) => .ok ({ c with ast := a }, tokEnd)',
  'an error of the tokeniser is read again and again', 'C60', byt('(' + u8('я=1') + ' ++ [0x01])'), BPR)
M('byp_err', 'ByteParser.lean', 'lexCallB', '.ok ({ a with err := some (.lex e) }, t\', none)', '.ok (a, t\', none)',
  'errors of the tokeniser are not reported', 'C60', byt('(' + u8('я=1') + ' ++ [0x01])'), BPR)
M('byp_slice', 'ByteParser.lean', 'lexCallB', '    | none => .error .slice', '    | none => .ok (a, t, none)',
  'not a bug: a slice out of range is taken for the end of the text', 'C60', '', BPR,
  note='may survive: slices out of range do not occur')
M('byp_token', 'ByteParser.lean', 'stepB', '(s\', { token := chars code c.lval })', '(s\', {})',
  'tokens are not put on the stack', 'C60', byt(u8('Перем а; Перем а;')), BPR)
M('byp_blank', 'ByteParser.lean', 'parseB', 'if (decodeAll code).all isUnicodeSpace then', "if code.all (fun b => b ≤ 32) then",
  'only ASCII blanks are trimmed', 'C60', byt('[0xC2, 0xA0]'), BPR)
M('byp_drop', 'ByteParser.lean', 'chars', 'decodeAll (code.drop t.offset)', 'decodeAll (code.drop (t.offset + 1))',
  'the place of an error is computed one byte too far', 'C60', byt(u8('я = ;')), BPR)
M('lex_failed', 'Lexer.lean', 'failed', '      | .ok v => (v, .badChar c)', '      | .ok _ => (old, .badChar c)',
  'the value is not set by a bad character whose code is a token number', 'C13', tok('\ue01c'), BLX)
M('lex_failed_number', 'Lexer.lean', 'failed', 'if c.toNat = tNumber then (old, .badNumber)', 'if c.toNat = tNumber then (old, .badChar c)',
  'the error of ParseFloat does not replace the first one', 'C13', tok('\ue01b'), BLX)

# --- letter case ----------------------------------------------------------------------------------
REC = ['Verif.Props.Recase']
M('rec_directive', 'Lexer.lean', 'lexDirective', 'directives.lookup (lower w)', 'directives.lookup w',
  'directives must be written in lower case', 'C61', tok('&НаСервере'), REC)
M('rec_keyword', 'Lexer.lean', 'lexWord', 'keywords.lookup (lower w)', 'keywords.lookup (match w with | c :: r => ToLower.lowerRune c :: r | [] => [])',
  'only the first letter of a keyword may be upper case', 'C61', tok('ЕСЛИ'), REC)
M('rec_latin', 'ToLower.lean', 'lowerRune', '∨ (0x41 ≤ n ∧ n ≤ 0x5A) then', 'then',
  'Latin letters are not lower-cased', 'C61', '#eval Lexer.lower "AБ".toList', REC)
M('rec_string', 'Lexer.lean', 'scanStringF', "      if c = '\\n' then\n        match", "      if c = 'Я' then (.error .unexpectedEOL, r) else if c = '\\n' then\n        match",
  'an upper case letter ends a string', 'C61', tok('\\"аЯ\\"'), REC)
M('rec_bad', 'Lexer.lean', 'isDigit', "'0' ≤ c && c ≤ '9'", "'0' ≤ c && c ≤ 'A'",
  'a letter is taken for a digit', 'C61', tok('1A'), REC)

# --- layout of printed code -----------------------------------------------------------------------
LIN = ['Verif.Props.Lines']
for name, definition, old, new, bug, text in [
    ('lin_depth', 'printItem', '"Иначе ".toList ++ printBody cf (d + 1) els', '"Иначе ".toList ++ printBody cf d els',
     'the statements behind Иначе are not indented', 'Если а Тогда Иначе Ф() КонецЕсли'),
    ('lin_end', 'printItem', 'cf.sp d ++ "КонецПопытки".toList', '"КонецПопытки".toList',
     'КонецПопытки is not indented', 'Если а Тогда Попытка Исключение КонецПопытки КонецЕсли'),
    ('lin_break', 'printBody', '  | [] => cf.nl 1\n  | s :: l => cf.nl 1 ++ printItem', '  | [] => []\n  | s :: l => cf.nl 1 ++ printItem',
     'no line break behind a block', 'Если а Тогда Ф() Иначе Г() КонецЕсли'),
    ('lin_func', 'printFunc', 'printBody cf 1 f.body', 'printBody cf 0 f.body',
     'the body of a procedure is not indented', 'Процедура П() Ф() КонецПроцедуры'),
    ('lin_directive', 'printFunc', "(if f.directive = [] then [] else ['\\n'] ++ f.directive ++ ['\\n'])",
     "(if f.directive = [] then [] else ['\\n'] ++ f.directive ++ [' '])",
     'a directive is on the line of the procedure', '&НаКлиенте Процедура П() КонецПроцедуры'),
    ('lin_elif', 'printElifs', '| .ifS c tb _ _ :: l => cf.sp d ++', '| .ifS c tb _ _ :: l => cf.sp (d + 1) ++',
     'ИначеЕсли is indented one level too far', 'Если а Тогда ИначеЕсли б Тогда КонецЕсли'),
    ('lin_margin', 'PrintConf.sp', 'cf.margin * depth', 'cf.margin + depth',
     'the margin is added once instead of once per level', 'Процедура П() Ф() КонецПроцедуры'),
    ('lin_item', 'printItems', '| .stm s :: l => cf.nl 1 ++ printItem', '| .stm s :: l => printItem',
     'no line break before a statement of the module', 'Ф(); Г()'),
    ('lin_one', 'PrintConf.nl', 'if cf.oneLine then []', 'if cf.oneLine && n != 2 then []',
     'OneLine keeps the line break before КонецПроцедуры', 'Процедура П() КонецПроцедуры'),
    ('lin_global', 'printModule', '(gs.map fun g => printGlobal g ++ cf.nl 1)', '(gs.map fun g => printGlobal g)',
     'no line break behind the declaration of a module variable', 'Перем а; Перем б; Ф()'),
]:
    M(name, 'Print.lean', definition, old, new, bug, 'C62',
      f'#eval printed "{text}"' + (' ⟨4, true⟩' if name == 'lin_one' else ''), LIN)

# --- text of JSON ---------------------------------------------------------------------------------
JTX = ['Verif.Props.JsonText']
for name, definition, old, new, bug, text in [
    ('jtx_html', 'jChar', " ∨ c = '&' then", ' then', 'an ampersand is not escaped', r'а = \"&\"'),
    ('jtx_tab', 'jChar', "  else if c = '\\t' then ['\\\\', 't']\n  else if c.toNat < 0x20", "  else if c = '\\t' then [c]\n  else if c.toNat < 0x20",
     'tabs are written as they are', r'а = \"\t\"'),
    ('jtx_control', 'jChar', 'c.toNat < 0x20 ∨', 'c.toNat < 0x1f ∨', 'U+001F is not escaped', r'а = \"\x1f\"'),
    ('jtx_hex', 'jChar', 'hexChar (c.toNat / 16), hexChar (c.toNat % 16)]\n', 'hexChar (c.toNat % 16), hexChar (c.toNat / 16)]\n',
     'hexadecimal digits of an escape are swapped', r'а = \"<\"'),
    ('jtx_quote', 'jChar', "if c = '\"' ∨ c = '\\\\' then ['\\\\', c]", "if c = '\"' then ['\\\\', c]", 'backslashes are not escaped', r'а = \"\\\"'),
    ('jtx_sep', 'jChar', "c = '\\u2028' ∨ c = '\\u2029' then", "c = '\\u2028' then", 'U+2029 is not escaped', r'а = \" \"'),
    ('jtx_newline', 'jChar', "c = '\\n' then ['\\\\', 'n']", "c = '\\n' then ['\\\\', 'r']", 'a line break is written as a carriage return', r'а = \"а\n|б\"'),
    ('jtx_comma', 'jElems', "| v :: l => jText v ++ ',' :: jElems l", '| v :: l => jText v ++ jElems l', 'no comma between elements', 'Ф(1, 2)'),
    ('jtx_last', 'jElems', '| [v] => jText v', "| [v] => jText v ++ [',']", 'a comma behind the last element', 'Ф(1)'),
    ('jtx_colon', 'jMembers', "| (k, v) :: l => jString k ++ ':' :: (jText v ++", "| (k, v) :: l => jString k ++ (jText v ++",
     'no colon behind a key', 'Ф(1)'),
    ('jtx_true', 'jText', "| .bool true => ['t', 'r', 'u', 'e']", "| .bool true => ['T', 'r', 'u', 'e']", 'a capital letter in true', 'а = Истина'),
    ('jtx_null', 'jText', "| .null => ['n', 'u', 'l', 'l']", "| .null => ['n', 'i', 'l']", 'nil instead of null', 'Возврат'),
    ('jtx_sign', 'F64.numText', "(if x.neg then ['-'] else []) ++\n    (if x.mant", "(if x.neg && x.mant = 0 then ['-'] else []) ++\n    (if x.mant",
     'the minus of numbers is lost', 'а = -1'),
    ('jtx_point', 'F64.fmtF', "List.replicate (-dp).toNat '0' ++ ds.drop", 'ds.drop', 'zeros behind the decimal point are lost', 'а = 0.05'),
    ('jtx_zeros', 'F64.fmtF', "ds.take dp.toNat ++ List.replicate (dp.toNat - ds.length) '0'", 'ds.take dp.toNat',
     'zeros at the end of integers are lost', 'а = 100'),
    ('jtx_exp', 'F64.fmtE', "if dp - 1 < 0 then '-' else '+'", "if dp - 1 < 0 then '+' else '-'", 'the sign of the exponent is wrong', 'а = 0.0000000001'),
    ('jtx_expoff', 'F64.fmtE', 'Nat.toDigits 10 (dp - 1).natAbs', 'Nat.toDigits 10 dp.natAbs', 'the exponent is off by one', 'а = 0.0000000001'),
    ('jtx_digits', 'F64.shortest', '(((List.range\' 1 17).flatMap (around x)).find? (readsBack x)).getD (exactly x)',
     '(((List.range\' 1 6).flatMap (around x)).find? (readsBack x)).getD ((around x 6).headD (0, 0))', 'numbers are written with six digits', 'а = 0.1234567'),
]:
    M(name, 'JsonText.lean', definition, old, new, bug, 'C63', f'#eval IO.println (json "{text}")', JTX)

# --- single statements ------------------------------------------------------------------------------
SNP = ['Verif.Props.Snippet']
for name, definition, old, new, bug in [
    ('snp_depth', 'printStatementWithConf', '  | s => printItem cf 0 s', '  | s => printItem cf 1 s', 'a statement alone is printed one level too deep'),
    ('snp_default', 'printStatement', 'printStatementWithConf ⟨4, false⟩ s', 'printStatementWithConf ⟨2, false⟩ s',
     'PrintStatement prints with a margin of 2'),
    ('snp_oneline', 'printStatement', 'printStatementWithConf ⟨4, false⟩ s', 'printStatementWithConf ⟨4, true⟩ s',
     'PrintStatement prints on one line'),
    ('snp_case', 'printStatementWithConf', '  | .nil => []\n  | s => printItem cf 0 s', '  | .nil => []\n  | .tryS _ _ => []\n  | s => printItem cf 0 s', 'nothing is printed for a Попытка alone'),
    ('snp_semicolon', 'printStatementWithConf', '  | s => printItem cf 0 s', "  | s => printItem cf 0 s ++ [';', ';']",
     'two semicolons behind a statement alone'),
]:
    M(name, 'Print.lean', definition, old, new, bug, 'C64',
      '#eval match parseStd "Попытка Ф() Исключение Г() КонецПопытки" with | some (⟨_, [.stm s]⟩, none) => String.ofList (printStatement s) | _ => ""', SNP)

# --- one memory -------------------------------------------------------------------------------------
SHM = ['Verif.Props.SharedMemory']
SHP = '''deriving instance Repr for HStm
#eval match HSys.exec goGrow (List.replicate 300 [0, 1]).flatten (.running (fun i => .start (newASTH
    (if i = 0 then "Процедура А() б(); в(); г(); КонецПроцедуры" else "Процедура Б() г(); в(); КонецПроцедуры").toList)) []) with
  | .running ps h => match ps 0, ps 1 with
    | .done x, .done y => (([x, y] : List HAst).map fun (z : HAst) => z.items.map fun | HItem.func f => reprStr f.body | _ => "", h.map reprStr)
    | _, _ => ([], [])
  | .crashed _ => ([], [])'''
SHQ = '''deriving instance Repr for HStm
#eval match HSys.exec goGrow (List.replicate 400 [0, 1]).flatten (.running (fun i => .start (newASTH
    (if i = 0 then "б(); в(); г(); д(); ~м: е()" else "Процедура Б() г() в() КонецПроцедуры").toList)) []) with
  | .running ps h => match ps 0, ps 1 with
    | .done x, .done y => (([x, y] : List HAst).map fun (z : HAst) => (z.ctl.err.isSome, z.items.map fun | HItem.func f => reprStr f.body | .stm s => reprStr s), h.map reprStr)
    | _, _ => ([], [])
  | .crashed _ => ([], [])'''
for name, definition, old, new, bug, claim in [
    ('shm_scratch', 'actM', '  | 18 => .new (fun _ => (1, [(d 1).stmt])) fun i => .ret (.ok ({ v with body := some (i, 1) }, a))',
     '  | 18 => .write 0 (1, [(d 1).stmt]) (.ret (.ok ({ v with body := some (0, 1) }, a)))',
     'every block begins in one buffer of the package', ['C45', 'C66']),
    ('shm_behind', 'appendM', '    if n < c.1 then .write i (c.1, c.2.take n ++ x :: c.2.drop (n + 1))',
     '    if n < c.1 then .write (i + 1) (c.1, c.2.take n ++ x :: c.2.drop (n + 1))', 'append writes into the array behind its own', ['C45', 'C66']),
    ('shm_number', 'appendM', 'fun j => .ret (some (j, (c.2.take n ++ [x]).length))', 'fun j => .ret (some (j - 1, (c.2.take n ++ [x]).length))',
     'append returns the array that another goroutine has allocated before', ['C45', 'C66']),
    ('shm_stale', 'appendM', 'fun j => .ret (some (j, (c.2.take n ++ [x]).length))', 'fun j => .ret (some (i, (c.2.take n ++ [x]).length))',
     'append returns the old array after growing', ['C45']),
    ('shm_copy', 'appendM', '(n + 1 + g m (n + 1), c.2.take n ++ [x])) fun j', '(n + 1 + g m (n + 1), [x])) fun j',
     'elements are not copied into the new array', ['C45']),
    ('shm_elems', 'elemsM', '  | some (i, n + 1) => .read i', '  | some (i, n + 1) => .read (i - 1)', 'statements are read from the array of somebody else',
     ['C45', 'C66']),
    ('shm_colon', 'actM', '(elemsM (d 1).opt_body).bind fun l =>\n    match', '(elemsM v.body).bind fun l =>\n    match',
     'the check for a semicolon looks at the block being built', ['C45']),
    ('shm_lost', 'actM', "else (appendM g v.body (d 3).stmt).bind fun s => .ret (.ok ({ v with body := s }, a))",
     "else (appendM g v.body (d 3).stmt).bind fun s => .ret (.ok (v, a))", 'the result of append is dropped', ['C45']),
]:
    M(name, 'SharedMemory.lean', definition, old, new, bug, claim, SHQ if name in ('shm_behind', 'shm_elems', 'shm_colon') else SHP, SHM)

# --- the ends of lines ------------------------------------------------------------------------------
LNE = ['Verif.Props.LineEnds']
LNP = r'#eval (shape "// б\r\nа = 1;\r\nесли а тогда\r\n ф() #\r\nконецесли", errorText "// б\r\nа = 1;\r\nа а")'
for name, definition, old, new, bug in [
    ('lne_space', 'isSpace', "|| c == '\\r' || c", '|| c', 'a carriage return is not white space'),
    ('lne_comment', 'skipLine', "if c = '\\n' then c :: r", "if c = '\\n' ∨ c = '\\r' then r", 'a comment ends at a carriage return, which it eats with what follows'),
    ('lne_bare', 'skipLine', "if c = '\\n' then c :: r", "if c = '\\r' then c :: r", 'comments end at carriage returns only'),
]:
    M(name, 'Lexer.lean', definition, old, new, bug, 'C67', LNP, LNE)

# --- texts of errors --------------------------------------------------------------------------------
ETX = ['Verif.Props.ErrorText']
for name, definition, old, new, bug, text in [
    ('etx_raw', 'quote', "'\"' :: (s.flatMap (escape isPrint) ++ ['\"'])", "'\"' :: (s ++ ['\"'])", 'literals are put into quotes without escapes', r'а \"\\\\\"'),
    ('etx_noquote', 'quote', "'\"' :: (s.flatMap (escape isPrint) ++ ['\"'])", "s.flatMap (escape isPrint)", 'no quotes around literals', 'а а'),
    ('etx_slash', 'escape', "if c = '\"' ∨ c = '\\\\' then", "if c = '\"' then", 'backslashes are not escaped', r'а \"\\\\\"'),
    ('etx_dquote', 'escape', "if c = '\"' ∨ c = '\\\\' then", "if c = '\\\\' then", 'quotes are not escaped', r'а \"б\"\"в\"'),
    ('etx_newline', 'escape', "  else if c = '\\n' then ['\\\\', 'n']\n", "  else if c = '\\n' then ['\\n']\n", 'line feeds are written as they are', r'а \"\n|б\"'),
    ('etx_return', 'escape', "else if c = '\\r' then ['\\\\', 'r']", "else if c = '\\r' then ['\\\\', 'n']", 'carriage returns are written as line feeds', r'а \"\r\n|б\"'),
    ('etx_hex', 'hex', "hexChar (n % 16)", "hexChar (n % 8)", 'wrong digits of hexadecimal numbers', r'а \"\u0089\"'),
    ('etx_width', 'escape', "then '\\\\' :: 'u' :: hex 4 c.toNat", "then '\\\\' :: 'u' :: hex 2 c.toNat", 'two digits behind \\u', r'а \"\u3000\"'),
    ('etx_big', 'escape', "  else if c.toNat < 0x10000 then '\\\\' :: 'u' :: hex 4 c.toNat\n  else '\\\\' :: 'U' :: hex 8 c.toNat",
     "  else '\\\\' :: 'u' :: hex 4 c.toNat", 'characters beyond U+FFFF lose their high digits', r'а \"😀\"'),
    ('etx_column', 'errText', '(showInt column ++ (', '((', 'the column is missing', 'а а'),
    ('etx_line', 'errText', '(showInt line ++ (', '(showInt column ++ (', 'the column is shown as the line', '\n\nа а'),
    ('etx_literal', 'errText', "quote isPrint literal ++ [')']", "quote isPrint [] ++ [')']", 'the literal is missing', 'а а'),
    ('etx_sign', 'showInt', "(if n < 0 then ['-'] else [])", '[]', 'the sign of negative columns is lost', r'а \"\n|\n|ббббббббббббббб\"'),
    ('etx_throw', 'msgText', '" without arguments can only be used when handling an exception"', '" can only be used inside a loop"',
     'the same text for two errors', 'ВызватьИсключение;'),
    ('etx_order', 'msgText', '"procedure and function definitions should be placed before the module body statements"',
     '"variable declarations must be placed at the beginning of the module"', 'the same text for two errors', 'а = 1; Процедура Б() КонецПроцедуры'),
    ('etx_name', 'msgText', '"variable has already been defined: with the specified name ".toList ++ quote isPrint n',
     '"variable has already been defined: with the specified name ".toList', 'the name of the variable is missing', 'Процедура Б() Перем а, а; КонецПроцедуры'),
    ('etx_eof', 'lexText', 'some "unexpected EOF".toList', 'some "unexpected EOL".toList', 'the same text for two errors', r'а(); \"б'),
    ('etx_char', 'lexText', 'quote isPrint [c]', "quote isPrint []", 'the wrong character is not shown', 'а();@'),
    ('etx_wrap', 'errText', '("get token error: ".toList ++ ·)', 'id', 'errors of the tokeniser are not wrapped', 'а();@'),
]:
    text = text.replace('\n', '\\n')
    M(name, 'ErrorText.lean', definition, old, new, bug, 'C69', f'#eval errorText "{text}"' if name != 'etx_order' else
      '#eval msgText (fun _ => true) .funcOrder', ETX)

# --- the size of trees ------------------------------------------------------------------------------
SIZ = ['Verif.Props.Size']
SIP = '#eval shape "Процедура А() Б(); В(); Если Г() Тогда Д() КонецЕсли; КонецПроцедуры"'
for name, definition, old, new, bug in [
    ('siz_first', 'act', 'body := [(d 1).stmt]', 'body := [(d 1).stmt, (d 1).stmt]', 'a block keeps its first statement twice'),
    ('siz_more', 'act', 'body := v.body ++ [(d 3).stmt] }', 'body := v.body ++ v.body ++ [(d 3).stmt] }', 'a block is doubled with every statement'),
    ('siz_drop', 'act', 'body := v.body ++ [(d 3).stmt] }', 'body := [(d 3).stmt] }', 'a block keeps its last statement only'),
]:
    M(name, 'Parser.lean', definition, old, new, bug, 'C68', SIP, SIZ)

# --- declarations are kept --------------------------------------------------------------------------
KEP = ['Verif.Props.Kept']
KPP = '#eval (shape "Перем а; Перем б; Процедура А() КонецПроцедуры Процедура Б() КонецПроцедуры", shape "Перем а; Процедура А() КонецПроцедуры")'
for name, definition, old, new, bug in [
    ('kep_front', 'appendFunc', 'body := a.mod.body ++ [.func f]', 'body := .func f :: a.mod.body', 'a procedure is put in front of those read before'),
    ('kep_last', 'appendFunc', 'body := a.mod.body ++ [.func f]', 'body := [.func f]', 'a module keeps its last procedure only'),
    ('kep_var', 'appendGlobal', 'globals := a.mod.globals ++ [v]', 'globals := [v]', 'a module keeps its last variable only'),
    ('kep_stm', 'appendStms', 'body := a.mod.body ++ l.map .stm', 'body := l.map .stm', 'statements of the module replace its procedures'),
]:
    M(name, 'Parser.lean', definition, old, new, bug, 'C70',
      KPP if name != 'kep_stm' else '#eval shape "Процедура А() КонецПроцедуры б = 1"', KEP)

# --- reading and writing ----------------------------------------------------------------------------
WRK = ['Verif.Props.Work']
WKP = '''#eval [("// б\\n#в\\n а <= \\"г\\n |д\\" \\"е\\"; &ж.з'2020'", 0), ("а = 1\\n//", 1)].map fun (p : String × Nat) =>
    let c := Work.parseCount p.1.toUTF8.toList; (c.reads, c.prints)
#eval (Work.parseCount [47, 47, 255]).prints
#eval match Work.nextW " &ж".toUTF8.toList ⟨[], .nil, 0, false⟩ ⟨0, 0, 0⟩ with | some (r, s) => (r.tok, r.literal, s.off, s.reads) | none => default
#eval match Work.nextW "#а\\n//б\\nв".toUTF8.toList ⟨[], .nil, 0, false⟩ ⟨0, 0, 0⟩ with | some (r, s) => (r.tok, r.literal, s.off, s.reads) | none => default
#eval match Work.nextW "\\"а\\n//б\\n|в\\" \\"г\\"".toUTF8.toList ⟨[], .nil, 0, false⟩ ⟨0, 0, 0⟩ with | some (r, s) => (r.tok, r.literal, s.off, s.reads) | none => default'''
for name, definition, old, new, bug, claim in [
    ('wrk_runes', 'cur', 's.reads + 1, s.prints + lines c', 's.reads + 1 + (code.length - s.off), s.prints + lines c',
     'currentLet converts the rest of the text to runes and takes the first', 'C71'),
    ('wrk_next', 'nxt', 's.reads + 2, s.prints + lines c', 's.reads + 2 + (code.length - s.off), s.prints + lines c',
     'nextLet converts the rest of the text to runes', 'C71'),
    ('wrk_pos', 'adv', '⟨o, s.reads + 1, s.prints⟩', '⟨o, s.reads + 1 + s.off, s.prints⟩', 'nextPos counts the characters from the beginning of the text', 'C71'),
    ('wrk_amp', 'scanW', '        setOff pos\n', '', 'the word behind a wrong & is skipped', 'C71'),
    ('wrk_region', 'skipRegionsW', "    if (← cur code) = some '/' then skipCommentW code n\n    else if (← cur code) = some '#' then skipRegionsW code n\n    else pure ()\nend",
     "    pure ()\nend", 'comments behind # lines are not skipped', 'C71'),
    ('wrk_comment', 'skipCommentW', "        else if (← cur code) = some '#' then skipRegionsW code n\n        else pure ()\n      else pure ()",
     "        else pure ()\n      else pure ()", 'the # line behind a comment is left to the caller', 'C71'),
    ('wrk_string', 'scanStrW', "      skipCommentW code (2 * code.length + 3)\n      match", "      match", 'comments inside strings are not skipped', 'C71'),
    ('wrk_join', 'scanStrW', "if (← cur code) = some '\"' then scanStrW code close n ret else pure (.ok ret)", "pure (.ok ret)", 'adjacent strings are not joined', 'C71'),
    ('wrk_all', 'lines', 'if c = some runeError then 1 else 0', 'if c = none then 0 else 1', 'a line is written for every character', 'C72'),
    ('wrk_eof', 'lines', 'if c = some runeError then 1 else 0', 'if c = some runeError ∨ c = none then 1 else 0', 'a line is written at the end of the text as well', 'C72'),
    ('wrk_adv', 'adv', '⟨o, s.reads + 1, s.prints⟩', '⟨o, s.reads + 1, s.prints + if o = s.off then 1 else 0⟩', 'nextPos complains when there is nothing to skip', 'C72'),
    ('wrk_quiet', 'skipLineW', '    let ch ← cur code\n', '    let ch ← ((fun s => some (currentLetB code s.off, ⟨s.off, s.reads + 1, s.prints⟩)) : WM (Option Char))\n',
     'nothing is written for characters in comments', 'C72'),
    ('wrk_never', 'lines', 'if c = some runeError then 1 else 0', '0', 'the line is not written (what the property wants)', 'C72'),
]:
    M(name, 'Work.lean', definition, old, new, bug, claim, WKP, WRK)

# --- reading for errors -----------------------------------------------------------------------------
ERW = ['Verif.Props.ErrorWork']
ERP = '''#eval ["а:::", "Прервать;", "а = ", "Перем а; Перем а; Перем а;", "а = 1; Процедура Б() КонецПроцедуры", "Процедура А() Перем б, б; КонецПроцедуры",
  "Процедура А() Перем б; Перем б; КонецПроцедуры", "ВызватьИсключение;", "Возврат 1;", "а = 1;", "Пока а Цикл Прервать; КонецЦикла",
  "Функция А() Возврат 1; КонецФункции", "а = 1;\\nПрервать;", "~а::;", "~а:; :;", "Попытка а(); Исключение ВызватьИсключение; КонецПопытки",
  "Процедура А() Возврат; КонецПроцедуры", "Перем а; Перем б, а, а;", "Перем а, а, а;"].map fun s => parseFront (newAST s.toList)'''
for name, definition, old, new, bug in [
    ('erw_line', 'Ast.front', '| some t => a.code.length - t.rest.length', "| some t => (getPosition a.code t.rest).2.toNat - 1",
     'only the line of the error is counted'),
    ('erw_rest', 'Ast.front', '| some t => a.code.length - t.rest.length', "| some t => t.rest.length", 'the text behind the error is counted'),
    ('erw_dup', 'globalsErrors', 'else if a.mod.globals.any (fun g => g.name == v.name) then 1 else 0', 'else 0', 'variables declared twice are not counted'),
    ('erw_func', 'actErrors', '    | some _, some (.stm _) => 1\n', '', 'a procedure behind statements is not counted (only a second Parse comes there)'),
    ('erw_colon', 'actErrors', '      | some (.label _) => 0\n      | some _ => 1', '      | some _ => 0', 'colons are not counted'),
    ('erw_label', 'actErrors', '      | some (.label _) => 0\n      | some _ => 1', '      | some _ => 1', 'the colon behind a label is counted'),
    ('erw_vars', 'actErrors', '  | 27 => match appendVars (d 1).explicit_variables (d 3).identifiers with\n    | .ok ⟨_, some _⟩ => 1\n    | _ => 0\n', '',
     'the second list of variables is not counted'),
    ('erw_loop', 'actErrors', '  | 50 => if a.isLoop = 0 then 1 else 0', '  | 50 => 1', 'Прервать counts also in loops'),
    ('erw_try', 'actErrors', 'if a.isTry = 0 ∧ (d 2).stmt.isNil then 1 else 0', 'if (d 2).stmt.isNil then 1 else 0', 'ВызватьИсключение counts also in Исключение'),
    ('erw_ret', 'actErrors', 'if !a.isFunc ∧ !(d 2).stmt.isNil then 1 else 0', 'if !a.isFunc then 1 else 0', 'Возврат without a value counts'),
    ('erw_syntax', 'defaultFront', '  else if n = 0 then c.ast.front\n  else reduceFront c n.toNat', '  else if n = 0 then 0\n  else reduceFront c n.toNat',
     'syntax errors are not counted'),
    ('erw_square', 'globalsErrors', '      | .ok a\' => globalsErrors a\' vs', '      | .ok a\' => 2 * globalsErrors a\' vs', 'each error of a list is reported once more for every variable in front of it'),
    ('erw_once', 'runFront', '| .ok (.go c\') => runFront n c\'', '| .ok (.go c\') => if stepFront c = 0 then runFront n c\' else 0',
     'only the first error is looked at (what the property wants)'),
]:
    M(name, 'ErrorWork.lean', definition, old, new, bug, 'C73', ERP + ('' if name != 'erw_func' else '''
#eval match parse (newAST "Процедура Б() КонецПроцедуры а();".toList) with | .ret a => some (parseFront a) | _ => none'''), ERW)

# --- renaming in the tree ---------------------------------------------------------------------------
RNT = ['Verif.Props.RenameText']
RNP = '#eval ["Сообщить(а)", "Foo(а)", "а.Сообщить = Б", "Для Каждого Э Из а Цикл КонецЦикла", "а = Новый Массив(1)"].map printed'
for name, definition, old, new, bug in [
    ('rnt_builtin', 'pr', '| .method f ps n => onFlag n "Не ".toList ++ f ++', '| .method f ps n => onFlag n "Не ".toList ++ (if f = "Сообщить".toList then "Message".toList else f) ++',
     'the name of a known procedure is printed in English'),
    ('rnt_lower', 'pr', '| .method f ps n => onFlag n "Не ".toList ++ f ++', '| .method f ps n => onFlag n "Не ".toList ++ f.map Char.toLower ++',
     'names of procedures are printed in lower case'),
]:
    M(name, 'Print.lean', definition, old, new, bug, 'C74', RNP, RNT)

# --- byte order marks -------------------------------------------------------------------------------
MRK = ['Verif.Props.Mark']
MRP = '#eval ["\\uFEFFа = 1;", "а = 1; @", "а = 1 @ + 2", "\\uFEFF"].map fun s => match parse (newAST s.toList) with | .ret a => some (a.err.isNone, a.mod.body.length) | _ => none'
for name, definition, old, new, bug in [
    ('mrk_space', 'isSpace', "c == '\\r' || c == '\\n'", "c == '\\r' || c == '\\n' || c.toNat == 0xFEFF", 'the mark is skipped like a blank (what the property wants)'),
    ('mrk_end', 'nextRaw', 'else ⟨.error (.badChar c), [c], r⟩\n\nend', 'else ⟨.ok none, [], []⟩\n\nend', 'a strange character ends the text'),
    ('mrk_drop', 'nextRaw', 'else ⟨.error (.badChar c), [c], r⟩\n\nend', "else ⟨.ok (some ';'.toNat), [c], r⟩\n\nend", 'a strange character separates statements'),
]:
    M(name, 'Lexer.lean', definition, old, new, bug, 'C75', MRP, MRK)

# --- the order of ИначеЕсли, and signs that are lost ---------------------------------------------------
TRN = ['Verif.Props.Turn']
TRP = '#eval printed "Если а Тогда ИначеЕсли б Тогда Ф() ИначеЕсли в Тогда Г() ИначеЕсли г Тогда КонецЕсли"'
for name, definition, old, new, bug in [
    ('trn_reverse', 'printElifs', '  | .ifS c tb _ _ :: l => cf.sp d ++ "ИначеЕсли ".toList ++ prE c ++ " Тогда ".toList ++\n      printBody cf (d + 1) tb ++ printElifs cf d l\n',
     '  | .ifS c tb _ _ :: l => printElifs cf d l ++ cf.sp d ++ "ИначеЕсли ".toList ++ prE c ++ " Тогда ".toList ++\n      printBody cf (d + 1) tb\n',
     'the branches are printed in the order of the text (what C38 and C50 want)'),
    ('trn_skip', 'printElifs', '  | .ifS c tb _ _ :: l => cf.sp d ++', '  | .ifS c [] _ _ :: l => printElifs cf d l\n  | .ifS c tb _ _ :: l => cf.sp d ++',
     'branches without statements are not printed'),
    ('trn_two', 'printElifs', '  | .ifS c tb _ _ :: l => cf.sp d ++', '  | .ifS _ _ _ _ :: y :: l => printElifs cf d (y :: l)\n  | .ifS c tb _ _ :: l => cf.sp d ++',
     'only the last branch is printed'),
]:
    M(name, 'Print.lean', definition, old, new, bug, 'C76', TRP, TRN)
SGN = ['Verif.Props.Signs']
for name, definition, old, new, bug, text in [
    ('sgn_arg', 'pr', "| .var s u n => onFlag (m.isExpr && n) \"Не \".toList ++ onFlag (m.isExpr && u) ['-'] ++ s", "| .var s u n => onFlag (m.isExpr && n) \"Не \".toList ++ onFlag u ['-'] ++ s",
     'the sign of an argument is printed (what C35 and C50 want)', 'Ф(-а)'),
    ('sgn_drop', 'pr', "| .var s u n => onFlag (m.isExpr && n) \"Не \".toList ++", "| .var s u n => onFlag (m.isExpr && n && !u) \"Не \".toList ++",
     'Не in front of a sign is not printed', 'а = Не -б'),
]:
    M(name, 'Print.lean', definition, old, new, bug, 'C50', f'#eval printed "{text}"', SGN)
MIN = ['Verif.Props.Minify']
for name, definition, old, new, bug, text in [
    ('min_space', 'PrintConf.nl', "if cf.oneLine then []", "if cf.oneLine then List.replicate n ' '", 'a space is printed instead of a line break (what C77 wants)', 'Попытка Исключение КонецПопытки'),
    ('min_then', 'printItem', '"Если ".toList ++ prE c ++ " Тогда ".toList ++\n      printBody cf (d + 1) tb ++ printElifs cf d elifs', '"Если ".toList ++ prE c ++ " Тогда".toList ++\n      printBody cf (d + 1) tb ++ printElifs cf d elifs', 'Тогда is glued to the first statement when there is no line break', 'Если а Тогда б() КонецЕсли'),
]:
    M(name, 'Print.lean', definition, old, new, bug, 'C77', f'#eval printed "{text}" ⟨0, true⟩', MIN)
M('onc_case', 'Parser.lean', 'appendGlobal', 'a.mod.globals.any (fun g => g.name == v.name)', 'a.mod.globals.any (fun g => g.name.map Char.toLower == v.name.map Char.toLower)',
  'variables that differ in the case of Latin letters only count as declared twice (what C78 wants)', 'C78', '#eval (parseStd "Перем a; Перем A;").map (·.2.isNone)', ['Verif.Props.Once'])
M('mad_quote', 'Print.lean', 'pr', """| .str s => onFlag (!m.isChain) ('"' :: s ++ ['"'])""", """| .str s => onFlag (!m.isChain) ('"' :: s.flatMap (fun c => if c = '"' then ['"', '"'] else [c]) ++ ['"'])""",
  'quotes in strings are doubled although the values of parsed strings have doubled quotes', 'C79', '#eval printed "а = \\"б\\"\\"в\\""', ['Verif.Props.Made'])

# --- calls, labels, repeated blocks ---------------------------------------------------------------
CAL = ['Verif.Props.Calls']
CAP = '''#eval ["а = б.в()", "а = б().в", "а = б.в(1)[2]", "а = Ф(1,,б)", "а = Новый Массив(1,2)"].map fun s => match parseStd s with
  | some (⟨_, [.stm (.assign _ [e])]⟩, _) => reprStr (isMethod e, params e)
  | _ => "no assignment"'''
for name, definition, old, new, bug, claim in [
    ('cal_first', 'isMethod', '| .chain (.method _ _ _) _ _ _ => some true', '| .chain _ (.method _ _ _) _ _ => some true', 'IsMethod looks at the wrong end of the chain', 'C82'),
    ('cal_item', 'isMethod', '| .chain (.method _ _ _) _ _ _ => some true', '| .chain (.method _ _ _) _ _ _ => some true\n  | .chain (.item _ (.method _ _ _)) _ _ _ => some true',
     'an element of what a call returns counts as a call', 'C82'),
    ('cal_args', 'isMethod', '| .chain (.method _ _ _) _ _ _ => some true', '| .chain (.method _ (_ :: _ :: _) _) _ _ _ => some true', 'calls with fewer than two arguments do not count', 'C82'),
    ('cal_left', 'params', '| .method _ ps _ => some ps', '| .method _ ps _ => some (ps.filter fun p => match p with | .nil => false | _ => true)', 'arguments that are left out are not given', 'C83'),
    ('cal_new', 'params', '| .new _ ps => some ps', '| .new _ ps => some ps.tail', 'the first argument of Новый is lost', 'C83'),
]:
    M(name, 'Calls.lean', definition, old, new, bug, claim, CAP, CAL)
M('siz_clear', 'Parser.lean', 'act', '| 16 => .ok ({ v with opt_body := [] }, a)', '| 16 => .ok ({ v with opt_body := [], body := [] }, a)',
  'the opposite of a bug: an empty block clears the slot (what C27 and C68 want)', 'C68',
  '#eval shape "Попытка Исключение КонецПопытки;Попытка;а() Исключение КонецПопытки;Попытка;б() Исключение КонецПопытки"', SIZ)
M('alk_label', 'Parser.lean', 'act', '| 106 => .ok ({ v with goToLabel := .label (d 1).token.literal }, a)',
  "| 106 => .ok ({ v with goToLabel := .label (d 1).token.literal }, if (d 1).token.literal = ['а'] then { a with err := some (.at .syntaxError 0 0 []) } else a)",
  'a label with a certain name is an error', ['C80', 'C81'], '#eval (parsed "~а: б()", parsed "~в: б()")', ['Verif.Props.Alike'])

# --- StatementWalk ----------------------------------------------------------------------------------
STW = ['Verif.Props.StatementWalk']
for name, definition, old, new, bug, claim in [
    ('stw_root', 'statementWalk', '  walkL f none parent st l', '  walkL f (some 0) parent st l', 'the first argument is not nil', 'C85'),
    ('stw_parent', 'statementWalk', '  walkL f none parent st l', '  let _ := parent; walkL f none .body st l', 'the given parent is not used', 'C85'),
    ('stw_lost', 'statementWalk', '  walkL f none parent st l', '  ((walkL f none parent st l).1, l)', 'stores are lost', 'C85'),
    ('stw_args', 'walkKids', "    let (st, ps') := walkL f root v st ps\n", "    let ps' := ps; let _ := v\n", 'arguments of calls are not visited', 'C85'),
    ('stw_elif', 'walkKids', "    let (st, elifs') := walkL f root v st elifs\n", "    let elifs' := elifs\n", 'branches with ИначеЕсли are not visited', 'C85'),
    ('stw_inner', 'walkKids', "    let (st, body') := walkL f root v st body\n", "    let (st, body') := walkL f none v st body\n", 'in loops the first argument is nil', 'C41'),
    ('stw_index', 'walk', 'walkItems f none 0 st m.body', 'walkItems f none 1 st m.body', 'procedures are numbered from one', 'C41'),
    ('stw_module', 'walk', '(st, { m with body := b })', 'let _ := b; (st, m)', 'stores in the module body are lost', 'C42'),
]:
    M(name, 'Walk.lean', definition, old, new, bug, claim, r"""
def wlk : Callback (List String) where
  stm st v := (st ++ [s!"{v.root} {match v.parent with | .body => "body" | .func i => s!"func {i}" | .stm s => reprStr s} {reprStr v.elem}"], .undef)
  item st v := (st ++ [s!"{v.root} item"], v.elem)
#eval match parseStd "Процедура А() КонецПроцедуры Процедура Б() Если а Тогда в(г) ИначеЕсли а Тогда в() КонецЕсли; Пока б Цикл д() КонецЦикла КонецПроцедуры" with
  | some (m, _) => let a := walk wlk [] m; let b := statementWalk wlk (.stm .brk) [] [Stm.method ['в'] [.undef, .nil] false, .brk]
    s!"{a.1} {String.ofList (printModule ⟨0, true⟩ [] a.2)} {b.1} {reprStr b.2}"
  | _ => "no"
#eval let m : Module := ⟨[], [.stm .brk]⟩; let c : Callback Unit := ⟨fun _ v => ((), v.elem), fun _ _ => ((), .stm .cont)⟩
  match (walk c () m).2.body with | [.stm s] => reprStr s | _ => "?"
""", STW if claim == 'C85' else ['Verif.Props.Walk'])

# --- JSON again -------------------------------------------------------------------------------------
for name, file, definition, old, new, bug, text, claim, targets in [
    ('jsn_undef', 'Json.lean', 'fldOpt', '  | .nil => []\n', '  | .nil => []\n  | .undef => []\n', 'the default value Неопределено is left out', 'Процедура А(б = Неопределено) КонецПроцедуры', 'C43', JSN),
    ('jsn_elif', 'Json.lean', 'jElifs', '  | .ifS c tb _ _ :: l => .obj [fld "Expression" (jStm c), fld "TrueBlock" (jSlice (jL tb)),', '  | .ifS c _ _ _ :: l => .obj [fld "Expression" (jStm c), fld "TrueBlock" (jSlice []),',
     'the statements behind ИначеЕсли are lost', 'Если а Тогда ИначеЕсли б Тогда в() КонецЕсли', 'C43', JSN),
    ('jsn_elifs', 'Json.lean', 'jElifs', '      fld "IfElseBlock" .null, fld "ElseBlock" .null] :: jElifs l', '      fld "IfElseBlock" .null, fld "ElseBlock" .null] :: (let _ := jElifs l; [])',
     'only one ИначеЕсли is kept', 'Если а Тогда ИначеЕсли б Тогда в() ИначеЕсли в Тогда КонецЕсли', 'C43', JSN),
    ('jsn_gvar', 'Json.lean', 'jGVar', 'fld "Export" (.bool g.export)]', 'fld "Export" (.bool (g.export && g.directive != []))]', 'Экспорт of module variables is lost', 'Перем а Экспорт;', 'C43', JSN),
    ('jsn_directive', 'Json.lean', 'jGVar', 'fld "Directive" (.str g.directive), fld "Var"', 'fld "Var"', 'directives of module variables are lost', '&НаКлиенте Перем а;', 'C43', JSN),
    ('jsn_key', 'Json.lean', 'keyLe', 'decide (a.1.map Char.toNat ≤ b.1.map Char.toNat)', 'decide (a.1.length ≤ b.1.length)', 'keys are sorted by length only', 'Перем б, а;', 'C43', JSN),
    ('jsn_item', 'Json.lean', 'jItem', '| .func f => jFunc f', '| .func f => jFunc { f with body := f.body.take 1 }', 'only the first statement of a procedure is kept', 'Процедура А() б(); в() КонецПроцедуры', 'C43', JSN),
    ('jsn_slice', 'Json.lean', 'jSlice', '  | l => .arr l', '  | [v] => v\n  | l => .arr l', 'a list of one element is written as the element', 'Ф(Г(1))', 'C43', JSN),
    ('jtx_close', 'JsonText.lean', 'jString', "'\"' :: s.flatMap jChar ++ ['\"']", "'\"' :: s.flatMap jChar", 'no quotation mark at the end of strings', 'Ф()', 'C63', JTX),
    ('jtx_hexdigit', 'JsonText.lean', 'hexChar', '"0123456789abcdef"', '"0123456789abcde"', 'no digit for fifteen', r'а = \"\x1f\"', 'C63', JTX),
    ('jtx_dp', 'JsonText.lean', 'F64.decimal', 'else (ds\', ds.length + e)', 'else (ds\', ds\'.length + e)', 'zeros at the end move the decimal point', 'а = 100', 'C63', JTX),
    ('jtx_strip', 'JsonText.lean', 'F64.decimal', "(ds.reverse.dropWhile (· == '0')).reverse", "(ds.reverse.dropWhile (· == '0'))", 'the digits are reversed', 'а = 12', 'C63', JTX),
    ('jtx_dot', 'JsonText.lean', 'F64.fmtF', 'if dp < ds.length then', 'if dp ≤ ds.length then', 'integers end with a point', 'а = 12', 'C63', JTX),
    ('jtx_lead', 'JsonText.lean', 'F64.fmtF', "'0' else ['0']) ++", "'0' else []) ++", 'no zero before the point', 'а = 0.5', 'C63', JTX),
    ('jtx_mant', 'JsonText.lean', 'F64.fmtE', "if ds.length ≤ 1 then [] else '.' :: ds.drop 1", "'.' :: ds.drop 1", 'a point without digits behind it', 'а = 0.0000000001', 'C63', JTX),
    ('jtx_first', 'JsonText.lean', 'F64.shortest', '.find? (readsBack x)).getD', '.head?).getD', 'numbers are written with one digit', 'а = 12', 'C63', JTX),
    ('jtx_reads', 'JsonText.lean', 'F64.readsBack', '10 ^ c.2.toNat', '10 ^ (c.2.toNat + 1)', 'numbers are written with all their digits', 'а = 0.1', 'C63', JTX),
    ('jtx_huge', 'JsonText.lean', 'F64.sextillion', '⟨false, 7629394531250000, 17⟩', '⟨false, 7629394531250000, 0⟩', 'the exponent form begins at 10^15', 'а = 10000000000000000', 'C63', JTX),
]:
    M(name, file, definition, old, new, bug, claim, f'#eval IO.println (json "{text}")', targets)

# --- numbers and dates again ------------------------------------------------------------------------
for name, file, definition, old, new, bug, pr, claim, targets in [
    ('flt_log', 'Float64.lean', 'floorLog2', '(if d * 2 ^ l.toNat ≤ n then l else l - 1)', 'l', 'the binary exponent is one too big', tok('5'), 'C08', LIT),
    ('flt_digit', 'Float64.lean', 'digitsVal', '(c.toNat - 48)', '(c.toNat - 47)', 'digits are one too big', tok('12'), 'C08', LIT),
    ('flt_neg', 'Float64.lean', 'negate', '{ x with neg := !x.neg }', '{ x with neg := true }', 'minus of a negative number', '#eval parsed "а = --1"', ['C29', 'C16'], ['Verif.Props.Program']),
    ('flt_round', 'Float64.lean', 'roundInt', 'roundHalfEven x.mant (2 ^ (-x.exp).toNat)', 'x.mant / 2 ^ ((-x.exp).toNat + 1)', 'half of the number is printed', '#eval printed "а = 12"', 'C34', ['Verif.Props.Print']),
    ('tim_field', 'Time.lean', 'field', '(j - i)', '(j - i - 1)', 'the last digit of each field is ignored', tok("'20241112'"), 'C09', LIT),
    ('tim_pad', 'Time.lean', 'pad', "List.replicate (w - ds.length) '0' ++ ds", 'let _ := w; ds', 'no leading zeros', '#eval printed "а = \'20240102\'"', ['C38', 'C43'], JSN + ['Verif.Props.Reprint']),
    ('tim_order', 'Time.lean', 'format', 'pad 2 t.month ++ pad 2 t.day', 'pad 2 t.day ++ pad 2 t.month', 'day before month', '#eval printed "а = \'20240102\'"', 'C38', ['Verif.Props.Reprint']),
    ('tim_zero', 'Time.lean', 'zero', '⟨1, 1, 1, 0, 0, 0⟩', '⟨1970, 1, 1, 0, 0, 0⟩', 'the empty date is the first of January 1970', tok("'00000000'"), 'C09', LIT),
    ('low_old2', 'ToLower.lean', 'fastToLowerOld', 'encode ((decodeAll s).map lowerRune)', 'encode (decodeAll s)', 'the old function changes nothing', '#eval ToLower.fastToLowerOld [0x41]', 'C11', LOW),
    ('low_cget', 'ToLower.lean', 'cget', 'buf.getD i 0', 'buf.getD i 1', 'no NUL behind the text', '#eval ToLower.cRun 9 ⟨[0x61], 0⟩', 'C12', LOW),
    ('low_crun', 'ToLower.lean', 'cRun', '    | none => some s.buf', '    | none => some (s.buf.take s.i.pred)', 'the last byte is lost', '#eval ToLower.cRun 9 ⟨[0x61, 0x62], 0⟩', 'C12', LOW),
]:
    M(name, file, definition, old, new, bug, claim, pr, targets)

# --- what Walk shows --------------------------------------------------------------------------------
SHO = ['Verif.Props.Shown']
for name, old, new, bug in [
    ('sho_else', "    let (st, els') := walkL f root v st els\n", "    let els' := els\n", 'Иначе is not visited'),
    ('sho_catch', "    let (st, c') := walkL f root v st c\n    (st, .tryS b' c')", "    let c' := c\n    (st, .tryS b' c')", 'handlers are not visited'),
    ('sho_right', "    let st := (f.stm st ⟨root, v, r'⟩).1\n", '', 'right operands are not shown'),
    ('sho_chain', '  | s => (st, s)\n/-- `walkHelper`', "  | .chain u c k n =>\n    let v := Parent.stm (.chain u c k n)\n    let (st, u') := walkKids f root st u\n    let st := (f.stm st ⟨root, v, u'⟩).1\n    (st, .chain u' c k n)\n  | s => (st, s)\n/-- `walkHelper`",
     'chains are visited too, as in the lines that are commented out (so that the violation is gone)'),
]:
    M(name, 'Walk.lean', 'walkKids', old, new, bug, 'C86', r"""
def wlk : Callback (List String) where
  stm st v := (st ++ [reprStr v.elem], v.elem)
  item st v := (st ++ ["item"], v.elem)
#eval match parseStd "Если а + б Тогда Иначе в() КонецЕсли; Попытка Исключение г() КонецПопытки; а.в(Б())" with
  | some (m, _) => (walk wlk [] m).1
  | _ => []
""", SHO)

# --- helper functions of Print, Memory, Utf8 and of the parser --------------------------------------
def memr(text):
    return 'deriving instance Repr for HStm\nderiving instance Repr for HParam\nderiving instance Repr for HFunc\nderiving instance Repr for HItem\n#eval IO.println (match parseH goGrow (newASTH "' + text + '".toList) [] with | .ret a _ => reprStr a.ctl.err ++ reprStr a.items | _ => "panic")'
for name, file, definition, old, new, bug, pr, claim, targets in [
    ('prt_join', 'Print.lean', 'join', '  | x :: xs => x ++ sep ++ join sep xs', '  | x :: xs => x ++ sep ++ sep ++ join sep xs', 'two separators', '#eval printed "Ф(а, б)"', ['C38', 'C37'], RPR),
    ('prt_first', 'Print.lean', 'join', '  | [x] => x\n', '  | [x] => x ++ sep\n', 'a comma behind the last argument', '#eval printed "Ф(а, б)"', ['C38', 'C37'], RPR),
    ('prt_flag', 'Print.lean', 'onFlag', 'if b then s else []', 'if b then s.take 1 else []', 'Не is printed as Н', '#eval printed "а = Не б"', ['C35'], PRT),
    ('prt_eachq', 'Print.lean', 'forName', '  | .str s => s\n', "  | .str s => '\"' :: s\n", 'a quotation mark before the loop variable', '#eval printed "Для Каждого а Из б Цикл КонецЦикла"', ['C38', 'C37'], RPR),
    ('prt_cat', 'Print.lean', 'prCat', 's :: l => pr (.expr level) s ++ prCat level l', 's :: l => prCat level l ++ pr (.expr level) s', 'elements in parentheses in reverse order', '#eval printed "а = (б, в)"', ['C38', 'C37', 'C74', 'C79'], RPR),
    ('prt_last', 'Print.lean', 'prList', '  | s :: l => pr .var s :: prList l', '  | [s] => [pr (.expr 1) s]\n  | s :: l => pr .var s :: prList l', 'the last argument as an operand', '#eval printed "Ф(а + б)"', ['C38', 'C37'], RPR),
    ('utf_dec', 'Utf8.lean', 'decodeFrom', '((decodeRune (b :: r)).2 - 1) r', '((decodeRune (b :: r)).2) r', 'one byte too many is skipped', '#eval Utf8.decodeAll [0x61, 0x62, 0x63]', ['C11', 'C13'], BYT),
    ('utf_two', 'Utf8.lean', 'encodeChar', 'else if n < 0x800 then [', 'else if n < 0x80F then [', 'two bytes for too many characters', '#eval Utf8.encodeChar (Char.ofNat 0x805)', ['C11', 'C13'], BYT),
    ('utf_next', 'Utf8.lean', 'nextLetB', 'some (currentLetB code (offset + (decodeRune (code.drop offset)).2))', 'some (currentLetB code (offset + 1))', 'the next byte instead of the next letter', '#eval Utf8.nextLetB [0xD0, 0xB0, 0x62] 0', ['C13'], BYT),
    ('utf_pos', 'Utf8.lean', 'nextPosB', 'if offset > code.length then none else some (offset +', 'if offset ≥ code.length then none else some (offset +', 'nextPos fails at the end', '#eval Utf8.nextPosB [0x61] 1', ['C13', 'C60'], BYT + ['Verif.Props.ByteLexer']),
    ('mem_order', 'Memory.lean', 'appendGlobalH', '  | _ :: _ => a.errorH .varOrder\n', '  | [_] => a.errorH .varOrder\n  | _ :: _ :: _ => .ok a\n', 'variables behind two procedures are dropped silently', memr('Процедура А() КонецПроцедуры Процедура Б() КонецПроцедуры Перем а;'), ['C58'], MEM),
    ('mem_stms', 'Memory.lean', 'appendStmsH', 'items := a.items ++ l.map .stm', 'items := l.map .stm ++ a.items', 'statements before the procedures', memr('Процедура А() КонецПроцедуры а()'), ['C58'], MEM),
    ('mem_func', 'Memory.lean', 'appendFuncH', '  | some (.stm _) => a.errorH .funcOrder\n', '', 'procedures behind statements', memr('а(); Процедура А() КонецПроцедуры'), ['C58'], MEM),
    ('mem_loop', 'Memory.lean', 'checkLoopH', 'if a.ctl.isLoop = 0 then', 'if a.ctl.isLoop < 0 then', 'Прервать anywhere', memr('Прервать'), ['C58'], MEM),
    ('mem_throw', 'Memory.lean', 'checkThrowH', 'if a.ctl.isTry = 0 ∧ param.isNil', 'if a.ctl.isTry = 0 ∨ param.isNil', 'ВызватьИсключение with argument outside of handlers', memr('ВызватьИсключение а'), ['C58'], MEM),
    ('mem_ret', 'Memory.lean', 'checkReturnH', 'if !a.ctl.isFunc ∧ !param.isNil', 'if a.ctl.isFunc ∧ !param.isNil', 'values returned from procedures only', memr('Функция А() Возврат 1 КонецФункции'), ['C58'], MEM),
    ('mem_tryflag', 'Memory.lean', 'setTryH', 'setTry a.ctl flag', 'setLoop a.ctl flag', 'the wrong flag', memr('Прервать; Попытка Исключение ВызватьИсключение КонецПопытки'), ['C58'], MEM),
    ('mem_create', 'Memory.lean', 'createFuncH', '«export» := exp.isSome }', '«export» := exp.isNone }', 'Экспорт reversed', memr('Процедура А() Экспорт КонецПроцедуры'), ['C58'], MEM),
    ('mem_minus', 'Memory.lean', 'unaryMinusH', '  | .chain u c _ n => .chain u c true n\n', '', 'minus before chains is lost', memr('а = -б.в'), ['C58'], MEM),
    ('mem_not', 'Memory.lean', 'notStmH', '  | .exprs l _ => .exprs l true\n', '', 'Не before parentheses is lost', memr('а = Не (б)'), ['C58'], MEM),
    ('mem_param', 'Memory.lean', 'fillParamH', '⟨.nil, t.literal, isValue⟩', '⟨.nil, t.literal, !isValue⟩', 'Знач reversed', memr('Процедура А(Знач б) КонецПроцедуры'), ['C58'], MEM),
    ('mem_colon', 'Memory.lean', 'checkColonH', 'match block.getLast? with', 'match block.head? with', 'the first statement is tested for a label', memr('~а: б(): в()'), ['C58'], MEM),
    ('mem_fetch', 'Memory.lean', 'fetchH', 'lval := t, look := some (tokNum k) }, tokNum k)', 'lval := t, look := none }, tokNum k)', 'the token is read twice', memr('а = 1'), ['C58'], MEM),
    ('mem_pop', 'Memory.lean', 'popNH', '  | n + 1, (_, v) :: l, st => popNH n l (v :: st)', '  | n + 1, (_, v) :: l, st => popNH n l (st ++ [v])', 'slots in the wrong order', memr('а = б'), ['C58'], MEM),
    ('mem_goto', 'Memory.lean', 'mkGotoH', '  | .label n => .goto n\n', '  | .label _ => .goto []\n', 'jumps lose the label', memr('Перейти ~а'), ['C58'], MEM),
    ('mem_default', 'Memory.lean', 'HParam.defaultValue', 'default := match v with | .nil => .undef | v => v', 'default := v', 'a missing value stays missing', memr('Процедура А(б) КонецПроцедуры'), ['C58'], MEM),
    ('psr_globals', 'Parser.lean', 'appendGlobals', 'do appendGlobals (← appendGlobal a v) vs', 'do appendGlobal (← appendGlobals a vs) v', 'variables in reverse order', '#eval parsed "Перем а, б;"', ['C16', 'C24'], PRG),
    ('psr_fill', 'Parser.lean', 'fillParam', '⟨.nil, t.literal, isValue⟩', '⟨.undef, t.literal, isValue⟩', 'parameters have a default value', '#eval parsed "Процедура А(б) КонецПроцедуры"', ['C16', 'C31'], PRG),
    ('psr_bin', 'Parser.lean', 'mkBin', '.bin op l r false false', '.bin op r l false false', 'operands swapped', '#eval parsed "а = б - в"', ['C16', 'C30'], PRG),
    ('psr_goto', 'Parser.lean', 'mkGoto', '  | .label n => .goto n\n', '  | .label n => .goto n.tail\n', 'labels lose the first letter', '#eval parsed "Перейти ~а"', ['C16'], PRG),
    ('psr_pop', 'Parser.lean', 'popN', '  | n + 1, (_, v) :: l, st => popN n l (v :: st)', '  | n + 1, (_, _) :: l, st => popN n l ({} :: st)', 'slots are cleared when they are popped', '#eval parsed "а = 1"', ['C16'], PRG),
    ('lex_finish', 'Lexer.lean', 'finish', '| .ok v => (⟨raw.literal, v, raw.rest, dot⟩, .ok (some k))', '| .ok v => (⟨raw.literal, v, raw.rest, false⟩, .ok (some k))', 'no member names', tok('а.Если'), ['C06', 'C49'], LEX),
    ('lex_trivia', 'Lexer.lean', 'skipTrivia', 'skipRegions (skipComment (skipSpace s))', 'skipComment (skipSpace s)', '# lines at the start are not skipped', tok('#а\\nб'), ['C04', 'C49', 'C03'], LEX + ['Verif.Props.Text']),
    ('lex_digits', 'Lexer.lean', 'extractDigits', 's.filter isDigit', 's.takeWhile isDigit', 'dates end at the first other character', tok("'2024.01.02'"), ['C09'], LIT),
    ('lex_add', 'Lexer.lean', 'addLit', '(.ok (p ++ l), r)', '(.ok (l ++ p), r)', 'strings are reversed', tok('\\"аб\\"'), ['C07'], LIT),
]:
    M(name, file, definition, old, new, bug, claim, pr, targets)
