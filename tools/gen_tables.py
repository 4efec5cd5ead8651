#!/usr/bin/env python3
"""Generates lean/Verif/Tables.lean from the goyacc tables in /repo/ast/y.go (read as text)."""
import re
SRC = open('/repo/ast/y.go', encoding='utf8').read()

def table(name):
    m = re.search(r'var ' + name + r' = \[\.\.\.\]\w+\{(.*?)\n\}', SRC, re.S)
    first = SRC[:m.start()].count('\n') + 1
    last = SRC[:m.end()].count('\n') + 1
    return [int(x) for x in re.findall(r'-?\d+', m.group(1))], first, last

def lean_rows(vals):
    rows = [vals[i:i + 10] for i in range(0, len(vals), 10)]
    return '[\n' + ',\n'.join('  [' + ', '.join(str(v) for v in r) + ']' for r in rows) + ']'

out = ['''/-!
# The parser tables of `/repo/ast/y.go`

Generated by `tools/gen_tables.py`; the numbers are those of y.go, in rows of ten.
-/
namespace Verif.Tables

/-- Table lookup `t[i]`, rows of ten entries. -/
def get (t : List (List Int)) (i : Nat) : Int := (t.getD (i / 10) []).getD (i % 10) 0

/-- `yyLast` (`/repo/ast/y.go:185`). -/
def yyLast : Int := 618
/-- `yyPrivate` (`/repo/ast/y.go:183`). -/
def yyPrivate : Nat := 57344
/-- `yyFlag` (`/repo/ast/y.go:429`). -/
def yyFlag : Int := -1000
/-- `yyErrCode` (`/repo/ast/y.go:157-159`). -/
def yyErrCode : Int := 2
''']
for n in ['yyExca', 'yyAct', 'yyPact', 'yyPgo', 'yyR1', 'yyR2', 'yyChk', 'yyDef', 'yyTok1', 'yyTok2', 'yyTok3']:
    v, a, b = table(n)
    out.append(f'/-- `{n}` (`/repo/ast/y.go:{a}-{b}`), {len(v)} entries. -/\ndef {n} : List (List Int) := {lean_rows(v)}\n')
out.append('end Verif.Tables\n')
open('/verif/lean/Verif/Tables.lean', 'w', encoding='utf8').write('\n'.join(out))
