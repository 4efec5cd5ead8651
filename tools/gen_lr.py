#!/usr/bin/env python3
"""Writes lean/Verif/Proofs/LR/Data.lean: annotations of the LR states (untrusted, checked in Lean)."""
import os, sys
sys.path.insert(0, os.path.dirname(os.path.abspath(__file__)))
from lrlib import *
root = os.path.dirname(os.path.dirname(os.path.abspath(__file__)))
def pl(l): return '[' + ', '.join('(%d,%d)' % x for x in l) + ']'
def nl(l): return '[' + ', '.join(map(str, l)) + ']'
def chunk(name, ty, rows, doc):
    # rows of ten for quick access
    out = ['/-- %s -/' % doc, 'def %s : List (List (%s)) := [' % (name, ty)]
    cs = [rows[i:i+10] for i in range(0, len(rows), 10)]
    out.append(',\n'.join('  [' + ',\n   '.join(c) + ']' for c in cs) + ']\n')
    return '\n'.join(out)
shifts = [sorted((X, t) for (s2, X), t in trans.items() if s2 == s and X < 100) for s in range(NS)]
gotos = [sorted((X, t) for (s2, X), t in trans.items() if s2 == s and X > 100) for s in range(NS)]
o = ['''/-!
# Annotations of the states of the automaton

Generated by `tools/gen_lr.py`; checked against the tables of y.go and the productions in `Proofs/LR/Check.lean`.
All tables are in rows of ten states.
-/
namespace Verif.LR

/-- Entry `i` of a table in rows of ten. -/
def at10 {α : Type} (d : α) (t : List (List α)) (i : Nat) : α := (t.getD (i / 10) []).getD (i % 10) d
''']
o.append(chunk('shiftTab', 'List (Nat × Nat)', [pl(x) for x in shifts], 'Shifts: token and next state.'))
o.append(chunk('gotoTab', 'List (Nat × Nat)', [pl(x) for x in gotos], 'Gotos: nonterminal and next state.'))
o.append(chunk('kernTab', 'List (Nat × Nat)', [pl(x) for x in kern.values()] , 'Kernel items: production and position of the dot (> 0).'))
o.append(chunk('accTab', 'Nat', [str(acc[s]) for s in range(NS)], 'Symbol by which the state is entered.'))
o.append(chunk('potTab', 'Nat', [str(h[s]) for s in range(NS)], 'Potential.'))
o.append('end Verif.LR')
open(root + '/lean/Verif/Proofs/LR/Data.lean', 'w', encoding='utf8').write('\n'.join(o) + '\n')
