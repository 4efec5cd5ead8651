"""Writes lean/Verif/Proofs/LR/PlanData.lean: for every state of the automaton, how a text that has been read up to this state can be completed.

The data are checked in Lean (Proofs/LR/Viable.lean); nothing here is trusted."""
import os
from lrlib import *

nprod = len(R)


def dfl(s, t):
    n = Def[s]
    if n == -2:
        for c, q in exca(s):
            if c < 0 or c == t:
                n = q
                break
        if n < 0:
            return ('acc',)
    return ('err',) if n == 0 else ('red', n)


def action(s, t):
    if Pact[s] <= -1000:
        return dfl(s, t)
    x = shift(s, t)
    return ('sh', x) if x is not None else dfl(s, t)


# smallest trees
mt = {t: ('L', t) for t in range(1, 68)}
size = {t: 1 for t in range(1, 68)}
changed = True
while changed:
    changed = False
    for p in range(1, nprod):
        l, r = R[p]
        if all(x in mt for x in r):
            sz = sum(size[x] for x in r)
            if l not in size or sz < size[l]:
                size[l] = sz
                mt[l] = ('N', p, [mt[x] for x in r])
                changed = True


def yl(T):
    return [T[1]] if T[0] == 'L' else [x for k in T[2] for x in yl(k)]


def yls(ts):
    return [x for t in ts for x in yl(t)]


def follow(b, xs):
    for x in xs:
        b = trans.get((b, x))
        if b is None:
            return None
    return b


def bases(s, p, d):
    return [(b, trans[b, R[p][0]]) for b in range(NS) if (b, R[p][0]) in trans and follow(b, R[p][1][:d]) == s]


# the item to be completed in each state
choice = {}
for s in range(2, NS):
    c = [x for x in kern[s] if not (x[1] == 1 and R[x[0]][1][0] == R[x[0]][0])] or kern[s]
    choice[s] = min(c, key=lambda x: (-x[1], sum(size[X] for X in R[x[0]][1][x[1]:])))

F = {s: set() for s in range(NS)}
F[1] = {1}
info = {}
for s in range(2, NS):
    p, d = choice[s]
    info[s] = (p, d, [mt[x] for x in R[p][1][d:]], bases(s, p, d))
changed = True
while changed:
    changed = False
    for s in range(2, NS):
        p, d, rest, bs = info[s]
        y = yls(rest)
        new = {y[0]} if y else set().union(*[F[g] for b, g in bs])
        if new - F[s]:
            F[s] |= new
            changed = True
rank = {1: 0}
todo = set(range(2, NS))
while todo:
    for s in list(todo):
        p, d, rest, bs = info[s]
        if d >= 2:
            rank[s] = 0
            todo.discard(s)
        elif all(g in rank for b, g in bs):
            rank[s] = 1 + max(rank[g] for b, g in bs)
            todo.discard(s)


def rows(xs):
    return '[\n' + ',\n'.join('  [' + ', '.join(xs[i:i + 10]) + ']' for i in range(0, len(xs), 10)) + ']'


nts = sorted(x for x in mt if x >= 100)
used = set()


def mark(T):
    if T[0] == 'L':
        used.add(T[1])
    else:
        used.add(R[T[1]][0])
        for k in T[2]:
            mark(k)


for s in info:
    for T in info[s][2]:
        mark(T)
out = '''import Verif.Proofs.LR.Path
/-!
# How a text can be completed

Generated by `tools/gen_plan.py`; checked in `Proofs/LR/Viable.lean`.  Tables are in rows of ten states.
-/
namespace Verif.LR
open Spec

/-- In each state, the item that is completed: production and number of symbols that have been read. -/
def planTab : List (List (Nat × Nat)) := %s

/-- In each state, the tokens that can begin the completion. -/
def firstTab : List (List (List Nat)) := %s

/-- Bounds the number of reductions that do not shorten the stack. -/
def rankTab : List (List Nat) := %s

/-- A token for a terminal in a completion. -/
def minLeaf (a : Terminal) : Tree := .leaf a.kind ⟨if a = .semi then [';'] else [], .str [], [], false⟩

/-- A tree for a symbol in a completion. -/
''' % (rows(['(%d,%d)' % choice.get(s, (0, 0)) for s in range(NS)]),
       rows([str(sorted(F[s])).replace(' ', '') for s in range(NS)]),
       rows([str(rank.get(s, 0)) for s in range(NS)]))
names = {}
for line in open(os.path.join(os.path.dirname(os.path.abspath(__file__)), '../lean/Verif/Proofs/LR/Grammar.lean')):
    w = line.split()
    if len(w) == 4 and w[0] == '|' and w[1].startswith('.') and w[3].isdigit() and int(w[3]) < 100:
        names[int(w[3])] = w[1]


def lean(T):
    if T[0] == 'L':
        return 'minLeaf ' + names[T[1]]
    return '.node %d [%s]' % (T[1], ', '.join(lean(k) for k in T[2]))


roots = sorted({T[1] if T[0] == 'L' else R[T[1]][0] for s in info for T in info[s][2]})
out += 'def minTree : Nat → Tree\n' + ''.join('  | %d => %s\n' % (X, lean(mt[X])) for X in roots) + '  | _ => minLeaf .semi\n'
out += '\n/-- The terminals of the completions. -/\ndef minTerms : List Terminal := [%s]\n' % ', '.join(names[t] for t in sorted(used) if t < 100)
out += '\nend Verif.LR\n'
dst = os.path.join(os.path.dirname(os.path.abspath(__file__)), '../lean/Verif/Proofs/LR/PlanData.lean')
open(dst, 'w').write(out)
