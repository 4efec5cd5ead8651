#!/usr/bin/env python3
"""Writes lean/Verif/Spec/Grammar.lean from /repo/ast/grammar.y."""
import os, sys
sys.path.insert(0, os.path.dirname(os.path.abspath(__file__)))
from lrlib import *
root = os.path.dirname(os.path.dirname(os.path.abspath(__file__)))
chars = {"':'": 'colon', "';'": 'semi', "','": 'comma', "'>'": 'gt', "'<'": 'lt', "'+'": 'plus', "'-'": 'minus', "'*'": 'star',
 "'/'": 'slash', "'%'": 'percent', "'('": 'lpar', "')'": 'rpar', "'?'": 'quest', "'['": 'lbr', "']'": 'rbr', "'.'": 'dot'}
rename = {'token_identifier': 'ident', 'In': 'In', 'If': 'If', 'Then': 'Then', 'Else': 'Else', 'To': 'To'}
used = []
for l, r in prods[1:]:
    for x in r:
        if x in tokno and x not in used: used.append(x)
used.sort(key=lambda x: tokno[x])
def tn(x): return chars[x] if x in chars else 'k' + x
def nn(x): return 'mid' + x[2:] if x.startswith('$$') else 'n_' + x
nl = [l for l, _ in prods[1:]]
nl = list(dict.fromkeys(nl))
nl.sort(key=lambda x: nts[x])
def lits(x):
    return ord(x[1]) if x in chars else 57346 + tokdecl.index(x)
o = []
o.append('''/-!
# Specification: the grammar of `/repo/ast/grammar.y`

Generated by `tools/gen_grammar.py`: the token classes, the nonterminals and the productions of grammar.y
(lines 85-378) in the order of the file, without the semantic actions.  An action in the middle of a right side
counts, as yacc has it, as an empty nonterminal of its own (`mid13` ... are the actions numbered 13, 34, 36, 38, 62).
-/
namespace Verif.Spec

/-- Token classes.  `k...` are the names of the `%token` declarations. -/
inductive Terminal
  | ''' + '\n  | '.join(tn(x) for x in used) + '''
deriving DecidableEq, Repr

/-- Nonterminals. -/
inductive NT
  | ''' + '\n  | '.join(nn(x) for x in nl) + '''
deriving DecidableEq, Repr

inductive Sym
  | t (a : Terminal)
  | n (A : NT)
deriving DecidableEq, Repr

open Terminal NT in
/-- Left and right side of every production. -/
def productions : List (NT × List Sym) := [''')
rows = []
for l, r in prods[1:]:
    rows.append('  (%s, [%s])' % (nn(l), ', '.join(('.t ' + tn(x)) if x in tokno else '.n ' + nn(x) for x in r)))
o.append(',\n'.join(rows) + ']\n')
o.append('''/-- `Derives α w`: the sequence of symbols `α` derives the sequence of tokens `w`. -/
inductive Derives : List Sym → List Terminal → Prop
  | nil : Derives [] []
  | t (a : Terminal) {α : List Sym} {w : List Terminal} : Derives α w → Derives (.t a :: α) (a :: w)
  | n (A : NT) {β α : List Sym} {u w : List Terminal} :
      (A, β) ∈ productions → Derives β u → Derives α w → Derives (.n A :: α) (u ++ w)

/-- The sentences of the grammar. -/
def Sentence (w : List Terminal) : Prop := Derives [.n NT.n_module] w

/-- The token numbers that the tokeniser returns: the code of the character, or the position in the
`%token` declarations counted from 57346. -/
def Terminal.kind : Terminal → Nat''')
for x in used: o.append('  | .%s => %d' % (tn(x), lits(x)))
o.append('\n/-- All token classes. -/\ndef allTerminals : List Terminal :=\n  [' + ', '.join('.' + tn(x) for x in used) + ']\n')
o.append('end Verif.Spec')
open(root + '/lean/Verif/Spec/Grammar.lean', 'w', encoding='utf8').write('\n'.join(o) + '\n')

# numbers used by the proofs
o = ['''import Verif.Spec.Grammar
/-!
# Numbers of the grammar symbols in `/repo/ast/y.go`

Generated by `tools/gen_grammar.py`.  Terminals have the internal numbers of y.go (1..67), nonterminal `n` of
`yyR1` is written `100 + n`.
-/
namespace Verif.LR
open Spec

/-- Internal number of a terminal (`yyToknames`, `/repo/ast/y.go:71-139`). -/
def tnum : Terminal → Nat''']
for x in used: o.append('  | .%s => %d' % (tn(x), tokno[x]))
o.append('\n/-- 100 + number of a nonterminal. -/\ndef nnum : NT → Nat')
for x in nl: o.append('  | .%s => %d' % (nn(x), 100 + nts[x]))
o.append('\n/-- All nonterminals. -/\ndef allNTs : List NT :=\n  [' + ', '.join('.' + nn(x) for x in nl) + ']')
o.append('''
def symNum : Sym → Nat
  | .t a => tnum a
  | .n A => nnum A

/-- Left side of production `p`. -/
def lhsTab : List Nat := [''' + ', '.join(str(l) for l, r in R) + ''']

/-- Right side of production `p`. -/
def rhsTab : List (List Nat) := [
  ''' + ',\n  '.join('[' + ', '.join(map(str, r)) + ']' for l, r in R) + ''']

def lhs (p : Nat) : Nat := lhsTab.getD p 0
def rhs (p : Nat) : List Nat := rhsTab.getD p []

end Verif.LR''')
open(root + '/lean/Verif/Proofs/LR/Grammar.lean', 'w', encoding='utf8').write('\n'.join(o) + '\n')
