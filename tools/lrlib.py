"""Reads /repo/ast/y.go and /repo/ast/grammar.y (as text) and rebuilds the LR(0) automaton of the grammar.
Used by gen_grammar.py and gen_lr.py.  Nothing here is trusted: the generated Lean data are checked by the kernel
against the tables and the productions."""
import re
Y = open('/repo/ast/y.go', encoding='utf8').read()
G = open('/repo/ast/grammar.y', encoding='utf8').read()

def tab(n):
    m = re.search(r'var ' + n + r' = \[\.\.\.\]\w+\{(.*?)\n\}', Y, re.S)
    return [int(x) for x in re.findall(r'-?\d+', m.group(1))]

T = {n: tab(n) for n in 'yyExca yyAct yyPact yyPgo yyR1 yyR2 yyChk yyDef yyTok1 yyTok2 yyTok3'.split()}
names = re.findall(r'"([^"]*)"', re.search(r'var yyToknames = \[\.\.\.\]string\{(.*?)\n\}', Y, re.S).group(1))
tokdecl = [w for l in re.findall(r'^%token<token> (.*)$', G, re.M) for w in l.split()]

body = G.split('%%')[1]
body = re.sub(r'/\*.*?\*/', '', body, flags=re.S)
body = re.sub(r'//[^\n]*', '', body)
i = 0
toks = []
while i < len(body):
    c = body[i]
    if c.isspace():
        i += 1; continue
    if c == '{':
        d = 0; j = i
        while True:
            ch = body[j]
            if ch == '"': j = body.index('"', j + 1)
            elif ch == '{': d += 1
            elif ch == '}':
                d -= 1
                if d == 0: break
            j += 1
        toks.append(('act', body[i:j+1])); i = j + 1; continue
    if c == "'":
        toks.append(('sym', body[i:i+3])); i += 3; continue
    m = re.match(r'[A-Za-z_]\w*', body[i:])
    if m:
        toks.append(('sym', m.group(0))); i += len(m.group(0)); continue
    if c == '%':
        m = re.match(r'%prec\s+(\w+)', body[i:]); toks.append(('prec', m.group(1))); i += len(m.group(0)); continue
    toks.append((c, c)); i += 1
prods = [('$accept', ['module', '$end'])]
k = 0
while k < len(toks):
    if toks[k][0] == ';':
        k += 1; continue
    assert toks[k][0] == 'sym' and toks[k+1][0] == ':'
    lhs = toks[k][1]; k += 2
    while True:
        rhs = []
        while k < len(toks):
            t = toks[k]
            if t[0] == 'sym':
                if k + 1 < len(toks) and toks[k+1][0] == ':': break
                rhs.append(t[1]); k += 1
            elif t[0] == 'act':
                if k + 1 < len(toks) and toks[k+1][0] == 'sym' and not (toks[k+2][0] == ':'):
                    n = len(prods); prods.append(('$$%d' % n, [])); rhs.append('$$%d' % n)
                k += 1
            elif t[0] == 'prec': k += 1
            else: break
        prods.append((lhs, rhs))
        if k < len(toks) and toks[k][0] == '|':
            k += 1; continue
        break
tokno = {n: i + 1 for i, n in enumerate(names)}
nts = {}
for i, (l, r) in enumerate(prods):
    n = T['yyR1'][i]
    assert nts.setdefault(l, n) == n
    assert len(r) == T['yyR2'][i] or i == 0

# symbols as numbers: terminals 1..67, nonterminal n as 100+n
def code(s): return tokno[s] if s in tokno else 100 + nts[s]
NS = len(T['yyPact']); YL = 618; NT = 67
Act, Pact, Chk, Def, Pgo, R1, R2, Exca = [T[k] for k in ('yyAct','yyPact','yyChk','yyDef','yyPgo','yyR1','yyR2','yyExca')]
def shift(s, t):
    if Pact[s] <= -1000: return None
    n = Pact[s] + t
    if n < 0 or n >= YL: return None
    a = Act[n]
    return a if Chk[a] == t else None
def goto(s, A):
    g = Pgo[A]; j = g + s + 1
    if j >= YL: return Act[g]
    a = Act[j]
    return a if Chk[a] == -A else Act[g]
def exca(s):
    xi = 0
    while not (Exca[xi] == -1 and Exca[xi+1] == s): xi += 2
    r = []; xi += 2
    while True:
        r.append((Exca[xi], Exca[xi+1]))
        if Exca[xi] < 0: return r
        xi += 2
def reduces(s):
    return exca(s) if Def[s] == -2 else [(None, Def[s])]
R = [(code(l) if l != '$accept' else 100, [code(x) for x in r]) for l, r in prods]
byl = {}
for i, (l, r) in enumerate(R): byl.setdefault(l, []).append(i)
def closure(items):
    S = set(items); st = list(items)
    while st:
        p, d = st.pop(); rhs = R[p][1]
        if d < len(rhs) and rhs[d] > 100:
            for q in byl[rhs[d]]:
                if (q, 0) not in S: S.add((q, 0)); st.append((q, 0))
    return frozenset(S)
items = {0: closure([(0, 0)])}
trans = {}
work = [0]
while work:
    s = work.pop()
    syms = {}
    for p, d in items[s]:
        rhs = R[p][1]
        if d < len(rhs): syms.setdefault(rhs[d], []).append((p, d + 1))
    for X, kk in syms.items():
        if X == 1: continue
        if X < 100:
            t = shift(s, X)
            if t is None: continue  # removed by a precedence declaration
        else: t = goto(s, X - 100)
        c = closure(kk)
        if t in items: assert items[t] == c
        else:
            items[t] = c; work.append(t)
        trans[s, X] = t
assert len(items) == NS
acc = {0: 0}
for (s, X), t in trans.items():
    assert acc.setdefault(t, X) == X
kern = {s: sorted((p, d) for p, d in items[s] if d > 0) for s in range(NS)}
exps = {s: sorted({R[p][1][d] for p, d in items[s] if d < len(R[p][1]) and R[p][1][d] > 100}) for s in range(NS)}
# potential
tri = []
for b in range(NS):
    for p, (l, rhs) in enumerate(R):
        if p == 0 or (p, 0) not in items[b]: continue
        t = b; ok = True
        for X in rhs:
            if (t, X) not in trans: ok = False; break
            t = trans[t, X]
        if ok and any(q == p for c, q in reduces(t)): tri.append((t, b, p, trans[b, l], len(rhs)))
h = [0] * NS
for it in range(NS + 5):
    ch = False
    for t, b, p, gt, kk in tri:
        need = h[gt] + 1 - 2 * (kk - 1)
        if h[t] < need: h[t] = need; ch = True
    if not ch: break
assert not ch
