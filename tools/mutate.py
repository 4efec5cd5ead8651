#!/usr/bin/env python3
"""Mutation tests of the theorems.

    mutate.py [--list] [name ...]

Each mutation (see mutations.py) edits the model in a scratch copy of /verif/lean as a realistic bug would
edit the program, evaluates a probe on the original and on the edited model, rebuilds the named targets and
appends a JSON line to /verif/seeded/LOG.jsonl.  `failed` are the declarations with an error, `claims_failed`
the C-theorems that are such declarations or rest on one (dependencies from deps.txt, written by deps.lean.txt).
"""
import json, os, re, shutil, signal, subprocess, sys, time

SCRATCH = os.environ.get('MUT_DIR', '/tmp/mut')
SRC = os.environ.get('MUT_SRC', '/verif/lean')
LOG = '/verif/seeded/LOG.jsonl'
GRACE = int(os.environ.get('MUT_GRACE', '120'))
ROUNDS = 8
LIMIT = int(os.environ.get('MUT_LIMIT', '1500'))

PROBE = '''import Verif.Parser
import Verif.StdLetters
import Verif.Print
import Verif.Walk
import Verif.JsonText
import Verif.Memory
import Verif.SharedMemory
import Verif.ByteParser
import Verif.ErrorText
import Verif.Work
import Verif.ErrorWork
import Verif.Calls
open Verif Lexer
attribute [local instance] stdLetters
def tokens (s : String) (n : Nat := 12) : List String := Id.run do
  let mut t := startTok s.toList
  let mut out := []
  for _ in List.range n do
    let (t', r) := lexNext t
    t := t'
    out := out ++ [match r with
      | .error e => s!"error {reprStr e}"
      | .ok none => "eof"
      | .ok (some k) => s!"{k} {String.ofList t.literal} {reprStr t.value}"]
    if r matches .ok none then break
  return out
def parsed (s : String) : String := reprStr (parseStd s)
def shape (s : String) : String := match parseStd s with
  | none => "no result"
  | some (m, none) => String.ofList (printModule ⟨4, false⟩ m.globals m)
  | some (_, some e) => "error " ++ reprStr e
def printed (s : String) (cf : PrintConf := ⟨4, false⟩) : String := match parseStd s with
  | some (m, none) => String.ofList (printModule cf m.globals m)
  | _ => "not accepted"
def errorText (s : String) : String := match parseStd s with
  | some (_, some e) => match ErrorText.errText (fun c => decide (0x20 ≤ c.toNat ∧ c.toNat < 0x7f ∨ 0x400 ≤ c.toNat ∧ c.toNat < 0x500)) e with
    | some t => String.ofList t
    | none => "unknown text"
  | _ => "no error"
def json (s : String) : String := match parseStd s with
  | some (m, none) => String.ofList (jsonText m)
  | _ => "not accepted"
'''


def sh(cmd, cwd, timeout=None):
    p = subprocess.run(cmd, cwd=cwd, shell=True, stdout=subprocess.PIPE, stderr=subprocess.STDOUT,
                       text=True, timeout=timeout)
    return p.returncode, p.stdout


def load_deps():
    deps = {}
    for line in open(f'{SCRATCH}/deps.txt'):
        parts = line.rstrip('\n').split('\t')
        deps[parts[0]] = set(parts[1:])
    return deps


def decl_at(path, line):
    src = open(path).read().split('\n')
    for i in range(min(line, len(src)) - 1, -1, -1):
        m = re.match(r'\s*(?:@\[[^\]]*\]\s*)*(?:private |protected |noncomputable |omit .* in )*'
                     r'(theorem|lemma|def|example|instance|inductive|structure|run_cmd)\b\s*([^\s:({\[]*)', src[i])
        if m:
            return m.group(1), m.group(2) or f'example@{i + 1}'
    return '?', '?'


def build(cwd, targets):
    """lake build; stop GRACE seconds after the first failing module"""
    log = f'{SCRATCH}/build.out'
    with open(log, 'w') as f:
        p = subprocess.Popen(['nice', 'lake', 'build', *targets], cwd=cwd, stdout=f,
                             stderr=subprocess.STDOUT, start_new_session=True)
    t0, first = time.time(), None
    while p.poll() is None:
        time.sleep(1)
        now = time.time()
        if first is None and re.search(r'^error: ', open(log).read(), re.M):
            first = now
        if (first and now - first > GRACE) or now - t0 > LIMIT:
            os.killpg(p.pid, signal.SIGTERM)
            p.wait()
            break
    return p.returncode, open(log).read(), time.time() - t0


def cut(path, line):
    """replace the proof of the declaration around `line` by sorry"""
    src = open(path).read().split('\n')
    head = re.compile(r'\s*(?:@\[[^\]]*\]\s*)*(?:private |protected |noncomputable |omit .* in )*'
                      r'(theorem|lemma|def|example|instance)\b')
    i = min(line, len(src)) - 1
    while i >= 0 and not head.match(src[i]):
        i -= 1
    if i < 0:
        return False
    j = i + 1
    stop = re.compile(r'(?:@\[|/--|/-!|theorem|lemma|def|example|instance|end\b|namespace|section|mutual|private|'
                      r'variable|open|set_option|omit|attribute|macro|inductive|structure|abbrev)')
    while j < len(src) and not stop.match(src[j]):
        j += 1
    text, depth, k = '\n'.join(src[i:j]), 0, 0
    while k < len(text):
        c = text[k]
        if c in '([{⟨':
            depth += 1
        elif c in ')]}⟩':
            depth -= 1
        elif depth == 0 and (text.startswith(':=', k) or re.match(r'\n\s*\| ', text[k:])):
            break
        k += 1
    src[i:j] = (text[:k].rstrip() + ' := sorry\n').split('\n')
    open(path, 'w').write('\n'.join(src))
    return True


def probe(cwd, text):
    if not text:
        return ''
    path = f'{cwd}/Probe.lean'
    open(path, 'w').write(PROBE + text + '\n')
    rc, out = sh('lake env lean Probe.lean', cwd, 600)
    os.remove(path)
    return out.strip()


def run(m, deps):
    cwd = f'{SCRATCH}/lean'
    sh(f'rm -rf {cwd} && cp -a {SRC} {cwd}', '/')
    path = f'{cwd}/Verif/{m["file"]}'
    src = open(path).read()
    for old, new in m['edits']:
        assert src.count(old) == 1, (m['name'], old, src.count(old))
    before = probe(cwd, m.get('probe'))
    for old, new in m['edits']:
        src = src.replace(old, new)
    open(path, 'w').write(src)
    rc, out = sh('nice lake build Verif.Parser Verif.StdLetters Verif.Print Verif.Walk Verif.Json Verif.ByteLexer Verif.Concurrent Verif.Memory Verif.ByteParser Verif.JsonText Verif.SharedMemory Verif.ErrorText Verif.Work Verif.ErrorWork Verif.Calls', cwd, 900)
    if rc:
        print(out[-2000:])
        raise SystemExit(f'{m["name"]}: the edited model does not compile')
    after = probe(cwd, m.get('probe'))
    failed, claims, secs = [], [], 0
    for rnd in range(ROUNDS):
        rc, out, t = build(cwd, m.get('targets', ['Verif']))
        secs += t
        open(f'{SCRATCH}/{m["name"]}.out', 'a' if rnd else 'w').write(out)
        errs = {}
        for f, l in re.findall(r'^error: (Verif/[\w/]+\.lean):(\d+):\d+', out, re.M):
            kind, name = decl_at(f'{cwd}/{f}', int(l))
            errs.setdefault((f, kind, name), int(l))
        for f, kind, name in errs:
            mod = f[:-5].replace('/', '.')
            if (mod, kind, name) not in failed:
                failed.append((mod, kind, name))
        claims = []
        for c, ds in deps.items():
            for mod, kind, name in failed:
                if any(d == f'{mod} {name}' or d.startswith(f'{mod} ') and d.endswith(('.' + name, f'.{name}._f', f'.{name}._unary', f'.{name}._mutual')) for d in ds):
                    claims.append(c.replace('Verif.', '').replace('Props.', ''))
                    break
        ok = bool(failed) and any(c.split('.')[-1].startswith(tuple(m['claim'])) for c in claims)
        if ok or not errs:
            break
        # not caught yet: take the broken lemmas for granted and go on to what rests on other things
        for (f, kind, name), l in sorted(errs.items(), key=lambda e: -e[1]):
            cut(f'{cwd}/{f}', l)
    short = lambda s: s if len(s) < 700 else s[:700] + '…'
    rec = {'name': m['name'], 'definition': m['def'], 'file': 'lean/Verif/' + m['file'],
           'edit': [{'from': o, 'to': n} for o, n in m['edits']], 'bug': m['bug'], 'claim': m['claim'],
           'probe': m.get('probe', ''), 'before': short(before), 'after': short(after),
           'failed': [f'{mod}: {name}' for mod, kind, name in failed],
           'claims_failed': sorted(set(claims)), 'tightened': m.get('tightened', [])}
    if m.get('note'):
        rec['note'] = m['note']
    rec['verdict'] = 'caught' if ok else ('failed elsewhere' if failed else 'survived')
    print(m['name'], rec['verdict'], f'{secs:.0f}s', 'probe', 'SAME' if before == after and before else 'differs')
    print('  failed', rec['failed'][:8])
    print('  claims', rec['claims_failed'])
    if m.get('probe'):
        print('  before', before[:300].replace('\n', ' | '))
        print('  after ', after[:300].replace('\n', ' | '))
    sys.stdout.flush()
    return rec


def main():
    sys.path.insert(0, os.path.dirname(__file__))
    from mutations import MUTATIONS
    names = [m['name'] for m in MUTATIONS]
    assert len(set(names)) == len(names)
    if '--list' in sys.argv:
        print('\n'.join(names))
        return
    done = {json.loads(l)['name'] for l in open(LOG)} if os.path.exists(LOG) else set()
    want = sys.argv[1:] or [n for n in names if n not in done]
    deps = load_deps()
    for m in MUTATIONS:
        if m['name'] in want:
            try:
                rec = run(m, deps)
            except (SystemExit, AssertionError) as e:
                print('ERROR', e)
                continue
            open(LOG, 'a').write(json.dumps(rec, ensure_ascii=False) + '\n')


main()
