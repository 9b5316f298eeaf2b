"""Mechanical wrong programs.  Every model definition (modules directly under lean/Verif, without lemma modules) is edited by small
syntactic operators (comparison, arithmetic, connective, constant, projection, dropped update, kind of exception); each edit is built in
a scratch copy until the first error.  An edit after which the definition itself does not compile is skipped.  Appends one line per
edit to seeded/LOG.jsonl with the first theorems that failed; the survivors are what matters.
usage: automutate.py [per-definition] [seed] [Module ...]"""
import json, os, random, re, shutil, signal, subprocess, sys, time
root = os.path.dirname(os.path.dirname(os.path.abspath(__file__)))
scratch = '/tmp/amut'
K = int(sys.argv[1]) if len(sys.argv) > 1 else 1
rng = random.Random(int(sys.argv[2]) if len(sys.argv) > 2 else 1)
only = sys.argv[3:]
logf = root + '/seeded/LOG.jsonl'
shutil.rmtree(scratch, ignore_errors=True); shutil.copytree(root + '/lean', scratch, symlinks=True)
V = scratch + '/Verif'
files = [f for f in sorted(os.listdir(V)) if f.endswith('.lean') and 'Lemmas' not in f and f not in ('HeapSteps.lean',)]
# number of modules depending on each module, to try the cheap ones first
imports = {}
for d, _, fs in os.walk(V):
    for f in fs:
        if f.endswith('.lean'):
            p = os.path.join(d, f); m = os.path.relpath(p, scratch)[:-5].replace('/', '.')
            imports[m] = re.findall(r'^import (Verif[\w.]*)', open(p).read(), re.M)
def dependents(m):
    seen, todo = set(), [m]
    while todo:
        x = todo.pop()
        for k, v in imports.items():
            if x in v and k not in seen: seen.add(k); todo.append(k)
    return len(seen)
OPS = [(r' ≤ ', ' < '), (r' < ', ' ≤ '), (r' \+ ', ' - '), (r' - ', ' + '), (r' \* ', ' + '), (r' && ', ' || '), (r' ∧ ', ' ∨ '), (r'\btrue\b', 'false'),
       (r'\bfalse\b', 'true'), (r'(?<![\w.^₀-₉])(\d+)(?![\w.])', lambda m: str(int(m.group(1)) + 1)), (r'\.x\b', '.y'), (r'\.y\b', '.z'), (r'\.z\b', '.x'),
       (r'\blo\b', 'hi'), (r'\bhi\b', 'lo'), (r' \+\+ \[[^\[\]]*\]', ''), (r'\.1\b', '.2'), (r'\.2\b', '.1'), (r'\bmax\b', 'min'), (r'\bmin\b', 'max'),
       (r'\bif ¬ ?', 'if '), (r'\bif (?!h ?:|¬)(.+?) then', r'if ¬ (\1) then'), (r'\{ (\w+) with [^{}]* \}', r'\1'), (r'(, |with )\w+ := [^,{}]*(?=[,}])', r'\1'),
       (r'\.error \.(value|type|index|attribute|assertion)\b', lambda m: '.error .' + {'value': 'type', 'type': 'value', 'index': 'value', 'attribute': 'type', 'assertion': 'value'}[m.group(1)]),
       (r'\bsome \w+ =>', None)]
OPS = [o for o in OPS if o[1] is not None]
def defs(src):
    """(name, start of body, end) of the definitions of a module"""
    out = []
    heads = [(m.start(), m) for m in re.finditer(r'^(?:@\[[^\]]*\]\s*)?(?:noncomputable |private )*(def|abbrev|theorem|lemma|instance|structure|inductive|example|end|namespace|section|open|variable|/-|mutual|noncomputable section)(?:(?<=-)|\b)[ \t]*([\w.\'₂]*)', src, re.M)]
    for i, (st, m) in enumerate(heads):
        if m.group(1) != 'def': continue
        en = heads[i + 1][0] if i + 1 < len(heads) else len(src)
        body = re.search(r':=|^\s*\| ', src[st:en], re.M)
        if body: out.append((m.group(2), st + body.start(), en))
    return out
def decl_at(path, line):
    name, kind = '?', '?'
    for i, l in enumerate(open(path), 1):
        if i > line: break
        m = re.match(r'\s*(?:@\[[^\]]*\]\s*)?(?:noncomputable |private )*(theorem|def|lemma|instance|example|inductive|structure)\b\s*([\w.\'₂]*)', l)
        if m: name, kind = (m.group(2) if m.group(2) else m.group(1)), m.group(1)
    return name, kind
def build():
    """builds until the first error; returns the failed declarations and whether a definition does not compile"""
    p = subprocess.Popen(['lake', 'build'], cwd=scratch, stdout=subprocess.PIPE, stderr=subprocess.STDOUT, text=True, start_new_session=True)
    failed, invalid, t = [], False, None
    for line in p.stdout:
        m = re.search(r'error: (Verif/[\w/]+\.lean):(\d+):', line)
        if m:
            name, kind = decl_at(os.path.join(scratch, m.group(1)), int(m.group(2)))
            invalid |= kind not in ('theorem', 'lemma', 'example')
            d = m.group(1)[6:-5].replace('/', '.') + '.' + name
            if d not in failed: failed.append(d)
            t = t or time.time()
        if t and (time.time() - t > 5 or len(failed) > 3): break
    try: os.killpg(p.pid, signal.SIGKILL)
    except ProcessLookupError: pass
    p.wait()
    return failed, invalid
mods = sorted(files, key=lambda f: dependents('Verif.' + f[:-5]))
if '--count' in only:
    for f in mods: print(f, len(defs(open(os.path.join(V, f)).read())), dependents('Verif.' + f[:-5]))
    sys.exit()
n = 0
seen = {(j.get('file'), j.get('edit')) for j in map(json.loads, open(logf))}
for f in mods:
    if only and f[:-5] not in only: continue
    path = os.path.join(V, f); src = open(path).read()
    for name, a, b in defs(src):
        body = src[a:b]
        cands = []
        for k, (pat, rep) in enumerate(OPS):
            for m in re.finditer(pat, body):
                new = body[:m.start()] + m.expand(rep) + body[m.end():] if isinstance(rep, str) else body[:m.start()] + rep(m) + body[m.end():]
                line = body[body.rfind('\n', 0, m.start()) + 1: (body.find('\n', m.end()) if body.find('\n', m.end()) >= 0 else len(body))].strip()
                cands.append((m.group(0).strip(), (m.expand(rep) if isinstance(rep, str) else rep(m)).strip(), line, new))
        rng.shuffle(cands)
        done = tries = 0
        for old, rep, line, new in cands:
            if done >= K or tries >= K + 5: break
            edit = f"auto: `{old}` -> `{rep}` in `{line[:160]}`"
            if ('Verif/' + f, edit) in seen: done += 1; continue
            tries += 1
            open(path, 'w').write(src[:a] + new + src[b:])
            t0 = time.time()
            failed, invalid = build()
            open(path, 'w').write(src)
            if invalid: continue
            done += 1; n += 1
            verdict = 'SURVIVED' if not failed else 'killed' if any(re.search(r'\.C\d+_', d) for d in failed) else 'killed-by-lemma'
            print(f[:-5], name, verdict, edit, failed[:3], round(time.time() - t0), flush=True)
            with open(logf, 'a') as fh:
                fh.write(json.dumps({'id': f'A{f[:-5]}.{name}.{abs(hash(edit)) % 10**6}', 'definition': name, 'file': 'Verif/' + f, 'edit': edit,
                    'claim': 'what the theorems say about ' + name, 'failed': failed, 'verdict': verdict, 'tightened': [], 'run': 'first',
                    'note': 'mechanical edit, built until the first error'}, ensure_ascii=False) + '\n')
print('done', n)
