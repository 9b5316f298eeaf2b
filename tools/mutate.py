"""Seeded-bug runner.  Reads seeded/mutants.py (list of {id, def, file, old, new, edit, claim, expect}), applies each
edit to a scratch copy of lean/ under /tmp, rebuilds and reports which declarations fail.  Appends one line per new
mutant to seeded/LOG.jsonl.  `expect` lists the property ids whose theorems should break."""
import json, os, re, subprocess, sys, shutil
root = os.path.dirname(os.path.dirname(os.path.abspath(__file__)))
scratch = '/tmp/mut'
subprocess.run(['rsync', '-a', '--delete', root + '/lean/', scratch + '/'], check=False) if shutil.which('rsync') else (
    shutil.rmtree(scratch, ignore_errors=True), shutil.copytree(root + '/lean', scratch, symlinks=True))
sys.path.insert(0, root + '/seeded')
from mutants import MUTANTS as muts
logf = root + '/seeded/LOG.jsonl'
done = {json.loads(l)['id'] for l in open(logf)} if os.path.exists(logf) else set()
only = set(sys.argv[1:])
def decl_at(path, line):
    name, kind = '?', '?'
    for i, l in enumerate(open(path), 1):
        if i > line: break
        m = re.match(r'\s*(?:@\[[^\]]*\]\s*)?(?:noncomputable |private )*(theorem|def|lemma|instance|example|inductive|structure)\b\s*([\w.\'₂]*)', l)
        if m: name, kind = (m.group(2) if m.group(2) else m.group(1)), m.group(1)
    return name, kind
STATES = {}
for d, _, fs in os.walk(root + '/lean/Verif'):
    for f in fs:
        if f.endswith('.lean'):
            for c in set(re.findall(r'^theorem (C\d+)_', open(os.path.join(d, f)).read(), re.M)):
                STATES.setdefault(c, []).append(os.path.relpath(os.path.join(d, f), root + '/lean')[:-5].replace('/', '.'))
for m in muts:
    if m['id'] in done and m['id'] not in only: continue
    if only and m['id'] not in only: continue
    p = os.path.join(scratch, m['file'])
    src = open(p).read()
    if src.count(m['old']) < 1:
        print(m['id'], 'PATTERN NOT FOUND'); continue
    open(p, 'w').write(src.replace(m['old'], m['new'], 1))
    try:
        # first the modules that state the expected properties, everything only when these still build
        targets = sorted(mod for c in m['expect'] for mod in STATES.get(c, []))
        r = subprocess.run(['lake', 'build'] + targets, cwd=scratch, capture_output=True, text=True, timeout=1500)
        if targets and r.returncode == 0:
            r = subprocess.run(['lake', 'build'], cwd=scratch, capture_output=True, text=True, timeout=1500)
        out = r.stdout + r.stderr
    finally:
        pass
    failed, invalid = [], False
    for f, ln in re.findall(r'error: (Verif/[\w/]+\.lean):(\d+):', out):
        name, kind = decl_at(os.path.join(scratch, f), int(ln))
        invalid |= kind not in ('theorem', 'lemma', 'example')
        d = f.replace('/', '.')[:-5] + '.' + name
        d = re.sub(r'^Verif\.', '', d)
        if d not in failed: failed.append(d)
    notbuilt = re.findall(r'^- (Verif[\w.]*)$', out, re.M)
    open(p, 'w').write(src)
    modelbroken = any(d.startswith(m['file'][6:-5].replace('/', '.') + '.') for d in failed)
    hit = [c for c in m['expect'] if any(c + '_' in d for d in failed)]
    # an edit after which a definition does not compile tests nothing; a failure outside the expected theorems is
    # inconclusive for them (see DESIGN.md section 5)
    verdict = 'SURVIVED' if not failed else 'invalid' if invalid else ('killed' if hit else 'killed-by-lemma')
    print(m['id'], verdict, m['expect'], failed, '(MODEL FILE BROKEN)' if modelbroken else '')
    if '--dry' not in sys.argv:
        with open(logf, 'a') as fh:
            fh.write(json.dumps({'id': m['id'], 'definition': m['def'], 'file': m['file'], 'edit': m['edit'], 'claim': m['claim'],
                                 'failed': failed, 'verdict': verdict, 'not_built': notbuilt, 'tightened': m.get('tightened', []), 'run': 'again' if m['id'] in done else 'first'}, ensure_ascii=False) + '\n')
    sys.stdout.flush()
