"""Runs the mechanical edits that survived once more against the present theorems and logs them with what was tightened in between.
usage: again.py [Module ...]"""
import json, os, re, shutil, sys, time
root = os.path.dirname(os.path.dirname(os.path.abspath(__file__)))
sys.argv, mine = [sys.argv[0], '0', '1', '--count'], sys.argv[1:]
src = open(root + '/tools/automutate.py').read().replace("scratch = '/tmp/amut'", "scratch = '/tmp/again'")
src = src[:src.index("mods = sorted")]
exec(compile(src, 'automutate', 'exec'))
sys.path.insert(0, root + '/seeded')
from tightened import TIGHT, EQUIVALENT
last = {}
for j in map(json.loads, open(logf)):
    if j.get('edit', '').startswith('auto:'): last[j['file'], j['definition'], j['edit']] = j
for (file, name, edit), j in last.items():
    mod = file[6:-5]
    if j['verdict'] != 'SURVIVED' or (mine and mod not in mine): continue
    tight = TIGHT.get((mod, name), [])
    old, rep, line = re.match(r"auto: `(.*?)` -> `(.*?)` in `(.*)`$", edit, re.S).groups()
    eq = [v for k, v in EQUIVALENT.items() if k[0] == mod and k[1] == name and k[2] in edit]
    if not tight and not eq: print(mod, name, 'open', edit); continue
    if eq:
        j = dict(j, verdict='equivalent', run='again', note=eq[0]); print(mod, name, 'equivalent', flush=True)
        open(logf, 'a').write(json.dumps(j, ensure_ascii=False) + '\n'); continue
    path = os.path.join(V, mod + '.lean'); text = open(path).read()
    out = []
    for n, a, b in defs(text):
        if n != name: continue
        pos = a
        for l in text[a:b].splitlines(keepends=True):
            if l.strip()[:160] == line or l.strip() == line:
                for m in re.finditer(re.escape(old), l):
                    new = text[:pos] + l[:m.start()] + rep + l[m.end():] + text[pos + len(l):]
                    open(path, 'w').write(new)
                    failed, invalid = build()
                    open(path, 'w').write(text)
                    if not invalid: out.append(failed)
            pos += len(l)
    failed = out[0] if out and all(out) else []
    verdict = 'unknown' if not out else 'SURVIVED' if not failed else 'killed' if any(re.search(r'\.C\d+_', d) for d in failed) else 'killed-by-lemma'
    print(mod, name, verdict, edit, failed[:3], flush=True)
    if verdict == 'unknown': continue
    j = dict(j, verdict=verdict, failed=failed, tightened=tight, run='again')
    open(logf, 'a').write(json.dumps(j, ensure_ascii=False) + '\n')
