"""Write MANIFEST.json: collect theorems Cnn_* from lean/Verif/Props and attach the notes below."""
import json, re, glob, os
root = os.path.dirname(os.path.dirname(os.path.abspath(__file__)))
thms = {}
for f in sorted(glob.glob(root + '/lean/Verif/Props/**/*.lean', recursive=True)):
    stack = []
    for line in open(f):
        m = re.match(r'(namespace|section|noncomputable section|end)\b\s*([\w.]*)', line)
        if m:
            if m.group(1) == 'namespace': stack.append(m.group(2))
            elif m.group(1) in ('section', 'noncomputable section'): stack.append('')
            elif stack: stack.pop()
        m = re.match(r'(?:@\[[^\]]*\]\s*)?theorem\s+(C\d\d+)_(\w+)', line)
        if m:
            name = '.'.join([s for s in stack if s] + [m.group(1) + '_' + m.group(2)])
            thms.setdefault(m.group(1), []).append(name)
NOTES = {}
exec(open(root + '/tools/notes.py').read())
claims = []
for l in open(root + '/properties.jsonl'):
    p = json.loads(l)['id']
    ts = thms.get(p, [])
    if not ts: continue
    partial = any(t.endswith('_partial') or t.endswith('_refuted') for t in ts)
    claims.append({'property': p, 'status': 'partial' if partial else 'proved', 'theorems': ts,
                   'note': NOTES.get(p, '')})
json.dump({'claims': claims}, open(root + '/MANIFEST.json', 'w'), indent=1)
miss = [json.loads(l)['id'] for l in open(root + '/properties.jsonl') if json.loads(l)['id'] not in thms]
print('claims', len(claims), 'missing', miss)
