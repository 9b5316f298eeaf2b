"""Fills the counts of DESIGN.md sections 5 and 6 from seeded/LOG.jsonl and tools/axioms.py."""
import collections, json, re, subprocess, sys
last, first = {}, {}
for l in open('seeded/LOG.jsonl'):
    o = json.loads(l)
    last[o['id']] = o
    first.setdefault(o['id'], o)
c = collections.Counter(o.get('verdict') for o in last.values())
surv = sum(1 for o in first.values() if o.get('verdict') == 'SURVIVED')
text = (f"State after {len(last)} edits (last run of each): {c['refuted']} `refuted`, {c['killed']} `killed`, {c['killed-by-lemma']} `killed-by-lemma`, "
        f"{c['equivalent']} `equivalent`, {c['invalid']} `invalid`, {c['SURVIVED'] + c['open']} open.\n{surv} edits survived their first run.\n")
out = subprocess.run([sys.executable, 'tools/axioms.py'], capture_output=True, text=True).stdout
rows, n = [], 0
for ax, k, names in re.findall(r'^\[([^\]]*)\]: (\d+)(?:\n\[(C\d[^\]]*)\])?', out, re.M):
    k = int(k); n += k
    a = ', '.join(f'`{x.strip()}`' for x in sorted(ax.split(','), key=lambda x: x.strip().lower())) if ax.strip() else 'none'
    key = lambda t: (int(re.match(r'C(\d+)', t).group(1)), t)
    rows.append(f'| {a} | ' + (f'{k}: ' + ', '.join(sorted((x.strip() for x in names.split(',')), key=key)) if k < 60 else f'{k}: all not named below') + ' |')
p = 'DESIGN.md'
s = open(p).read()
s = re.sub(r'@@STATE@@\n|State after .*?first run\.\n', lambda m: text, s, flags=re.S)
s = re.sub(r'over the (@@N@@|\d+) theorems of', f'over the {n} theorems of', s)
s = re.sub(r'@@AX@@|\| axioms \| theorems \|\n\|---\|---\|\n(\|.*\n)*(\|.*)', lambda m: '| axioms | theorems |\n|---|---|\n' + '\n'.join(rows), s)
open(p, 'w').write(s)
