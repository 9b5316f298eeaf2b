"""Refutations under seeded bugs.  For every entry of seeded/refutations.py the edit of the mutant is applied in a scratch
copy; the modules between the edited file and the named theorem are compiled with failing proofs left out (the failing
declarations then depend on sorryAx); finally `not (type of the theorem)` must be proved in the edited model without
sorryAx.  A success shows that the STATEMENT of the theorem is false of the wrong program.  Appends a line with verdict
`refuted` to seeded/LOG.jsonl.  Usage: refute.py [--dry] [id ...]"""
import json, os, re, subprocess, sys, shutil
from concurrent.futures import ThreadPoolExecutor
root = os.path.dirname(os.path.dirname(os.path.abspath(__file__)))
lean = root + '/lean'
work = '/tmp/tol'
sys.path.insert(0, root + '/seeded')
from mutants import MUTANTS
from refutations import REFUTATIONS
muts = {m['id']: m for m in MUTANTS}
logf = root + '/seeded/LOG.jsonl'
TOL = r'''
import Lean
open Lean Elab
unsafe def main (args : List String) : IO Unit := do
  let [file, modName, out] := args | throw (IO.userError "args")
  enableInitializersExecution
  initSearchPath (← findSysroot) (((← IO.getEnv "LEAN_PATH").getD "").splitOn ":" |>.map System.FilePath.mk)
  let input ← IO.FS.readFile file
  let ictx := Parser.mkInputContext input file
  let (header, ps, msgs) ← Parser.parseHeader ictx
  let opts : Options := {}
  let (env, msgs) ← processHeader header opts msgs ictx (mainModule := modName.toName)
  let st ← IO.processCommands ictx ps (Command.mkState env msgs opts)
  for m in st.commandState.messages.toList do
    if m.severity matches .error | .information then IO.println (← m.toString)
  if out != "-" then writeModule st.commandState.env out
'''
os.makedirs(work, exist_ok=True)
open(work + '/tol.lean', 'w').write(TOL.lstrip())
base = subprocess.run(['lake', 'env', 'printenv', 'LEAN_PATH'], cwd=lean, capture_output=True, text=True).stdout.strip().split(':')
over = work + '/lib'
# work on a snapshot of the sources and of the build, so that both may change meanwhile
snap = work + '/base'
shutil.rmtree(snap, ignore_errors=True)
shutil.copytree(lean + '/Verif', snap + '/Verif')
shutil.copytree(lean + '/.lake/build/lib/lean/Verif', snap + '/lib/Verif')
env = dict(os.environ, LEAN_PATH=':'.join([over] + [p for p in base if '/verif/' not in p and p]))
mods = {}
for d, _, fs in os.walk(snap + '/Verif'):
    for f in fs:
        if f.endswith('.lean'):
            p = os.path.join(d, f)
            mods[os.path.relpath(p, snap)[:-5].replace('/', '.')] = p
imports = {m: [i for i in re.findall(r'^import ([\w.]+)', open(p).read(), re.M) if i in mods] for m, p in mods.items()}
def up(m, seen):
    if m not in seen:
        seen.add(m)
        for i in imports[m]: up(i, seen)
    return seen
def module_of(thm):
    for m, p in mods.items():
        if re.search(r'^(?:@\[.*\]\s*)?theorem ' + re.escape(thm.split('.')[-1]) + r'\b', open(p).read(), re.M): return m
    raise KeyError(thm)
def compile_(mod, src):
    r = subprocess.run(['lean', '--run', work + '/tol.lean', src, mod, over + '/' + mod.replace('.', '/') + '.olean.new'],
                       env=env, capture_output=True, text=True, timeout=3000)
    dst = over + '/' + mod.replace('.', '/') + '.olean'
    if os.path.exists(dst + '.new'):
        if os.path.lexists(dst): os.remove(dst)
        os.rename(dst + '.new', dst)
    return r.stdout + r.stderr
dry = '--dry' in sys.argv
only = [a for a in sys.argv[1:] if not a.startswith('-')]
done = {json.loads(l)['id'] for l in open(logf) if '"verdict": "refuted"' in l}
todo = {}
for r in REFUTATIONS:
    if (only and r['id'] in only) or (not only and r['id'] not in done): todo.setdefault(r['id'], []).append(r)
for mid, rs in todo.items():
    m = muts[mid]
    shutil.rmtree(over, ignore_errors=True)
    for mod in mods:
        o = over + '/' + mod.replace('.', '/') + '.olean'
        os.makedirs(os.path.dirname(o), exist_ok=True)
        os.symlink(snap + '/lib/' + mod.replace('.', '/') + '.olean', o)
    edited = m['file'][:-5].replace('/', '.')
    src = open(snap + '/' + m['file']).read()
    if m['old'] not in src:
        print(mid, 'PATTERN NOT FOUND'); continue
    ef = work + '/edited.lean'
    open(ef, 'w').write(src.replace(m['old'], m['new'], 1))
    targets = {module_of(r['theorem']) for r in rs} | {i for r in rs for i in r['imports']}
    need = {x for t in targets for x in up(t, set()) if edited in up(x, set())}
    built, bad = set(), ''
    with ThreadPoolExecutor(3) as ex:
        while need - built:
            ready = [x for x in sorted(need - built) if not (set(imports[x]) & need) - built]
            for x, out in zip(ready, ex.map(lambda x: compile_(x, ef if x == edited else mods[x]), ready)):
                if x == edited: bad = '\n'.join(l for l in out.split('\n') if 'error' in l)
            built |= set(ready)
    for r in rs:
        rf = work + '/refutation.lean'
        with open(rf, 'w') as fh:
            fh.write(''.join('import ' + t + '\n' for t in sorted(targets)) + 'import Mathlib.Tactic.NormNum\nimport Mathlib.Tactic.Linarith\n'
                     + '\n'.join('open ' + n for n in r['opens']) + '\n' + r['prelude'] + '\n'
                     + 'theorem refutation : ¬ type_of% @' + r['theorem'] + ' := by\n' + '\n'.join('  ' + l for l in r['proof'].strip('\n').split('\n'))
                     + '\n#print axioms refutation\n')
        out = subprocess.run(['lean', '--run', work + '/tol.lean', rf, 'Refutation', '-'], env=env, capture_output=True, text=True, timeout=3000)
        out = out.stdout + out.stderr
        ok = "'refutation' depends on axioms" in out or "'refutation' does not depend" in out
        ok = ok and 'sorryAx' not in out and 'error' not in out and not bad
        print(mid, r['theorem'], 'REFUTED' if ok else 'FAILED\n' + bad + out[:6000])
        if ok and not dry:
            with open(logf, 'a') as fh:
                fh.write(json.dumps({'id': mid, 'definition': m['def'], 'file': m['file'], 'edit': m['edit'], 'claim': m['claim'],
                                     'failed': [r['theorem']], 'verdict': 'refuted', 'tightened': m.get('tightened', []), 'run': 'again'}, ensure_ascii=False) + '\n')
        sys.stdout.flush()
