"""Evaluate instances of the property theorems on wrong programs, in a scratch copy outside /verif.

usage: falsify.py SCRATCH_LEAN_DIR OUT.json

For every line of seeded/LOG.jsonl whose `failed` names no property theorem, apply the edit to the copy, build the model and
Verif.Tests.Instances, and record the theorems `Falsify.report` prints. The result is tools/refuted.json, which tools/mklog.py reads."""
import glob, json, os, re, subprocess, sys

scratch, out = sys.argv[1:3]
root = os.path.dirname(os.path.dirname(os.path.abspath(__file__)))
mods = ['Verif.Tests.Instances'] + ['Verif.Model.' + os.path.basename(p)[:-5] for p in glob.glob(root + '/lean/Verif/Model/*.lean')]
runner = os.path.join(scratch, 'report.lean')
open(runner, 'w').write('import Verif.Tests.Instances\n#eval Falsify.report\n')
res = {}
for l in open(root + '/seeded/LOG.jsonl'):
    d = json.loads(l)
    if any(re.match(r'C\d\d', t) for t in d['failed']): continue
    old, new = d['edit'].split(' -> ', 1)
    src = open(f"{root}/lean/{d['file']}").read()
    if old not in src: continue  # the model has changed since
    open(f"{scratch}/{d['file']}", 'w').write(src.replace(old, new, 1))
    if subprocess.run(['lake', 'build'] + mods, cwd=scratch, capture_output=True).returncode == 0:
        p = subprocess.run(['lake', 'env', 'lean', '--tstack=4000000', runner], cwd=scratch, capture_output=True, text=True)
        res[d['run']] = sorted(set(re.findall(r'FALSE (\S+)', p.stdout)))
    open(f"{scratch}/{d['file']}", 'w').write(src)
    json.dump(res, open(out, 'w'), indent=1)
