"""Write AXIOMS.txt: the axioms every theorem named in MANIFEST.json depends on, as reported by `#print axioms`.
Run after `lake build` in lean/."""
import collections, json, os, re, subprocess
root = os.path.dirname(os.path.dirname(os.path.abspath(__file__)))
names = [t for c in json.load(open(root + '/MANIFEST.json'))['claims'] for t in c['theorems']]
names = list(dict.fromkeys(names))
src = 'import Verif\n' + ''.join(f'#print axioms {n}\n' for n in names)
p = '/tmp/axioms_check.lean'
open(p, 'w').write(src)
out = subprocess.run(['lake', 'env', 'lean', p], cwd=root + '/lean', capture_output=True, text=True).stdout
out = re.sub(r'\n\s+', ' ', out)
got = {}
for l in out.splitlines():
    m = re.match(r"'(\S+)' depends on axioms: \[(.*)\]", l)
    if m: got[m.group(1)] = tuple(sorted(a.strip() for a in m.group(2).split(',')))
    m = re.match(r"'(\S+)' does not depend on any axioms", l)
    if m: got[m.group(1)] = ()
missing = [n for n in names if n not in got]
assert not missing, missing
with open(root + '/AXIOMS.txt', 'w') as f:
    for ax, k in sorted(collections.Counter(got.values()).items()):
        f.write(f'# {k} theorems: {", ".join(ax) or "no axioms"}\n')
    for n in names: f.write(f'{n}: {", ".join(got[n]) or "none"}\n')
bad = {n: a for n, a in got.items() if set(a) - {'propext', 'Classical.choice', 'Quot.sound'}}
print(len(names), 'theorems,', 'unexpected axioms: %s' % bad if bad else 'standard axioms only')
