"""register.py Module... : add imports of new modules to lean/Verif.lean, sorted."""
import sys
p='/verif/lean/Verif.lean'
L=[l for l in open(p).read().split('\n') if l]
for m in sys.argv[1:]:
    l="import Verif."+m
    if l not in L: L.append(l)
imps=sorted(l for l in L if l.startswith("import ")); rest=[l for l in L if not l.startswith("import ")]
open(p,'w').write('\n'.join(imps+rest)+'\n')
