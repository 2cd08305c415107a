"""usage: setstatus.py Cnn status note -- record the status of a property, then run sync.py"""
import json, sys, os
p = os.path.join(os.path.dirname(__file__), 'status.json')
d = json.load(open(p))
a = sys.argv[1:]
for k in range(0, len(a), 3):
    d[a[k]] = [a[k+1], a[k+2]]
json.dump(d, open(p, 'w'), indent=1)
