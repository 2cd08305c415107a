"""Build seeded/LOG.jsonl from the result files of tools/mutate.py.

Each line: definition edited, edit, claim it breaks, theorems that failed, property theorems that could not be checked because a
module they import failed, theorems tightened or added afterwards. `stopped_early`: the build was cut short after a property theorem had failed, so `failed`
may be incomplete.
`refuted`: property theorems with an instance that Verif.Tests.Instances evaluates to false on the edited model (only run when `failed` names
no property theorem).
"""
import json, sys, os
root = os.path.dirname(os.path.dirname(os.path.abspath(__file__)))
tight = json.load(open(os.path.join(root, "tools", "tightened.json")))
ref = json.load(open(os.path.join(root, "tools", "refuted.json")))
notes = json.load(open(os.path.join(root, "tools", "mutant_notes.json")))
out = []
assert len(sys.argv) > 1, "give the result files"
for fn in sys.argv[1:]:
    run = os.path.basename(fn).split(".")[0]
    for i, l in enumerate(open(fn)):
        d = json.loads(l)
        out.append({
            "run": f"{run}#{i}", "definition": d["definition"], "file": d["file"], "edit": d["edit"], "claim": d["claim"],
            "failed": d["failed"], "not_rechecked": d["blocked"], "survived": d["survived"],
            **({"stopped_early": True} if d.get("stopped") else {}),
            **({"refuted": ref[f"{run}#{i}"]} if f"{run}#{i}" in ref else {}),
            "tightened": tight.get(f"{run}#{i}", []),
            **({"note": notes[f"{run}#{i}"]} if f"{run}#{i}" in notes else {}),
        })
open(os.path.join(root, "seeded", "LOG.jsonl"), "w").write("".join(json.dumps(x, ensure_ascii=False) + "\n" for x in out))
print(len(out), "attempts,", sum(x["survived"] for x in out), "survived")
