"""python3 tools/tighten.py DEFINITION "start of edit" theorem...: enter the theorems added for a surviving edit."""
import json, os, sys
f = os.path.join(os.path.dirname(os.path.abspath(__file__)), "..", "seeded", "LOG.jsonl")
ls = [json.loads(l) for l in open(f)]
n = 0
for x in ls:
    if x["definition"] == sys.argv[1] and x["edit"].startswith(sys.argv[2]) and not x["failed"]:
        x["tightened"] = sys.argv[3:]; n += 1
with open(f, "w") as o:
    for x in ls: o.write(json.dumps(x, ensure_ascii=False) + "\n")
print(n)
