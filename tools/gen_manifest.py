#!/usr/bin/env python3
"""Writes MANIFEST.json. Theorem names are collected from lean/Verif/Props by their Cnn_ prefix."""
import json, pathlib, re
root = pathlib.Path(__file__).resolve().parent.parent
props = [json.loads(l)["id"] for l in (root / "properties.jsonl").read_text().splitlines() if l.strip()]
status = json.loads((root / "tools" / "status.json").read_text())
thms = {}
for f in sorted((root / "lean/Verif/Props").rglob("*.lean")):
    ns = []
    for line in f.read_text().splitlines():
        m = re.match(r"namespace (\S+)", line)
        if m:
            ns.append(m[1])
        m = re.match(r"end (\S+)", line)
        if m and ns and ns[-1] == m[1]:
            ns.pop()
        m = re.match(r"theorem (C\d\d_\w+)", line)
        if m:
            thms.setdefault(m[1][:3], []).append(".".join(ns + [m[1]]))
claims = []
for p in props:
    s = status.get(p)
    t = thms.get(p, [])
    if s is None:
        if t:
            print("no status for", p)
        continue
    claims.append({"property": p, "status": s["status"], "theorems": t, "note": s["note"]})
(root / "MANIFEST.json").write_text(json.dumps({"claims": claims}, indent=1) + "\n")
mods = sorted(".".join(f.relative_to(root / "lean").with_suffix("").parts)
              for f in (root / "lean/Verif").rglob("*.lean"))
(root / "lean/Verif.lean").write_text("".join(f"import {m}\n" for m in mods))
audit = ["import Verif", ""] + [f"#print axioms {t}" for p in props for t in thms.get(p, [])]
pathlib.Path("/tmp/Audit.lean").write_text("\n".join(audit) + "\n")
