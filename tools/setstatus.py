#!/usr/bin/env python3
"""setstatus.py Cnn status note: updates tools/status.json and regenerates the manifest."""
import json, pathlib, sys, subprocess
root = pathlib.Path(__file__).resolve().parent.parent
p = root / "tools" / "status.json"
d = json.loads(p.read_text())
d[sys.argv[1]] = {"status": sys.argv[2], "note": sys.argv[3]}
p.write_text(json.dumps(dict(sorted(d.items())), indent=1) + "\n")
subprocess.run([sys.executable, str(root / "tools" / "gen_manifest.py")], check=True)
