#!/usr/bin/env python3
"""mutate.py mutations.json [first]: seeds wrong programs into a scratch copy of the model.

Each entry: {"file", "definition", "old", "new", "claim", "n"?}. The edit replaces the n-th (default
only) occurrence of "old" in lean/Verif/Model/<file>.lean. The scratch copy is /tmp/mut; /verif is not
touched except for the line appended to seeded/LOG.jsonl."""
import json, pathlib, re, shutil, subprocess, sys
root = pathlib.Path("/verif")
scr = pathlib.Path("/tmp/mut")
log = root / "seeded" / "LOG.jsonl"

def refresh():
    """The scratch copy holds the committed files."""
    if not scr.exists():
        shutil.copytree(root / "lean", scr, symlinks=True)
    shutil.rmtree(scr / "Verif")
    tar = subprocess.run(["git", "-C", str(root), "archive", "HEAD:lean"], capture_output=True, check=True).stdout
    subprocess.run(["tar", "x", "-C", str(scr), "--exclude", "lakefile.toml"], input=tar, check=True)

def enclosing(path, line):
    ls = path.read_text().split("\n")[:line]
    for l in reversed(ls):
        m = re.match(r"\s*(?:private |protected |noncomputable |@\[.*?\] )*(theorem|lemma|def|instance|abbrev|inductive|structure) (\S+)", l)
        if m: return m.group(2)
        if l.startswith("example"): return "example"
    return "?"

def run(m):
    f = scr / "Verif" / "Model" / (m["file"] + ".lean")
    src = f.read_text()
    c = src.count(m["old"])
    n = m.get("n")
    if c == 0 or (n is None and c != 1):
        print("BAD EDIT", m["definition"], c); return None
    if n is None: new = src.replace(m["old"], m["new"])
    else:
        parts = src.split(m["old"])
        new = m["old"].join(parts[:n]) + m["new"] + m["old"].join(parts[n:])
    f.write_text(new)
    p = subprocess.run(["lake", "build"], cwd=scr, capture_output=True, text=True, timeout=7200)
    out = p.stdout + p.stderr
    failed = []
    for path, line in re.findall(r"error: (Verif/\S+\.lean):(\d+):\d+", out):
        name = enclosing(scr / path, int(line))
        mod = path[6:-5].replace("/", ".")
        s = f"{mod}: {name}"
        if s not in failed: failed.append(s)
    f.write_text(src)
    return failed

muts = json.loads(pathlib.Path(sys.argv[1]).read_text())
refresh()
for m in muts:
    r = run(m)
    if r is None: continue
    rec = {"definition": m["file"] + "." + m["definition"], "edit": f"{m['old']}  ->  {m['new']}" + (f" (occurrence {m['n']})" if m.get("n") else ""),
           "breaks": m["claim"], "failed": r, "tightened": []}
    only = r and all("example" in x for x in r)
    if any(x.startswith("Model.") for x in r): print("MODEL DOES NOT COMPILE", m["definition"], r); continue
    print(("ONLY-EX " if only else "KILLED  " if r else "SURVIVED"), m["definition"], "|", m["old"][:40], "->", m["new"][:40], "|", "; ".join(r)[:200], flush=True)
    with log.open("a") as fo: fo.write(json.dumps(rec, ensure_ascii=False) + "\n")
