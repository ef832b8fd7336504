#!/usr/bin/env python3
"""Writes MANIFEST.json: the theorems of a property are those whose names begin with its id in the *Props.lean files."""
import glob, json, os, re
root = os.path.dirname(os.path.dirname(os.path.abspath(__file__)))
notes = json.load(open(os.path.join(root, "tools", "notes.json")))
found = {}
for path in sorted(glob.glob(root + "/lean/Verif/**/*.lean", recursive=True)):
    if not path.endswith("Props.lean"):
        continue
    ns = []
    for line in open(path):
        m = re.match(r"namespace (\S+)", line)
        if m:
            ns.append(m.group(1))
        m = re.match(r"end (\S+)", line)
        if m and ns and ns[-1] == m.group(1):
            ns.pop()
        m = re.match(r"(?:protected )?theorem ((C\d+)_\S+)", line)
        if m:
            found.setdefault(m.group(2), []).append(".".join(ns + [m.group(1)]))
claims = []
for line in open(root + "/properties.jsonl"):
    pid = json.loads(line)["id"]
    if pid not in found:
        continue
    thms = found[pid]
    note = notes.get(pid, "")
    status = "partial" if any(t.endswith("_partial") or t.endswith("_refuted") for t in thms) else "proved"
    claims.append({"property": pid, "status": status, "theorems": thms, "note": note})
with open(root + "/MANIFEST.json", "w") as f:
    json.dump({"claims": claims}, f, indent=1, ensure_ascii=False)
    f.write("\n")
print(len(claims), "claims;", sum(len(c["theorems"]) for c in claims), "theorems")
