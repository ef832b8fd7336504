"""Append the results of tools/sweep.py to seeded/LOG.jsonl: log_sweep.py SWEEP.jsonl BASE TIGHTENED.json
TIGHTENED maps "File:line" of a survivor to {"claim": ..., "tightened": [...]}."""
import json, re, sys
src, base, tight = sys.argv[1], sys.argv[2], json.load(open(sys.argv[3]))
DECL = re.compile(r"^(?:@\[[^\]]*\]\s*)?(?:private |protected |noncomputable )*(theorem|def|abbrev|structure|inductive|instance|example)\b\s*([^\s:({\[]*)")

def decl(path, line):
    name = None
    for i, l in enumerate(open(path), 1):
        if i > line: break
        m = DECL.match(l)
        if m: name = m.group(2) or f"{m.group(1)}:{i}"
    return name

out = []
for l in open(src):
    d = json.loads(l)
    if d["result"] == "invalid": continue
    mod = d["file"].replace("/", ".")
    where = decl(base + "/Verif/" + d["file"] + ".lean", d["line"])
    e = {"definition": mod + ": " + str(where),
         "edit": "line %d: `%s` -> `%s`" % (d["line"], d["old"].strip(), d["new"].strip())}
    if d["result"] == "killed":
        f, n = d["first"].rsplit(":", 1)
        e.update(claim="found by a mechanical edit; the first proof that fails is given", failed=[f.replace("Verif/", "").replace(".lean", "") + "." + str(decl(base + "/" + f, int(n)))], tightened=[])
    else:
        t = tight.get(f"{d['file']}:{d['line']}", tight.get(d["file"], {}))
        e.update(claim=t.get("claim", "none"), failed=[], tightened=t.get("tightened", []))
    out.append(e)
with open("/verif/seeded/LOG.jsonl", "a") as f:
    for e in out: f.write(json.dumps(e, ensure_ascii=False) + "\n")
print(len(out))
