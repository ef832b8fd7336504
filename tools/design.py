"""Writes DESIGN.md: tools/design_head.md, the refuted claims (from the comments of the theorems) and the axioms of each theorem.

Needs a finished build in lean/.
"""
import glob, json, re, subprocess

claims = json.load(open("/verif/MANIFEST.json"))["claims"]
titles = {j["id"]: j["title"] for j in map(json.loads, open("/verif/properties.jsonl"))}
doc, where = {}, {}
for f in sorted(glob.glob("/verif/lean/Verif/**/*Props.lean", recursive=True)):
    s = open(f).read()
    for m in re.finditer(r"(?:/--((?:(?!-/).)*)-/\s*)?theorem (C\d+_\w+)", s, re.S):
        doc[m.group(2)] = " ".join((m.group(1) or "").split())
        where[m.group(2)] = f[len("/verif/lean/"):]

out = [open("/verif/tools/design_head.md").read().rstrip("\n"), "", "## Refuted claims", "",
       "Each of these theorems proves that the property, as stated, fails for a concrete case.", ""]
for c in claims:
    bad = [t for t in c["theorems"] if t.endswith("_refuted")]
    if bad:
        out.append(f"* **{c['property']}, {titles[c['property']]}.**")
        for t in bad:
            n = t.split(".")[-1]
            out.append(f"  * `{n}`: " + re.sub(r"^C\d+[:.] ", "", doc[n]))
out += ["", "## Theorems and their axioms", "",
        "`p` stands for `propext`, `c` for `Classical.choice`, `q` for `Quot.sound`, `-` for no axiom.", ""]
names = [t for c in claims for t in c["theorems"]]
src = "import Verif\n" + "".join(f"#print axioms {n}\n" for n in names)
open("/tmp/axioms.lean", "w").write(src)
r = subprocess.run(["lake", "env", "lean", "/tmp/axioms.lean"], cwd="/verif/lean", capture_output=True, text=True)
ax = {}
for m in re.finditer(r"'(\S+)' (?:depends on axioms: \[([^\]]*)\]|does not depend on any axioms)", r.stdout):
    ax[m.group(1)] = [a.strip() for a in (m.group(2) or "").split(",") if a.strip()]
short = {"propext": "p", "Classical.choice": "c", "Quot.sound": "q"}
for c in claims:
    out.append(f"* {c['property']} ({c['status']}): " + ", ".join(
        f"`{t}` [{' '.join(sorted(short[a] for a in ax[t])) or '-'}]" for t in c["theorems"]) + ".")
open("/verif/DESIGN.md", "w").write("\n".join(out) + "\n")
print(len(names), "theorems;", sum(1 for n in names if not doc.get(n.split('.')[-1])), "without comment")
for n in names:
    if not doc.get(n.split(".")[-1]):
        print("no comment:", n)
