"""Append the results of tools/mutate.py to seeded/LOG.jsonl: log_mutants.py OUT.jsonl [TIGHTENED.json]
TIGHTENED maps an edit to the theorems tightened because of it. Edits that do not elaborate are no tests of the theorems and are left out."""
import json, sys
T = json.load(open(sys.argv[2])) if len(sys.argv) > 2 else {}
n = 0
with open("/verif/seeded/LOG.jsonl", "a") as f:
    for l in open(sys.argv[1]):
        d = json.loads(l)
        stop = d["stop"] or ""
        if stop.startswith("definition"):
            print("does not elaborate:", d["definition"], "|", d["edit"])
            continue
        names = [x.split(".")[-1] for x in d["failed"]]
        names += [b for b in (x.split(".")[-1] for x in d["broken"] or []) if b.startswith("C") and "_" in b and b not in names]
        e = {"definition": d["definition"], "edit": d["edit"], "claim": d["claim"], "failed": list(dict.fromkeys(names)), "tightened": T.get(d["edit"], [])}
        proper = [x for x in names if not x.endswith("_refuted")]
        if stop:
            e["note"] = "the build was not finished (" + ("a prover process was killed for memory" if "137" in stop or "killed" in stop else stop) + ")"
            e["note"] += ", so other theorems may fail too" if proper else "; no property theorem is known to fail: inconclusive"
        elif not proper and not e["tightened"]:
            e["note"] = "only a refutation fails; no property theorem does" if names else "survived"
        if "note" in e:
            print(d["definition"], "|", d["edit"], "|", e["note"])
        f.write(json.dumps(e, ensure_ascii=False) + "\n")
        n += 1
print(n)
