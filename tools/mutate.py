"""Applies one edit at a time to a scratch copy of the model, rebuilds it and reports which theorems no longer hold.

Usage: mutate.py MUTANTS.json OUT.jsonl [SCRATCH]
MUTANTS.json: list of {"file", "def", "old", "new", "edit", "claim"}; `file` is relative to lean/Verif.

A declaration that fails is replaced, in the scratch copy, by one whose proof is left open, and the build goes on. In the
end every property theorem whose proof depends on such a gap counts as failed. So an edit that breaks only a helper lemma is
reported together with the property theorems that rely on that lemma.
"""
import json, os, re, subprocess, sys

SRC = "/verif/lean"
BASE = os.environ.get("MUTBASE", "/tmp/mutbase")
muts, out = sys.argv[1], sys.argv[2]
DST = sys.argv[3] if len(sys.argv) > 3 else "/tmp/mut/lean"
DECL = re.compile(r"^(?:@\[[^\]]*\]\s*)?(?:private |protected |noncomputable )*(theorem|lemma|def|example|instance|structure|inductive|abbrev)\s*([^\s:({\[]*)")
TOP = re.compile(r"^(?:@\[|/--|/-!|theorem|lemma|def|example|instance|structure|inductive|abbrev|private|protected|noncomputable|end\b|section|namespace|open|variable|mutual|set_option|attribute|--)")

def span(lines, line):
    """First and last line (exclusive) of the declaration that contains a line."""
    start = None
    for i in range(line - 1, -1, -1):
        if DECL.match(lines[i]):
            start = i
            break
    if start is None:
        return None
    end = start + 1
    while end < len(lines) and not TOP.match(lines[end]):
        end += 1
    return start, end

def opened(text):
    """The declaration with its proof left open."""
    depth = 0
    first = None
    i = 0
    while i < len(text):
        c = text[i]
        if c in "([{⟨":
            depth += 1
        elif c in ")]}⟩":
            depth -= 1
        elif depth == 0 and text.startswith(":=", i):
            if first is None:
                first = i
            if re.match(r":=\s*by\s*(\n|$)", text[i:]) or text[i:].startswith(":= by"):
                return text[:i] + ":= sorry\n"
        elif depth == 0 and re.match(r"\n  \| ", text[i:]):
            return text[:i] + " := sorry\n"
        i += 1
    return None if first is None else text[:first] + ":= sorry\n"

def gaps(dst):
    """Builds, leaving failed proofs open, until the build goes through. Returns the failed declarations, or None."""
    failed = []
    for _ in range(60):
        r = subprocess.run(["nice", "-n", "19", "lake", "build"], cwd=dst, capture_output=True, text=True)
        if r.returncode == 0:
            return failed, None
        bad = {}
        for l in (r.stdout + r.stderr).splitlines():
            e = re.match(r"error: (Verif/\S+\.lean):(\d+):", l)
            if e:
                bad.setdefault(e.group(1), set()).add(int(e.group(2)))
        if "exited with code 137" in r.stdout + r.stderr:
            # killed, usually for want of memory: nothing is known about what was not built
            return failed, "inconclusive: a prover process was killed"
        if not bad:
            return failed, (r.stdout + r.stderr)[-500:]
        for f, where in bad.items():
            lines = open(f"{dst}/{f}").read().split("\n")
            todo = {}
            for n in where:
                s = span(lines, n)
                if s is None:
                    return failed, f"{f}:{n}"
                todo[s[0]] = s[1]
            for a in sorted(todo, reverse=True):
                d = DECL.match(lines[a])
                text = "\n".join(lines[a:todo[a]])
                name = f[6:-5] + "." + (d.group(2) or f"example:{a + 1}")
                if d.group(1) == "example":
                    # the docstring goes too
                    b = a
                    while b > 0 and lines[b - 1].strip() and not lines[b - 1].startswith(("theorem", "end", "example")):
                        b -= 1
                        if lines[b].startswith("/--"):
                            break
                    if not lines[b].startswith("/--"):
                        b = a
                    new, a0 = "", b
                elif d.group(1) in ("theorem", "lemma") and d.group(2).endswith("_refuted"):
                    # that a counterexample is gone says nothing about the other theorems: go on without it
                    new, a0 = f"theorem {d.group(2)} : True := trivial\n", a
                elif d.group(1) in ("theorem", "lemma"):
                    new, a0 = opened(text), a
                    if new is None or ("sorry" in text and name in failed):
                        return failed + [name], f"cannot open {name}"
                else:
                    return failed + [name], f"definition {name}"
                failed.append(name)
                lines[a0:todo[a]] = new.split("\n")
            open(f"{dst}/{f}", "w").write("\n".join(lines))
    return failed, "too many rounds"

def dependents(dst):
    """The property theorems that depend on a gap."""
    names = []
    for c in json.load(open("/verif/MANIFEST.json"))["claims"]:
        names += c["theorems"]
    p = f"{dst}/axioms_check.lean"
    with open(p, "w") as f:
        f.write("import Verif\n" + "".join(f"#print axioms {n}\n" for n in dict.fromkeys(names)))
    r = subprocess.run(["lake", "env", "lean", p], cwd=dst, capture_output=True, text=True)
    res = []
    for m in re.finditer(r"'([^']*(?:'[^' ]*)*)' depends on axioms: \[([^\]]*)\]", r.stdout):
        if "sorryAx" in m.group(2):
            res.append(m.group(1))
    return res

if __name__ == "__main__":
    if not os.path.isdir(BASE):
        subprocess.run(["cp", "-a", SRC, BASE], check=True)
    done = set()
    if os.path.exists(out):
        done = {(json.loads(l)["definition"], json.loads(l)["edit"]) for l in open(out)}
    ms = json.load(open(muts))
    for m in ms:
        s = open(f"{BASE}/Verif/{m['file']}").read()
        assert s.count(m["old"]) == 1, (m, s.count(m["old"]))
    for m in ms:
        if (m["def"], m["edit"]) in done:
            continue
        subprocess.run(["rm", "-rf", DST], check=True)
        subprocess.run(["cp", "-a", BASE, DST], check=True)
        p = f"{DST}/Verif/{m['file']}"
        s = open(p).read()
        open(p, "w").write(s.replace(m["old"], m["new"]))
        failed, stop = gaps(DST)
        deps = dependents(DST) if stop is None else []
        with open(out, "a") as f:
            f.write(json.dumps({"definition": m["def"], "edit": m["edit"], "claim": m["claim"], "file": m["file"], "old": m["old"], "new": m["new"],
                                "broken": failed, "stop": stop, "failed": deps}, ensure_ascii=False) + "\n")
        print(m["def"], "|", m["edit"], "|", m["claim"], "|", stop, "|", failed, "=>", deps if failed else "SURVIVED", flush=True)
