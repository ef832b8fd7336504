"""Sweeps over the model with small mechanical edits and looks for those that no proof notices.

Usage: sweep.py OUT.jsonl SEED COUNT [FILE...]
Each edit is applied to a scratch copy, which is rebuilt until the first error. An edit after which everything still builds
is a survivor: either it does not change the meaning, or the theorems do not cover that part of the model.
"""
import json, os, random, re, signal, subprocess, sys

BASE = os.environ.get("MUTBASE", "/tmp/sweepbase")
DST = os.environ.get("MUTDST", "/tmp/am/lean")
FILES = ["Py/Str", "Py/Utf8", "Wire/Codec", "Wire/Packet", "Remote/Handle", "Client/Prog", "Client/Connector", "Client/Lifecycle",
         "Script/Settings", "Script/Op", "Ops/Utils", "Ops/Files", "Ops/System", "Inventory/Rank", "Inventory/Decl", "Inventory/Load",
         "Inventory/Url", "Inventory/Wrapper", "Inventory/Loader", "Run/Script", "Run/Params", "Run/Main", "Run/Logger"]
RULES = [(r" = ", " ≠ "), (r" ≠ ", " = "), (r" < ", " ≤ "), (r" ≤ ", " < "), (r" > ", " ≥ "), (r" ≥ ", " > "), (r" && ", " || "), (r" \|\| ", " && "),
         (r" ∧ ", " ∨ "), (r" ∨ ", " ∧ "), (r"\btrue\b", "false"), (r"\bfalse\b", "true"), (r"(?<![\w!p])!(?=[\w(])", ""), (r" \+ 1\b", ""), (r" - 1\b", ""),
         (r"\bif (?!let|h)(.*?) then", r"if ¬ (\1) then"), (r"\bnone\b", "(some default)"), (r"(?<=[ (])(\d+)\b", lambda m: str(int(m.group(1)) + 1)),
         (r'p!"([^"]+)"', r'p!"\1x"'), (r"\.isSome\b", ".isNone"), (r"\.isNone\b", ".isSome"), (r"\.any\b", ".all"), (r"\.all\b", ".any"),
         (r" \+\+ \[[^\]]*\]", ""), (r"\bowner\b", "group"), (r"\bmode\b", "owner"), (r"\.reverse\b", "")]

def sites(name):
    """(line number, old line, new line) for the code of definitions."""
    lines = open(f"{BASE}/Verif/{name}.lean").read().split("\n")
    res, indef, doc = [], False, False
    for i, l in enumerate(lines):
        if l.startswith("/-"):
            doc = True
        if doc:
            if "-/" in l:
                doc = False
            continue
        if re.match(r"(@\[.*\] )?(def|abbrev)\b", l):
            indef = True
        elif l and not l[0].isspace():
            indef = False
        if l.strip().startswith(("--", "/--")) or not indef:
            continue
        code = l
        start = code.find(":=") + 2 if re.match(r"(@\[.*\] )?(def|abbrev)\b", l) else 0
        if start == 1:
            continue
        if re.search(r"Error p!|Error \(p!|failure|Op.raise|throw", code):
            rules = [r for r in RULES if "p!" not in r[0]]
        else:
            rules = RULES
        for pat, rep in rules:
            for m in re.finditer(pat, code):
                if m.start() < start:
                    continue
                new = code[:m.start()] + (rep(m) if callable(rep) else m.expand(rep)) + code[m.end():]
                if new != code:
                    res.append((i, l, new))
    # a statement of a do block that is left out
        if start == 0 and re.match(r"\s+(?!let|if|else|match|\||return|pure|fun|do|where)[\w.]+ .*", l) and "←" not in l and "=>" not in l and ":=" not in l:
            res.append((i, l, ""))
    return res

def run(name, i, new):
    subprocess.run(["rm", "-rf", DST], check=True)
    subprocess.run(["cp", "-a", BASE, DST], check=True)
    p = f"{DST}/Verif/{name}.lean"
    lines = open(p).read().split("\n")
    lines[i] = new
    open(p, "w").write("\n".join(lines))
    pr = subprocess.Popen(["nice", "-n", "19", "lake", "build"], cwd=DST, stdout=subprocess.PIPE, stderr=subprocess.STDOUT, text=True, start_new_session=True)
    first = None
    for l in pr.stdout:
        e = re.match(r"error: (Verif/\S+\.lean):(\d+):", l)
        if e:
            first = e.group(1) + ":" + e.group(2)
            os.killpg(pr.pid, signal.SIGKILL)
            break
    pr.wait()
    if first is None and pr.returncode != 0:
        return "failed to build"
    return first

if __name__ == "__main__":
    out, seed, count = sys.argv[1], int(sys.argv[2]), int(sys.argv[3])
    files = sys.argv[4:] or FILES
    rnd = random.Random(seed)
    todo = [(f, *s) for f in files for s in sites(f)]
    rnd.shuffle(todo)
    done = set()
    if os.path.exists(out):
        done = {(r["file"], r["line"], r["new"]) for r in map(json.loads, open(out))}
    print(len(todo), "sites", flush=True)
    for f, i, old, new in todo[:count]:
        if (f, i + 1, new) in done:
            continue
        r = run(f, i, new)
        own = r is not None and r.startswith(f"Verif/{f}.lean")
        with open(out, "a") as h:
            h.write(json.dumps({"file": f, "line": i + 1, "old": old, "new": new, "result": "survived" if r is None else "invalid" if own else "killed", "first": r},
                               ensure_ascii=False) + "\n")
