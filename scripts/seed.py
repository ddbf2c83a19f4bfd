"""Applies wrong edits to a scratch copy of the Lean project and records which theorems stop proving.

usage: seed.py edits.json [--dry]
edits.json: list of {"file", "def", "old", "new", "edit", "claim", "tightened": []}; "also": further [old, new] pairs of the same edit
The scratch copy is /tmp/scratch/lean, made from the last commit.  Auxiliary lemmas that fail are replaced by `sorry` in the scratch copy and
the build is repeated, so that the log also shows which property theorems fail for reasons of their own.
"""
import json, os, re, subprocess, sys

root = "/verif/lean"
scratch = "/tmp/scratch/lean"
START = re.compile(r"^(?:@\[[^\]]*\]\s*)?(?:private )?(?:theorem|lemma|def|example|instance|structure|inductive|abbrev|mutual|end|namespace|/--|/-!|open|set_option|section|variable)\b|^/-[-!]")

def decl_at(lines, line):
    """index range [a, b) of the declaration containing the (1-based) line, and its name"""
    a = line - 1
    while a > 0 and not re.match(r"(?:@\[[^\]]*\]\s*)?(?:private )?(?:theorem|lemma|def|example|instance|structure|inductive)\b", lines[a]):
        a -= 1
    b = a + 1
    while b < len(lines) and not START.match(lines[b]):
        b += 1
    m = re.match(r"(?:@\[[^\]]*\]\s*)?(?:private )?(theorem|lemma|def|example|instance)\s*(\S*)", lines[a])
    if not m:
        return a, b, "?", ""
    kind, name = m.group(1), m.group(2)
    if kind == "example":
        name = "example@%d" % (a + 1)
    return a, b, name, kind

def admit(text):
    i = text.find(":= by")
    m = re.search(r"\n  \| ", text)
    j = m.start() if m else -1
    k = text.find(":=\n")
    cands = [x for x in (i, j, k) if x >= 0]
    if not cands:
        k = text.rfind(":=")
        if k < 0:
            return None
        cands = [k]
    return text[:min(cands)] + " := by sorry\n\n"

os.makedirs("/tmp/scratch", exist_ok=True)
base = f"/tmp/scratch/base{os.getpid()}"
subprocess.run(f"mkdir -p {base} && git -C /verif archive HEAD lean | tar x -C {base} && cp -a {root}/.lake {base}/lean/", shell=True, check=True)
subprocess.run(["lake", "build"], cwd=base + "/lean", capture_output=True)
for e in json.load(open(sys.argv[1])):
    subprocess.run(f"rm -rf {scratch} && cp -a {base}/lean {scratch}", shell=True, check=True)
    p = f"{scratch}/Verif/{e['file']}"
    s = open(p).read()
    assert s.count(e["old"]) == e.get("count", 1), (e["def"], s.count(e["old"]))
    s = s.replace(e["old"], e["new"])
    for o, n in e.get("also", []):
        assert s.count(o) == 1, (e["def"], o, s.count(o))
        s = s.replace(o, n)
    open(p, "w").write(s)
    failed = []
    for rnd in range(8):
        r = subprocess.run(["lake", "build"], cwd=scratch, capture_output=True, text=True)
        byfile = {}
        for m in re.finditer(r"error: (?:\./)?(Verif/\S+\.lean):(\d+):", r.stdout + r.stderr):
            byfile.setdefault(m.group(1), set()).add(int(m.group(2)))
        if not byfile:
            break
        progress = False
        for f, errs in byfile.items():
            lines = open(f"{scratch}/{f}").read().split("\n")
            decls = {}
            for l in errs:
                a, b, name, kind = decl_at(lines, l)
                decls[a] = (b, name, kind)
            for a in sorted(decls, reverse=True):
                b, name, kind = decls[a]
                if name not in failed:
                    failed.append(name)
                if kind in ("theorem", "lemma", "example"):
                    t = admit("\n".join(lines[a:b]))
                    if t and "sorry" not in "\n".join(lines[a:b]):
                        lines[a:b] = t.split("\n")
                        progress = True
            open(f"{scratch}/{f}", "w").write("\n".join(lines))
        if not progress:
            break
    failed.sort(key=lambda n: (not re.match(r"C\d\d", n), n))
    out = {"definition": e["def"], "file": "lean/Verif/" + e["file"], "edit": e["edit"], "claim_broken": e["claim"],
           "theorems_failed": failed, "theorems_tightened": e.get("tightened", [])}
    print(json.dumps({k: out[k] for k in ("definition", "edit", "theorems_failed")}), flush=True)
    if "--dry" not in sys.argv:
        open("/verif/seeded/LOG.jsonl", "a").write(json.dumps(out) + "\n")
subprocess.run(f"rm -rf {base}", shell=True)
