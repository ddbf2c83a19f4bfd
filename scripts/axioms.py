"""Rewrites the section "Axioms per theorem" of DESIGN.md from `#print axioms` for every theorem in MANIFEST.json.

Needs the compiled library (lake build in lean/)."""
import json, os, re, subprocess, tempfile
root = os.path.dirname(os.path.dirname(os.path.abspath(__file__)))
thms = [t for c in json.load(open(root + "/MANIFEST.json"))["claims"] for t in c["theorems"]]
src = "import Verif\n" + "".join("#print axioms %s\n" % t for t in thms)
f = tempfile.NamedTemporaryFile("w", suffix=".lean", delete=False)
f.write(src)
f.close()
out = subprocess.run(["lake", "env", "lean", f.name], cwd=root + "/lean", capture_output=True, text=True).stdout
out = re.sub(r"\n\s+", " ", out)
groups = {}
for m in re.finditer(r"'(\S+)' (?:depends on axioms: \[(.*?)\]|does not depend on any axioms)", out):
    ax = ", ".join(sorted(a.strip() for a in m.group(2).split(","))) if m.group(2) else "none"
    groups.setdefault(ax, []).append(m.group(1).replace("Metalift.", ""))
assert sum(map(len, groups.values())) == len(thms), (len(thms), out[-2000:])
text = "".join("**%s**: %s.\n\n" % (k, ", ".join("`%s`" % t for t in sorted(v))) for k, v in sorted(groups.items()))
d = open(root + "/DESIGN.md").read()
head = d[: d.index("## Axioms per theorem")]
if "## Axioms per theorem\n" in d:
    head = d[: d.rindex("## Axioms per theorem\n")]
open(root + "/DESIGN.md", "w").write(
    head + "## Axioms per theorem\n\nGenerated by `scripts/axioms.py` with `#print axioms`.\n\n" + text.rstrip() + "\n")
