"""Writes AXIOMS.md: the axioms that each theorem of MANIFEST.json depends on (Lean's `#print axioms`)."""
import json, subprocess, re, collections
m = json.load(open("/verif/MANIFEST.json"))
names = sorted({t for c in m["claims"] for t in c["theorems"]})
src = "import Verif\n" + "".join("#print axioms %s\n" % n for n in names)
open("/tmp/axioms.lean", "w").write(src)
out = subprocess.run(["lake", "env", "lean", "/tmp/axioms.lean"], cwd="/verif/lean", capture_output=True, text=True).stdout
by = collections.defaultdict(list)
for x in re.finditer(r"'([^']+?)' (depends on axioms: \[([^\]]*)\]|does not depend on any axioms)", out.replace("\n ", " ")):
    ax = ", ".join(sorted(a.strip() for a in (x.group(3) or "").split(",") if a.strip())) or "none"
    by[ax].append(x.group(1))
seen = sum(len(v) for v in by.values())
with open("/verif/AXIOMS.md", "w") as f:
    f.write("# Axioms of each theorem\n\nWritten by `tools/axioms.py` from Lean's own `#print axioms`; %d theorems of MANIFEST.json.\n" % seen)
    for ax in sorted(by):
        f.write("\n## %s\n\n" % ax + "".join("* `%s`\n" % n for n in sorted(by[ax])))
print(len(names), seen, {k: len(v) for k, v in by.items()})
