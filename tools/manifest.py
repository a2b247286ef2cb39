"""Collect the theorems cNN_* of the Lean sources and write MANIFEST.json."""
import re, json, glob, os
root = "/verif/lean/Verif"
names = {}
for f in sorted(glob.glob(root + "/**/*.lean", recursive=True)):
    ns = []
    for line in open(f):
        m = re.match(r"namespace (\S+)", line)
        if m: ns.append(m.group(1)); continue
        m = re.match(r"end (\S+)", line)
        if m and ns and ns[-1] == m.group(1): ns.pop(); continue
        m = re.match(r"(?:@\[[^\]]*\] )?theorem (c(\d\d\d?)_\S+)", line)
        if m:
            names.setdefault("C" + m.group(2), []).append(".".join(ns + [m.group(1)]))
exec(open("/verif/tools/notes.py").read())
ids = [json.loads(l)["id"] for l in open("/verif/properties.jsonl")]
claims = []
for i in ids:
    if i not in names: 
        print("no theorem for", i); continue
    st, note = NOTES.get(i, (None, ""))
    if st is None:
        st = "partial" if any(n.endswith("_partial") for n in names[i]) else "proved"
    claims.append(dict(property=i, status=st, theorems=names[i], note=note))
for i in names:
    if i not in ids: print("theorems without property:", i, names[i])
json.dump({"claims": claims}, open("/verif/MANIFEST.json", "w"), indent=1)
print(len(claims), "claims", sum(len(c["theorems"]) for c in claims), "theorems")
