"""Seeded-bug harness: apply one edit at a time to a scratch copy of the Lean project, rebuild, report what fails.
Usage: mutate.py FILE-WITH-MUTATIONS  (a Python file defining M = [dict(d=definition, f=file, old=, new=, edit=, claim=)])
Appends one JSON line per mutation to seeded/LOG.jsonl."""
import sys, os, re, json, subprocess, shutil
SRC, DST = "/verif/lean", "/tmp/mut/lean"
LOG = "/verif/seeded/LOG.jsonl"
exec(open(sys.argv[1]).read())
subprocess.run(["rsync", "-a", "--delete", SRC + "/", DST + "/"]) if shutil.which("rsync") else (
    shutil.rmtree(DST, ignore_errors=True), shutil.copytree(SRC, DST, symlinks=True))
def enclosing(f, line):
    ls = open(os.path.join(DST, f)).read().split("\n")
    ns = ""
    for i in range(min(line, len(ls)) - 1, -1, -1):
        m = re.match(r"(?:@\[[^\]]*\] |noncomputable |private )*(theorem|lemma|def|example|instance|inductive|structure)\b ?(\S*)", ls[i])
        if m:
            return m.group(2) if m.group(1) in ("theorem", "lemma", "def") else "example at %s:%d" % (f, i + 1)
    return f
def build():
    try:
        p = subprocess.run(["lake", "build", "Verif"], cwd=DST, capture_output=True, text=True, timeout=1500)
        out = p.stdout + p.stderr
    except subprocess.TimeoutExpired:
        return -1, ["timeout"]
    failed = []
    for m in re.finditer(r"error: (Verif/\S+?\.lean):(\d+):", out):
        n = enclosing(m.group(1), int(m.group(2)))
        if n not in failed: failed.append(n)
    return p.returncode, failed
for m in M:
    path = os.path.join(DST, m["f"])
    orig = open(path).read()
    if orig.count(m["old"]) != 1:
        print("BAD PATTERN", m["d"], orig.count(m["old"])); continue
    open(path, "w").write(orig.replace(m["old"], m["new"]))
    rc, failed = build()
    open(path, "w").write(orig)
    rec = dict(definition=m["d"], file=m["f"], edit=m["edit"], claim=m["claim"], theorems_failed=failed,
               theorems_tightened=m.get("tightened", []))
    if rc == 0: rec["note"] = m.get("note", "SURVIVED")
    print(("SURVIVED " if rc == 0 else "killed ") + m["d"], m["edit"], failed[:6], flush=True)
    open(LOG, "a").write(json.dumps(rec) + "\n")
