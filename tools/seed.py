"""Seeded-bug runner.  usage: seed.py mutations.json
Each entry: {"definition", "file" (under lean/), "old", "new", "edit", "claim"}.
Copies lean/ to a scratch directory, applies one edit at a time, rebuilds, and appends one line per
attempt to seeded/LOG.jsonl with the theorems that stopped proving.  With RESUME set, attempts that are in the
log already are left out."""
import json, os, re, subprocess, sys
ROOT = os.path.join(os.path.dirname(os.path.abspath(__file__)), "..")
SCR = os.environ.get("SCRATCH", "/tmp/seed/lean")
subprocess.run(["rm", "-rf", SCR], check=True)
os.makedirs(os.path.dirname(SCR), exist_ok=True)
subprocess.run(["cp", "-a", os.path.join(ROOT, "lean"), SCR], check=True)
SNAP = SCR + ".build"
BUILD = os.path.join(SCR, ".lake", "build")
def copy_tree(a, b):
    subprocess.run(["rm", "-rf", b], check=True)
    subprocess.run(["cp", "-a", a, b], check=True)
copy_tree(BUILD, SNAP)
LOG = os.path.join(ROOT, "seeded", "LOG.jsonl")
muts = json.load(open(sys.argv[1]))
done = set()
if os.environ.get("RESUME"):
    done = {(r["definition"], r["edit"]) for r in map(json.loads, open(LOG))}
def decl_at(path, line):
    src = open(os.path.join(SCR, path)).read().split("\n")
    kind = name = None
    for i in range(min(line, len(src)) - 1, -1, -1):
        m = re.match(r"^(?:private |protected |@\[[^\]]*\] )*(theorem|lemma|example|def|instance|abbrev|structure)\b\s*([^\s:({\[]*)", src[i])
        if m:
            kind, name = m.group(1), m.group(2)
            break
    return kind, (name or f"example at {path}:{line}")
for m in muts:
    if (m["definition"], m["edit"]) in done: continue
    p = os.path.join(SCR, m["file"])
    orig = open(p).read()
    n = orig.count(m["old"])
    if n != 1:
        print("SKIP (occurrences %d): %s / %s" % (n, m["definition"], m["edit"])); continue
    open(p, "w").write(orig.replace(m["old"], m["new"]))
    r = subprocess.run(["lake", "build"] + m.get("targets", []), cwd=SCR, capture_output=True, text=True)
    out = r.stdout + r.stderr
    thms, exs, other = [], [], []
    for f, l in re.findall(r"error: (Verif/[^:]+):(\d+):\d+", out):
        k, nme = decl_at(f, int(l))
        tgt = thms if k in ("theorem", "lemma") else exs if k == "example" else other
        if nme not in tgt: tgt.append(nme)
    open(p, "w").write(orig)
    copy_tree(SNAP, BUILD)
    # property modules that no longer build because something below them failed
    blocked = sorted(set(re.findall(r"- (Verif\.Props\.\w+)", out)))
    rec = {"definition": m["definition"], "file": m["file"], "edit": m["edit"], "claim": m["claim"],
           "failed": thms, "failed_examples": exs, "failed_definitions": other, "blocked_modules": blocked, "tightened": m.get("tightened", [])}
    verdict = "caught" if thms else ("EXAMPLES ONLY" if exs else ("DEFS" if other else "SURVIVED"))
    rec["result"] = verdict
    print(verdict, "|", m["definition"], "|", m["edit"], "|", thms, exs, other, flush=True)
    with open(LOG, "a") as f:
        f.write(json.dumps(rec) + "\n")
