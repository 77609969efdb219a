"""Automatic seeded bugs.  usage: automut.py SEED PER_DEF OUT.jsonl [FILE ...]
Makes small edits (boundaries, constants, operators, swapped branches, errors, slices) in the bodies of the
definitions under lean/Verif/Model, one at a time in a scratch copy, and rebuilds the modules that mention the
definition until the first theorem fails.  One JSON line per attempt goes to OUT.jsonl; edits after which the
definition itself does not compile are left out."""
import json, os, random, re, shutil, signal, subprocess, sys, time
ROOT = os.path.join(os.path.dirname(os.path.abspath(__file__)), "..")
SCR = os.environ.get("SCRATCH", "/tmp/am/lean")
PRI = SCR + ".build"
LIMIT = int(os.environ.get("LIMIT", "420"))
seed, per_def, out = int(sys.argv[1]), int(sys.argv[2]), sys.argv[3]
only = sys.argv[4:]
shutil.rmtree(SCR, ignore_errors=True); shutil.rmtree(PRI, ignore_errors=True)
os.makedirs(os.path.dirname(SCR), exist_ok=True)
subprocess.run(["cp", "-a", os.path.join(ROOT, "lean"), SCR], check=True)
subprocess.run(["cp", "-a", os.path.join(SCR, ".lake/build"), PRI], check=True)
rng = random.Random(seed)
mods = {}
for d, _, fs in os.walk(os.path.join(SCR, "Verif")):
    for f in fs:
        if f.endswith(".lean"):
            p = os.path.join(d, f)
            mods[os.path.relpath(p, SCR)] = open(p).read()
def modname(p): return p[:-5].replace("/", ".")
START = re.compile(r"^(?:private |protected |partial |@\[[^\]]*\] )*(?:def|abbrev)\s+(\S+)")
def defs(src):
    lines = src.split("\n"); i = 0; pos = 0; offs = []
    for l in lines:
        offs.append(pos); pos += len(l) + 1
    offs.append(pos)
    while i < len(lines):
        m = START.match(lines[i])
        if m:
            j = i + 1
            while j < len(lines) and (lines[j] == "" and j + 1 < len(lines) and lines[j+1].startswith(" ") or lines[j].startswith(" ") or lines[j].startswith("termination_by") or lines[j].startswith("decreasing_by")):
                j += 1
            doc = ""
            k = i - 1
            while k >= 0 and lines[k].strip() != "": k -= 1
            doc = " ".join(x.strip() for x in lines[k+1:i])
            yield m.group(1), offs[i], offs[j] - 1, doc
            i = j
        else: i += 1
RULES = [
    (r"(?<![\w.])(\d+)(?![\w.])", lambda m: str(int(m.group(1)) + 1), "constant plus one"),
    (r"(?<![\w.])0x([0-9a-fA-F]+)(?!\w)", lambda m: hex(int(m.group(1), 16) ^ 1), "constant with the last bit flipped"),
    (r" < ", lambda m: " ≤ ", "< became ≤"), (r" ≤ ", lambda m: " < ", "≤ became <"),
    (r" > ", lambda m: " ≥ ", "> became ≥"), (r" ≥ ", lambda m: " > ", "≥ became >"),
    (r" ≠ ", lambda m: " = ", "≠ became ="), (r"(?<=if)( [^\n]*?) = ", lambda m: m.group(1) + " ≠ ", "= became ≠"),
    (r" == ", lambda m: " != ", "== became !="), (r" && ", lambda m: " || ", "&& became ||"), (r" \|\| ", lambda m: " && ", "|| became &&"),
    (r" ∧ ", lambda m: " ∨ ", "∧ became ∨"), (r" ∨ ", lambda m: " ∧ ", "∨ became ∧"),
    (r" \+ ", lambda m: " - ", "+ became -"), (r" - ", lambda m: " + ", "- became +"), (r" \* ", lambda m: " + ", "* became +"),
    (r" % ", lambda m: " / ", "% became /"), (r" / ", lambda m: " % ", "/ became %"),
    (r" \+\+ (\[[^\]\n]*\]|\w+)", lambda m: "", "appended part dropped"),
    (r"\.take\b", lambda m: ".drop", "take became drop"), (r"\.drop\b", lambda m: ".take", "drop became take"),
    (r"\.reverse\b", lambda m: "", "reverse dropped"),
    (r"\.error \.(\w+)", lambda m: ".error .keyError" if m.group(1) != "keyError" else ".error .valueError", "another exception"),
    (r"(?<![\w.])true(?!\w)", lambda m: "false", "true became false"), (r"(?<![\w.])false(?!\w)", lambda m: "true", "false became true"),
    (r" &&& ", lambda m: " ||| ", "&&& became |||"), (r" >>> ", lambda m: " <<< ", ">>> became <<<"), (r" <<< ", lambda m: " >>> ", "<<< became >>>"),
    (r"\.py2\b", lambda m: ".py3", "py2 became py3"), (r"\.py3\b", lambda m: ".py2", "py3 became py2"),
    (r"\{ (\w+(?:\.\w+)*) with (\w+) := [^,}\n]+, ", lambda m: "{ %s with " % m.group(1), "first update dropped"),
    (r", (\w+) := [^,}\n]+ \}", lambda m: " }", "last update dropped"),
    (r"(?<![\w])none(?!\w)", lambda m: "(some default)", "none became some"),
    (r"\.isNone\b", lambda m: ".isSome", "isNone became isSome"), (r"\.isSome\b", lambda m: ".isNone", "isSome became isNone"),
]
def candidates(src, a, b):
    body = src[a:b]
    k = re.search(r":=|\n\s*\||\bwhere\b", body)
    if not k: return []
    base = a + k.start()
    seg = src[base:b]
    res = []
    for pat, f, desc in RULES:
        for m in re.finditer(pat, seg):
            # leave comments alone
            ln = seg[seg.rfind("\n", 0, m.start()) + 1:m.start()]
            if "--" in ln: continue
            line = seg[seg.rfind("\n", 0, m.start()) + 1: (seg + "\n").find("\n", m.end())].strip()
            res.append((base + m.start(), base + m.end(), f(m), desc, line))
    return res
def decl_at(path, line):
    src = open(os.path.join(SCR, path)).read().split("\n")
    for i in range(min(line, len(src)) - 1, -1, -1):
        m = re.match(r"^(?:private |protected |omit [^\n]* in |@\[[^\]]*\] )*(theorem|lemma|example|def|instance|abbrev|structure)\b\s*([^\s:({\[]*)", src[i])
        if m: return m.group(1), (m.group(2) or f"example at {path}:{line}")
    return None, path
def build(targets, mutated):
    """Returns (verdict, theorems, examples, others)."""
    p = subprocess.Popen(["lake", "build"] + targets, cwd=SCR, stdout=subprocess.PIPE, stderr=subprocess.STDOUT, text=True, start_new_session=True)
    t0 = time.time(); thms, exs, other = [], [], []
    import threading
    timed = []
    def killer():
        timed.append(1)
        try: os.killpg(p.pid, signal.SIGKILL)
        except ProcessLookupError: pass
    tm = threading.Timer(LIMIT, killer); tm.start()
    verdict = None
    for l in p.stdout:
        m = re.search(r"error: (Verif/[^:]+):(\d+):\d+", l)
        if not m: continue
        f, ln = m.group(1), int(m.group(2))
        if f == mutated[0]:
            verdict = "DEFS"
            if decl_at(f, ln)[0] not in ("theorem", "lemma", "example"): break
        k, nm = decl_at(f, ln)
        (thms if k in ("theorem", "lemma") else exs if k == "example" else other).append(nm)
        if k in ("theorem", "lemma") and len(set(thms)) >= 1:
            verdict = "caught"; break
    tm.cancel()
    if not timed:
        try: os.killpg(p.pid, signal.SIGKILL)
        except ProcessLookupError: pass
    p.wait()
    if verdict is None:
        verdict = "TIMEOUT" if timed else "EXAMPLES ONLY" if exs else "OTHER" if other else "SURVIVED"
    return verdict, sorted(set(thms)), sorted(set(exs)), sorted(set(other))
work = []
for path in sorted(mods):
    if "/Model/" not in path: continue
    if os.path.basename(path) in os.environ.get("SKIP", "").split(): continue
    if only and not any(o in path for o in only): continue
    src = mods[path]
    for name, a, b, doc in defs(src):
        c = candidates(src, a, b)
        if not c: continue
        rng.shuffle(c)
        work.append((path, name, c, doc))
rng.shuffle(work)
# definitions that have not been edited yet come first
log = os.path.join(ROOT, "seeded/LOG.jsonl")
logged = {json.loads(l)["definition"].split(".")[-1] for l in open(log)} if os.path.exists(log) else set()
work.sort(key=lambda w: w[1].split(".")[-1] in logged)
print(sum(w[1].split(".")[-1] not in logged for w in work), "new of",len(work), "definitions", flush=True)
done = set()
if os.path.exists(out):
    for l in open(out):
        r = json.loads(l); done.add((r["file"], r["definition"], r["edit"]))
for path, name, cands, doc in work:
    src = mods[path]
    got = sum(1 for d in done if d[0] == path and d[1] == name)
    short = name.split(".")[-1]
    targets = [modname(q) for q, s in mods.items() if q != path and ("/Proofs/" in q or "/Props/" in q) and re.search(r"(?<!\w)" + re.escape(short) + r"(?!\w)", s)]
    for a, b, new, desc, line in cands:
        if got >= per_def: break
        edit = f"{desc}: {line}"
        if (path, name, edit) in done: continue
        open(os.path.join(SCR, path), "w").write(src[:a] + new + src[b:])
        t0 = time.time()
        verdict, thms, exs, other = build(targets, (path,)) if targets else ("NO TARGETS", [], [], [])
        open(os.path.join(SCR, path), "w").write(src)
        shutil.rmtree(os.path.join(SCR, ".lake/build")); subprocess.run(["cp", "-a", PRI, os.path.join(SCR, ".lake/build")], check=True)
        if verdict == "DEFS": continue
        got += 1
        rec = {"definition": name, "file": path, "edit": edit, "claim": doc, "failed": thms, "failed_examples": exs, "failed_definitions": other, "tightened": [], "result": verdict, "automatic": True, "seconds": round(time.time() - t0)}
        print(verdict, "|", path, name, "|", edit, "|", thms, exs, other, rec["seconds"], flush=True)
        with open(out, "a") as f: f.write(json.dumps(rec, ensure_ascii=False) + "\n")
