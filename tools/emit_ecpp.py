"""tools/ecpp.json (elliptic curve steps) -> lean/Verif/Proofs/Nist521Order.lean

The order n of NIST521p: n - 1 has a 391-bit prime factor q, q - 1 has a 361-bit prime factor r, and
r is reached from a 65-bit prime by eight elliptic curve steps."""
import json, os
here = os.path.dirname(os.path.abspath(__file__))
n = 6864797660130609714981900799081393217269435300143305409394463459185543183397655394245057746333217197532963996371363321113864768612440380340372808892707005449
q = 3615194794881930010216942559103847593050265703173292383701371712350878926821661243755933835426896058418509759880171943

def factor(m):
    fs, d = [], 2
    while d * d <= m:
        while m % d == 0: fs.append(d); m //= d
        d += 1
    return fs + ([m] if m > 1 else [])

def base(N, F):
    """one base per prime factor in F for Pocklington's criterion"""
    from math import gcd
    out = []
    for f in F:
        a = 2
        while not (pow(a, N - 1, N) == 1 and gcd(pow(a, (N - 1) // f, N) - 1, N) == 1): a += 1
        out.append((f, a))
    return out

steps = json.load(open(os.path.join(here, "ecpp.json")))
out = ["import Mathlib.Tactic.NormNum.Prime", "import Verif.Proofs.Ecpp", "",
       "/-!", "# The order of NIST521p is prime", "",
       "Generated by `tools/emit_ecpp.py` from the steps in `tools/ecpp.json`.", "-/", "",
       "namespace NBC.NT", ""]

def pock(N, fs):
    lst = ", ".join(f"({f}, {a})" for f, a in fs)
    out.append(f"theorem prime_{N} :\n    Nat.Prime {N} := by")
    out.append(f"  refine prime_of_pockCheck _ [{lst}] ?_ (by decide +kernel)")
    out.append("  intro qa h")
    out.append("  simp only [List.mem_cons, List.not_mem_nil, or_false] at h")
    if len(fs) > 1: out.append("  rcases h with " + " | ".join(["rfl"] * len(fs)))
    else: out.append("  subst h")
    for f, a in fs:
        by = "by norm_num" if f < 10**8 else f"prime_{f}"
        out.append(f"  {'· ' if len(fs) > 1 else ''}exact {by}")
    out.append("")

def small(N):
    """Pocklington on the largest prime factors, recursively"""
    F, keep = 1, []
    for f in sorted(set(factor(N - 1)), reverse=True):
        keep.append(f); F *= f
        if N < (F + 1) ** 2: break
    for f in keep:
        if f >= 10**8: small(f)
    pock(N, base(N, keep))
small(steps[-1]["q"])
for s in reversed(steps):
    i = (s["q"] - 1).bit_length() - 1
    out.append(f"theorem prime_{s['N']} :\n    Nat.Prime {s['N']} :=")
    out.append(f"  prime_of_ecppCheck _ {s['a']}\n    {s['x']}\n    {s['y']}\n    {s['q']} {i}\n    prime_{s['q']} (by decide +kernel)\n")
r = steps[0]["N"]
pock(q, base(q, [r]))
pock(n, base(n, [q]))
out.append("end NBC.NT")
open(os.path.join(here, "..", "lean", "Verif", "Proofs", "Nist521Order.lean"), "w").write("\n".join(out) + "\n")
