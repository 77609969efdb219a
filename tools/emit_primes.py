"""tools/certs.jsonl (output of gen_primes.py) -> lean/Verif/Proofs/Primes.lean"""
import json, os
here = os.path.dirname(os.path.abspath(__file__))
out = ["import Mathlib.Tactic.NormNum.Prime", "import Verif.Proofs.Pocklington", "",
       "/-!", "# Primality of the curve constants", "",
       "Generated by `tools/emit_primes.py` from the certificates in `tools/certs.jsonl`.", "-/", "",
       "namespace NBC.NT", ""]
done = set()
for line in open(os.path.join(here, "certs.jsonl")):
    d = json.loads(line)
    if not d["ok"]: continue
    for N, fs in d["cert"]:
        if N in done: continue
        done.add(N)
        if fs is None:
            out.append(f"theorem prime_{N} : Nat.Prime {N} := by norm_num\n")
        else:
            lst = ", ".join(f"({q}, {a})" for q, a in fs)
            out.append(f"theorem prime_{N} :\n    Nat.Prime {N} := by")
            out.append(f"  refine prime_of_pockCheck _ [{lst}] ?_ (by decide +kernel)")
            out.append("  intro qa h")
            out.append("  simp only [List.mem_cons, List.not_mem_nil, or_false] at h")
            if len(fs) > 1: out.append("  rcases h with " + " | ".join(["rfl"] * len(fs)))
            else: out.append("  subst h")
            for q, a in fs: out.append(f"  {'· ' if len(fs) > 1 else ''}exact prime_{q}")
            out.append("")
out.append("end NBC.NT")
open(os.path.join(here, "..", "lean", "Verif", "Proofs", "Primes.lean"), "w").write("\n".join(out) + "\n")
