"""Write Verif/Proofs/Nist*.lean: n * G = infinity by the code's multiplication, in short runs."""
import os, re
here = os.path.dirname(os.path.abspath(__file__))
lean = os.path.join(here, "..", "lean", "Verif")
src = open(os.path.join(lean, "Model", "Ecdsa.lean")).read()
STEP = 24

def curve(name):
    m = re.search(r"def %s : Curve where\n(.*?)\n\n" % name, src, re.S).group(1)
    body = re.search(r"curve := ⟨(.*?)⟩", m, re.S).group(1)
    p, a, b = [int(x.strip(), 0) for x in body.split(",")]
    g = lambda k: int(re.search(r"%s := (\S+)" % k, m).group(1), 0)
    return p, a, g("gx"), g("gy"), g("order")

def double(P, p, a):
    if P is None: return None
    x, y = P
    l = (3 * x * x + a) * pow(2 * y % p, -1, p) % p
    x3 = (l * l - 2 * x) % p
    return x3, (l * (x - x3) - y) % p

def add(P, Q, p, a):
    if Q is None: return P
    if P is None: return Q
    (x1, y1), (x2, y2) = P, Q
    if x1 == x2:
        return None if (y1 + y2) % p == 0 else double(P, p, a)
    l = (y2 - y1) * pow((x2 - x1) % p, -1, p) % p
    x3 = (l * l - x1 - x2) % p
    return x3, (l * (x1 - x3) - y1) % p

def emit(name, fname, ns, C, G, thm, order):
    p, a, gx, gy, n = curve(name)
    e, e3 = n, 3 * n
    i = (1 << (e3.bit_length() - 1)) // 2
    P, N, r = (gx, gy), (gx, -gy), (gx, gy)
    runs = []
    while i > 1:
        i0, k = i, 0
        while i > 1 and k < STEP:
            r = double(r, p, a)
            if e3 & i and not e & i: r = add(r, P, p, a)
            if not e3 & i and e & i: r = add(r, N, p, a)
            i //= 2; k += 1
        runs.append((i0, k, r, i))
    assert r is None
    pt = lambda q: ".inf" if q is None else "(.aff %d %d none)" % q
    g = "(.aff %s.gx %s.gy none)" % (G, G)
    gn = "(.aff %s.gx (-%s.gy) none)" % (G, G)
    o = []
    w = o.append
    w("import Verif.Proofs.MulChain\n\n/-! # The order of the generator of %s, by the code's own multiplication\n\nWritten by tools/gen_order_chains.py. -/\n" % name)
    w("namespace NBC.Ecdsa\nopen NBC EC\n")
    cur = g
    for j, (i0, k, q, i1) in enumerate(runs):
        w("set_option maxRecDepth 20000 in\ntheorem %s_run%d : mulLoop %s.curve %s %s (3 * %s.order) %s.order %d %d\n    %s = .ok %s := by decide +kernel\n" % (name, j, name, g, gn, name, name, k, i0, cur, pt(q)))
        cur = pt(q)
    w("theorem %s_mul_order :\n    EC.mul %s.curve %s (%s.order : Int) = .ok .inf := by" % (name, name, g, name))
    w("  refine (mul_start (i := %d) (by decide +kernel) (by decide +kernel) (by decide +kernel)).trans ?_" % runs[0][0])
    f = runs[0][0]
    for j, (i0, k, q, i1) in enumerate(runs):
        w("  refine (mulLoop_cut %d %d (j := %d) %s_run%d (by decide +kernel) (by decide +kernel)).trans ?_" % (k, f - k, i1, name, j))
        f -= k
    w("  exact mulLoop_small _ _ _ _ _ _ _ _ (by decide)\n")
    w("end NBC.Ecdsa")
    open(os.path.join(lean, "Proofs", fname), "w").write("\n".join(o) + "\n")

for bits in (192, 224, 256, 384, 521):
    emit("nist%dp" % bits, "Nist%d.lean" % bits, None, None, "nist%dp" % bits, None, None)
emit("secp256k1", "SecpOrder.lean", None, None, "secp256k1", None, None)
