import Verif.Model.Py

/-!
# `nbc/util/ecdsa/numbertheory.py`

Python ints are `Int`; `%` and `//` on a positive modulus are `Int.emod`/`Int.ediv` (equal there to
Python's floor versions); where the modulus can be negative `Int.fmod`/`Int.fdiv` are used.
Loop fuel arguments are always at least the number of iterations (proved in `Proofs/`).
-/

namespace NBC.NT
open NBC

/-- Square-and-multiply, the value of the built-in `pow(b, e, m)` for `m > 0`. For `numbertheory.py:32-37`. -/
def powLoop : Nat → Nat → Nat → Nat → Nat → Nat
  | 0, _, _, _, acc => acc
  | fuel + 1, b, e, m, acc =>
    if e = 0 then acc
    else powLoop fuel (b * b % m) (e / 2) m (if e % 2 = 1 then acc * b % m else acc)

/-- `pow(b, e, m)` on naturals, `m > 0`. For `numbertheory.py:32-37`. -/
def powMod (b e m : Nat) : Nat := powLoop e (b % m) e m (1 % m)

/-- `modular_exp`, `numbertheory.py:32-37`.  (`pow(_, _, 0)` raises `ValueError`; the modulus is
a natural number here, negative ones are not used by the code.) -/
def modularExp (base exponent : Int) (modulus : Nat) : Py Int :=
  if exponent < 0 then .error .negativeExponent
  else if modulus = 0 then .error .valueError
  else .ok (powMod (base % modulus).toNat exponent.toNat modulus)

/-! ## polynomials modulo a polynomial (lists of coefficients, increasing powers) -/

/-- The inner `for` of `polynomial_reduce_mod`, `numbertheory.py:64-65`, on lists reversed so that
the index `-i` counts from the front: subtract `top` times the modulus. -/
def polySub (top : Int) (p : Int) : List Int → List Int → List Int
  | x :: xs, m :: ms => (x - top * m) % p :: polySub top p xs ms
  | xs, _ => xs

/-- The `while` loop of `polynomial_reduce_mod`, `numbertheory.py:62-66`, on the reversed
polynomial; `mt` is the reversed modulus without its leading 1.  Fuel: length of the polynomial. -/
def reduceRev (mt : List Int) (p : Int) : Nat → List Int → List Int
  | 0, poly => poly
  | fuel + 1, poly =>
    if poly.length ≥ mt.length + 1 then
      match poly with
      | [] => []
      | top :: rest => reduceRev mt p fuel (if top ≠ 0 then polySub top p rest mt else rest)
    else poly

/-- `polynomial_reduce_mod`, `numbertheory.py:48-68`. -/
def polynomialReduceMod (poly polymod : List Int) (p : Int) : Py (List Int) :=
  match polymod.reverse with
  | [] => .error .indexError
  | lead :: mt =>
    if lead ≠ 1 then .error .assertionError
    else if ¬ (polymod.length > 1) then .error .assertionError
    else .ok (reduceRev mt p poly.length poly.reverse).reverse

/-- Add `c * m2` into `prod` at the front: the inner loop `for j`, `numbertheory.py:90-91`. -/
def addRow (c p : Int) : List Int → List Int → List Int
  | x :: xs, m :: ms => (x + c * m) % p :: addRow c p xs ms
  | xs, _ => xs

/-- The double loop of `polynomial_multiply_mod`, `numbertheory.py:89-91`: row `i` works on
`prod[i:]`. -/
def mulRows (p : Int) (m2 : List Int) : List Int → List Int → List Int
  | [], prod => prod
  | c :: m1, prod =>
    match addRow c p prod m2 with
    | [] => []
    | x :: xs => x :: mulRows p m2 m1 xs

/-- `polynomial_multiply_mod`, `numbertheory.py:72-93`. -/
def polynomialMultiplyMod (m1 m2 polymod : List Int) (p : Int) : Py (List Int) :=
  let prod := List.replicate (m1.length + m2.length - 1) 0
  polynomialReduceMod (mulRows p m2 m1 prod) polymod p

/-- The `while k > 1` loop of `polynomial_exp_mod`, `numbertheory.py:116-119`.  Fuel: `k`. -/
def polyExpLoop (polymod : List Int) (p : Int) : Nat → Nat → List Int → List Int → Py (List Int)
  | 0, _, _, s => .ok s
  | fuel + 1, k, G, s =>
    if k > 1 then do
      let k := k / 2
      let G ← polynomialMultiplyMod G G polymod p
      let s ← if k % 2 = 1 then polynomialMultiplyMod G s polymod p else .ok s
      polyExpLoop polymod p fuel k G s
    else .ok s

/-- `polynomial_exp_mod`, `numbertheory.py:96-121` (exponent a natural number: a negative one
would skip the loop; it is never negative in the code). -/
def polynomialExpMod (base : List Int) (exponent : Nat) (polymod : List Int) (p : Int) :
    Py (List Int) := do
  pyAssert (decide ((exponent : Int) < p))
  if exponent = 0 then return [1]
  polyExpLoop polymod p exponent exponent base (if exponent % 2 = 1 then base else [1])

/-! ## Jacobi symbol and square roots -/

/-- `while a1 % 2 == 0: a1, e = a1 // 2, e + 1`, `numbertheory.py:140-141`.  Fuel: `a1`. -/
def stripTwos : Nat → Nat → Nat → Nat × Nat
  | 0, a1, e => (a1, e)
  | fuel + 1, a1, e => if a1 % 2 = 0 then stripTwos fuel (a1 / 2) (e + 1) else (a1, e)

/-- `jacobi` after the assertions, `numbertheory.py:136-146`, for `n ≥ 3` odd and `a` reduced to
`0 ≤ a < n` by the caller; the recursive call re-checks the assertions.  Fuel: `n`. -/
def jacobiAux : Nat → Nat → Nat → Py Int
  | 0, _, _ => .error .recursionError
  | fuel + 1, a, n =>
    if ¬ (n ≥ 3) then .error .assertionError
    else if ¬ (n % 2 = 1) then .error .assertionError
    else
      let a := a % n
      if a = 0 then .ok 0
      else if a = 1 then .ok 1
      else
        let (a1, e) := stripTwos a a 0
        let s : Int := if e % 2 = 0 ∨ n % 8 = 1 ∨ n % 8 = 7 then 1 else -1
        if a1 = 1 then .ok s
        else
          let s := if n % 4 = 3 ∧ a1 % 4 = 3 then -s else s
          match jacobiAux fuel (n % a1) a1 with
          | .ok j => .ok (s * j)
          | .error err => .error err

/-- `jacobi`, `numbertheory.py:125-146`. -/
def jacobi (a n : Int) : Py Int :=
  if ¬ (n ≥ 3) then .error .assertionError
  else jacobiAux n.toNat (a % n).toNat n.toNat

/-- The `for b in range(2, p)` loop of `square_root_mod_prime`, `numbertheory.py:176-182`.
Fuel: number of values left. -/
def sqrtLoop (a p : Int) : Nat → Int → Py Int
  | 0, _ => .error .runtimeError
  | fuel + 1, b => do
    if (← jacobi (b * b - 4 * a) p) = -1 then
      let f := [a, -b, 1]
      let ff ← polynomialExpMod [0, 1] ((p + 1) / 2).toNat f p
      let ff1 ← pyIndex ff 1
      pyAssert (ff1 == 0)
      pyIndex ff 0
    else sqrtLoop a p fuel (b + 1)

/-- `square_root_mod_prime`, `numbertheory.py:150-182`. -/
def squareRootModPrime (a p : Int) : Py Int := do
  pyAssert (decide (0 ≤ a) && decide (a < p))
  pyAssert (decide (1 < p))
  if a = 0 then return 0
  if p = 2 then return a
  let jac ← jacobi a p
  if jac = -1 then .error .squareRootError
  else if p % 4 = 3 then modularExp a ((p + 1) / 4) p.toNat
  else if p % 8 = 5 then do
    let d ← modularExp a ((p - 1) / 4) p.toNat
    if d = 1 then modularExp a ((p + 3) / 8) p.toNat
    else if d = p - 1 then do
      return (2 * a * (← modularExp (4 * a) ((p - 5) / 8) p.toNat)) % p
    else .error .runtimeError
  else sqrtLoop a p (p - 2).toNat 2

/-! ## inverse, gcd, lcm -/

/-- The `while c != 0` loop of `inverse_mod`, `numbertheory.py:193-195`; returns `(d, ud)`.
Fuel: `|c|`. -/
def invLoop : Nat → Int → Int → Int → Int → Int → Int → Int × Int
  | 0, _, d, _, _, ud, _ => (d, ud)
  | fuel + 1, c, d, uc, vc, ud, vd =>
    if c = 0 then (d, ud)
    else
      let q := d.fdiv c
      invLoop fuel (d.fmod c) c (ud - q * uc) (vd - q * vc) uc vc

/-- `inverse_mod`, `numbertheory.py:185-202`. -/
def inverseMod (a m : Int) : Py Int :=
  if (a < 0 ∨ m ≤ a) ∧ m = 0 then .error .zeroDivisionError
  else
    let a := if a < 0 ∨ m ≤ a then a.fmod m else a
    let (d, ud) := invLoop a.natAbs a m 1 0 0 1
    if d ≠ 1 then .error .assertionError
    else if ud > 0 then .ok ud else .ok (ud + m)

/-- `gcd2`, `numbertheory.py:205-209`.  Fuel: `|a|`. -/
def gcd2Loop : Nat → Int → Int → Int
  | 0, _, b => b
  | fuel + 1, a, b => if a ≠ 0 then gcd2Loop fuel (b.fmod a) a else b

/-- `gcd2`, `numbertheory.py:205-209`. -/
def gcd2 (a b : Int) : Int := gcd2Loop a.natAbs a b

/-- `gcd` on a non-empty list (both calling conventions), `numbertheory.py:212-221`; `reduce`
on an empty sequence raises `TypeError`, `a[0]` on no argument `IndexError`: neither happens in
the code. -/
def gcdList : List Int → Py Int
  | [] => .error .typeError
  | a :: as => .ok (as.foldl gcd2 a)

/-- `lcm2`, `numbertheory.py:224-227`. -/
def lcm2 (a b : Int) : Py Int :=
  let g := gcd2 a b
  if g = 0 then .error .zeroDivisionError else .ok ((a * b).fdiv g)

/-- `lcm`, `numbertheory.py:230-239`. -/
def lcmList : List Int → Py Int
  | [] => .error .typeError
  | a :: as => as.foldlM lcm2 a

/-! ## primality, factorization -/

/-- `smallprimes`, `numbertheory.py:470-489`. -/
def smallprimes : List Nat :=
  [2, 3, 5, 7, 11, 13, 17, 19, 23, 29, 31, 37, 41, 43, 47,
   53, 59, 61, 67, 71, 73, 79, 83, 89, 97, 101, 103, 107, 109, 113,
   127, 131, 137, 139, 149, 151, 157, 163, 167, 173, 179, 181, 191, 193, 197,
   199, 211, 223, 227, 229, 233, 239, 241, 251, 257, 263, 269, 271, 277, 281,
   283, 293, 307, 311, 313, 317, 331, 337, 347, 349, 353, 359, 367, 373, 379,
   383, 389, 397, 401, 409, 419, 421, 431, 433, 439, 443, 449, 457, 461, 463,
   467, 479, 487, 491, 499, 503, 509, 521, 523, 541, 547, 557, 563, 569, 571,
   577, 587, 593, 599, 601, 607, 613, 617, 619, 631, 641, 643, 647, 653, 659,
   661, 673, 677, 683, 691, 701, 709, 719, 727, 733, 739, 743, 751, 757, 761,
   769, 773, 787, 797, 809, 811, 821, 823, 827, 829, 839, 853, 857, 859, 863,
   877, 881, 883, 887, 907, 911, 919, 929, 937, 941, 947, 953, 967, 971, 977,
   983, 991, 997, 1009, 1013, 1019, 1021, 1031, 1033, 1039, 1049, 1051, 1061, 1063, 1069,
   1087, 1091, 1093, 1097, 1103, 1109, 1117, 1123, 1129, 1151, 1153, 1163, 1171, 1181, 1187,
   1193, 1201, 1213, 1217, 1223, 1229]

/-- The table of `is_prime`, `numbertheory.py:421-433`. -/
def roundsTable : List (Nat × Nat) :=
  [(100, 27), (150, 18), (200, 15), (250, 12), (300, 9), (350, 8), (400, 7), (450, 6), (550, 5),
   (650, 4), (850, 3), (1300, 2)]

/-- The loop choosing the number of rounds, `numbertheory.py:419-435`. -/
def rounds (nBits : Nat) : List (Nat × Nat) → Nat → Nat
  | [], t => t
  | (k, tt) :: rest, t => if nBits < k then t else rounds nBits rest tt

/-- `while (r % 2) == 0: s = s + 1; r = r // 2`, `numbertheory.py:439-443`.  Fuel: `r`. -/
def splitTwos : Nat → Nat → Nat → Nat × Nat
  | 0, r, s => (s, r)
  | fuel + 1, r, s => if r % 2 = 0 then splitTwos fuel (r / 2) (s + 1) else (s, r)

/-- `while j <= s - 1 and y != n - 1`, `numbertheory.py:448-457`; `true` means the test goes on to
the next base, `false` means `return False`.  Fuel: number of values of `j` left. -/
def mrInner (n : Nat) : Nat → Nat → Bool
  | 0, y => y == n - 1
  | fuel + 1, y =>
    if y ≠ n - 1 then
      let y := powMod y 2 n
      if y = 1 then false else mrInner n fuel y
    else true

/-- The body of the `for i in range(t)` loop, `numbertheory.py:445-457`. -/
def mrRound (n s r a : Nat) : Bool :=
  let y := powMod a r n
  if y ≠ 1 ∧ y ≠ n - 1 then mrInner n (s - 1) y else true

/-- `is_prime`, `numbertheory.py:388-458`.  `lg n` stands for the float expression
`int(math.log(n, 2))`, which only selects the number of rounds; the theorems hold for every
function `lg`.  (The global counter `miller_rabin_test_count` is not modelled.) -/
def isPrime (lg : Nat → Nat) (n : Int) : Bool :=
  if n ≤ 1229 then smallprimes.any (fun q => (q : Int) == n)
  else if gcd2 n 2310 ≠ 1 then false
  else
    let n := n.toNat
    let t := rounds (1 + lg n) roundsTable 40
    let (s, r) := splitTwos (n - 1) (n - 1) 0
    (smallprimes.take t).all (mrRound n s r)

/-- The `while not is_prime(result)` loop of `next_prime`, `numbertheory.py:466`.  The fuel is
an explicit bound on the number of iterations (`none`: not found within the bound). -/
def nextPrimeLoop (lg : Nat → Nat) : Nat → Int → Option Int
  | 0, _ => none
  | fuel + 1, r => if isPrime lg r then some r else nextPrimeLoop lg fuel (r + 2)

/-- `next_prime`, `numbertheory.py:461-467`; `(x + 1) | 1` is `x + 1` made odd. -/
def nextPrime (lg : Nat → Nat) (fuel : Nat) (x : Int) : Option Int :=
  if x < 2 then some 2
  else nextPrimeLoop lg fuel (if (x + 1) % 2 = 0 then x + 2 else x + 1)

/-- `while d <= n: n = q; q, r = divmod(n, d); if r != 0: break; count = count + 1`,
`numbertheory.py:260-264`; returns `(n, count)`.  Fuel: `n`. -/
def smallCount (d : Nat) : Nat → Nat → Nat → Nat → Nat × Nat
  | 0, n, _, count => (n, count)
  | fuel + 1, n, q, count =>
    if d ≤ n then
      let n := q
      let q := n / d
      let r := n % d
      if r ≠ 0 then (n, count) else smallCount d fuel n q (count + 1)
    else (n, count)

/-- `for d in smallprimes`, `numbertheory.py:255-265`; returns `(n, result)`. -/
def factorSmall : List Nat → Nat → List (Nat × Nat) → Nat × List (Nat × Nat)
  | [], n, res => (n, res)
  | d :: ds, n, res =>
    if d > n then (n, res)
    else if n % d = 0 then
      let (n', count) := smallCount d n n (n / d) 1
      factorSmall ds n' (res ++ [(d, count)])
    else factorSmall ds n res

/-- `while d <= n: q, r = divmod(n, d); if r != 0: break; n = q; count = count + 1`,
`numbertheory.py:282-286`.  Fuel: `n`. -/
def bigCount (d : Nat) : Nat → Nat → Nat → Nat × Nat
  | 0, n, count => (n, count)
  | fuel + 1, n, count =>
    if d ≤ n then
      if n % d ≠ 0 then (n, count) else bigCount d fuel (n / d) (count + 1)
    else (n, count)

/-- `while 1: d = d + 2; ..`, `numbertheory.py:275-287`.  Fuel: bounds the values of `d`. -/
def factorBig : Nat → Nat → Nat → List (Nat × Nat) → Nat × List (Nat × Nat)
  | 0, _, n, res => (n, res)
  | fuel + 1, d, n, res =>
    let d := d + 2
    let q := n / d
    if q < d then (n, res)
    else if n % d = 0 then
      let (n', count) := bigCount d n q 1
      factorBig fuel d n' (res ++ [(d, count)])
    else factorBig fuel d n res

/-- `factorization`, `numbertheory.py:243-290`. -/
def factorization (lg : Nat → Nat) (n : Int) : List (Nat × Nat) :=
  if n < 2 then []
  else
    let (n, res) := factorSmall smallprimes n.toNat []
    if n > 1229 then
      if isPrime lg n then res ++ [(n, 1)]
      else
        let (n, res) := factorBig n 1229 n res
        if n > 1 then res ++ [(n, 1)] else res
    else res

/-- `phi`, `numbertheory.py:294-309`. -/
def phi (lg : Nat → Nat) (n : Int) : Nat :=
  if n < 3 then 1
  else (factorization lg n).foldl (fun result f =>
    if f.2 > 1 then result * f.1 ^ (f.2 - 1) * (f.1 - 1) else result * (f.1 - 1)) 1

/-- `carmichael_of_ppower`, `numbertheory.py:335-341`. -/
def carmichaelOfPpower (pp : Nat × Nat) : Nat :=
  if pp.1 = 2 ∧ pp.2 > 2 then 2 ^ (pp.2 - 2) else (pp.1 - 1) * pp.1 ^ (pp.2 - 1)

/-- `carmichael_of_factorized`, `numbertheory.py:322-333`. -/
def carmichaelOfFactorized : List (Nat × Nat) → Py Int
  | [] => .ok 1
  | f :: fs => fs.foldlM (fun r g => lcm2 r (carmichaelOfPpower g)) (carmichaelOfPpower f : Int)

/-- `carmichael`, `numbertheory.py:312-319`. -/
def carmichael (lg : Nat → Nat) (n : Int) : Py Int := carmichaelOfFactorized (factorization lg n)

/-- The loop of `order_mod`, `numbertheory.py:356-361`; fuel bounds the iterations. -/
def orderLoop (x m : Int) : Nat → Int → Nat → Option Nat
  | 0, _, _ => none
  | fuel + 1, z, result =>
    if z ≠ 1 then orderLoop x m fuel ((z * x) % m) (result + 1) else some result

/-- `order_mod`, `numbertheory.py:345-361`; `none` only if the loop does not end within the fuel
`m + 1` (proved impossible for coprime arguments). -/
def orderMod (x m : Int) : Py (Option Nat) :=
  if m ≤ 1 then .ok (some 0)
  else if gcd2 x m ≠ 1 then .error .assertionError
  else .ok (orderLoop x m (m.toNat + 1) x 1)

/-- Inner loop of `largest_factor_relatively_prime`, `numbertheory.py:372-376`.  Fuel: `a`. -/
def divideOut (d : Nat) : Nat → Nat → Nat
  | 0, a => a
  | fuel + 1, a => if a % d > 0 then a else divideOut d fuel (a / d)

/-- Outer loop of `largest_factor_relatively_prime`, `numbertheory.py:368-377`.  Fuel: `a`. -/
def lfrpLoop : Nat → Nat → Nat → Nat
  | 0, a, _ => a
  | fuel + 1, a, b =>
    let d := Nat.gcd a b
    if d ≤ 1 then a else lfrpLoop fuel (divideOut d a a) d

/-- `largest_factor_relatively_prime`, `numbertheory.py:364-377`, for `a ≥ 1`, `b ≥ 0`
(`gcd` is `Nat.gcd`, justified by the theorem on `gcd2`; with `a = 0` the Python loop does not
end). -/
def largestFactorRelativelyPrime (a b : Nat) : Nat := lfrpLoop a a b

/-- `kinda_order_mod`, `numbertheory.py:380-385`, for positive `m`. -/
def kindaOrderMod (x m : Nat) : Py (Option Nat) := orderMod x (largestFactorRelativelyPrime m x)

end NBC.NT
