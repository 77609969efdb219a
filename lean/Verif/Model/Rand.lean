import Verif.Model.Der

/-!
# Random and deterministic scalars, low-s signatures

`nbc/util/ecdsa/util.py` (`randrange`, `PRNG`, `randrange_from_seed__*`, `sigencode_*_canonize`) and
`nbc/util/ecdsa/rfc6979.py`.

An entropy source is a function of the number of the call and of the number of bytes asked for.
-/

namespace NBC.Ecdsa
open NBC

/-- The loop of `randrange`, `ecdsa/util.py:49-57`.  Fuel: `dont_try_forever`. -/
def randrangeLoop (order bytes : Nat) (entropy : Nat → Nat → Bytes) : Nat → Nat → Py Nat
  | 0, _ => .error .runtimeError
  | fuel + 1, i => do
    let candidate := (← stringToNumber (entropy i bytes)) + 1
    if 1 ≤ candidate ∧ candidate < order then return candidate
    else randrangeLoop order bytes entropy fuel (i + 1)

/-- `randrange`, `ecdsa/util.py:19-57`. -/
def randrange (order : Nat) (entropy : Nat → Nat → Bytes) : Py Nat := do
  pyAssert (decide (order > 1))
  randrangeLoop order (orderlen order) entropy 10000 0

/-- `%d` of a non-negative integer. For `ecdsa/util.py:77-82`. -/
def fmtDecNat (n : Nat) : Bytes := if n = 0 then [48] else (digitsBE 10 n).map hexDigit

/-- Block `counter` of `PRNG.block_generator`, `ecdsa/util.py:77-82`; `seed` is the text `%s` renders. -/
def prngBlock (H : Hashes) (seed : Bytes) (counter : Nat) : Bytes :=
  H.sha256 ([112, 114, 110, 103, 45] ++ fmtDecNat counter ++ [45] ++ seed)

/-- Byte `i` of the generator, `ecdsa/util.py:77-82` (each block has 32 bytes). -/
def prngByte (H : Hashes) (seed : Bytes) (i : Nat) : UInt8 := (prngBlock H seed (i / 32)).getD (i % 32) 0

/-- `PRNG.__call__`, `ecdsa/util.py:68-74`, after `pos` bytes were already taken (Python 3). -/
def prng (H : Hashes) (seed : Bytes) (pos numbytes : Nat) : Bytes :=
  (List.range numbytes).map fun j => prngByte H seed (pos + j)

/-- `randrange_from_seed__overshoot_modulo`, `ecdsa/util.py:84-94`. -/
def overshootModulo (H : Hashes) (seed : Bytes) (order : Nat) : Py Nat := do
  let base := prng H seed 0 (2 * orderlen order)
  let v ← intOfHex (hexlify base)
  if order = 1 then .error .zeroDivisionError
  else
    let number := ((v : Int) % ((order : Int) - 1) + 1).toNat
    pyAssert (decide (1 ≤ number) && decide (number < order))
    return number

/-- The loop of `randrange_from_seed__trytryagain`, `ecdsa/util.py:152-158`; `bytes` and `extrabits` come
from the floating-point logarithm of `bits_and_bytes` and are parameters.  The Python loop is
unbounded: `none` says that `fuel` rounds were not enough. -/
def tryTryAgainLoop (H : Hashes) (seed : Bytes) (order bytes extrabits : Nat) :
    Nat → Nat → Py (Option Nat)
  | 0, _ => .ok none
  | fuel + 1, pos => do
    let extra : Bytes := if extrabits ≠ 0 then
      [UInt8.ofNat ((prngByte H seed pos).toNat &&& ((1 <<< extrabits) - 1))] else []
    let pos := if extrabits ≠ 0 then pos + 1 else pos
    let guess := (← stringToNumber (extra ++ prng H seed pos bytes)) + 1
    if 1 ≤ guess ∧ guess < order then return some guess
    else tryTryAgainLoop H seed order bytes extrabits fuel (pos + bytes)

/-- `randrange_from_seed__trytryagain`, `ecdsa/util.py:142-158`. -/
def tryTryAgain (H : Hashes) (seed : Bytes) (order bytes extrabits fuel : Nat) :
    Py (Option Nat) := do
  pyAssert (decide (order > 1))
  tryTryAgainLoop H seed order bytes extrabits fuel 0

/-- `lsb_of_ones`, `ecdsa/util.py:96-97`. -/
def lsbOfOnes (numbits : Nat) : Nat := (1 <<< numbits) - 1

/-- The padding `"\x00"*(l-len(base)) + base` of `ecdsa/util.py:122,134`: a text in front of bytes, which Python 3 refuses
even if the text is empty. -/
def padSeed (py3 : Bool) (l : Nat) (base : Bytes) : Py Bytes :=
  if py3 then .error .typeError else .ok (List.replicate (l - base.length) 0 ++ base)

/-- The end of both functions, `ecdsa/util.py:123-126` and `ecdsa/util.py:137-140`. -/
def seedNumber (base : Bytes) (order : Nat) : Py Nat := do
  let number := 1 + (← intOfHex (hexlify base))
  pyAssert (decide (1 ≤ number) && decide (number < order))
  return number

/-- `randrange_from_seed__truncate_bytes`, `ecdsa/util.py:115-126`, with `bits_and_bytes`, `ecdsa/util.py:98-102`: `bits` is
`int(math.log(order-1, 2)+1)`, a parameter because the logarithm is a floating-point number (`bits` is 257 for the
order of secp256k1). -/
def truncateBytes (py3 : Bool) (hash : Bytes → Bytes) (seed : Bytes) (order bits : Nat) : Py Nat := do
  let bytes := if bits % 8 ≠ 0 then bits / 8 + 1 else bits / 8
  let base ← padSeed py3 bytes ((hash seed).take bytes)
  seedNumber base order

/-- `randrange_from_seed__truncate_bits`, `ecdsa/util.py:128-140`; `bits` as above. -/
def truncateBits (py3 : Bool) (hash : Bytes → Bytes) (seed : Bytes) (order bits : Nat) : Py Nat := do
  let maxbytes := (bits + 7) / 8
  let base ← padSeed py3 maxbytes ((hash seed).take maxbytes)
  let topbits := 8 * maxbytes - bits
  let base ← if topbits ≠ 0 then
      match base with
      | [] => .error .indexError
      | b :: rest => .ok (UInt8.ofNat (b.toNat &&& lsbOfOnes topbits) :: rest)
    else .ok base
  seedNumber base order

/-! ## `rfc6979.py` -/

/-- `bit_length`, `rfc6979.py:30-34`, of a non-negative number: the digits left after stripping
`0b` and leading zeros. -/
def bitLength (num : Nat) : Nat := (digitsBE 2 num).length

/-- `bits2int`, `rfc6979.py:36-42`. -/
def bits2int (data : Bytes) (qlen : Nat) : Py Nat := do
  let x ← intOfHex (hexlify data)
  let l := data.length * 8
  if l > qlen then return x >>> (l - qlen)
  else return x

/-- `bits2octets`, `rfc6979.py:44-51`. -/
def bits2octets (data : Bytes) (order : Nat) : Py Bytes := do
  let z1 ← bits2int data (bitLength order)
  let z2 : Int := (z1 : Int) - order
  let z2 : Int := if z2 < 0 then z1 else z2
  numberToStringCrop z2 order

/-- `len(t) < rolen` with `rolen = (qlen + 7) / 8`, `rfc6979.py:64,92`: Python 2 divides integers,
Python 3 gives a float (exact here), i.e. `8 * len(t) < qlen + 7`. -/
def needMore (py3 : Bool) (tlen qlen : Nat) : Bool :=
  if py3 then decide (8 * tlen < qlen + 7) else decide (tlen < (qlen + 7) / 8)

/-- Step H2, `rfc6979.py:92-94`: extend `t` until long enough; returns `(v, t)`.
Fuel: `qlen + 8` rounds (each adds at least one byte). -/
def stepH2 (hmac : Bytes → Bytes → Bytes) (py3 : Bool) (qlen : Nat) (k : Bytes) :
    Nat → Bytes → Bytes → Bytes × Bytes
  | 0, v, t => (v, t)
  | fuel + 1, v, t =>
    if needMore py3 t.length qlen then
      let v := hmac k v
      stepH2 hmac py3 qlen k fuel v (t ++ v)
    else (v, t)

/-- Step H, `rfc6979.py:87-103`.  The Python loop is unbounded: `none` says that `fuel` rounds were
not enough. -/
def stepH (hmac : Bytes → Bytes → Bytes) (py3 : Bool) (order qlen : Nat) :
    Nat → Bytes → Bytes → Py (Option Nat)
  | 0, _, _ => .ok none
  | fuel + 1, k, v => do
    let (v, t) := stepH2 hmac py3 qlen k (qlen + 8) v []
    let secret ← bits2int t qlen
    if secret ≥ 1 ∧ secret < order then return some secret
    else
      let k := hmac k (v ++ [0])
      let v := hmac k v
      stepH hmac py3 order qlen fuel k v

/-- `generate_k`, `rfc6979.py:54-103`: `hmac key message` with digests of `holen` bytes, the group
order and the secret. -/
def generateK (hmac : Bytes → Bytes → Bytes) (holen : Nat) (py3 : Bool) (order : Nat) (secexp : Int)
    (data : Bytes) (fuel : Nat) : Py (Option Nat) := do
  let qlen := bitLength order
  let bx := (← numberToString secexp order) ++ (← bits2octets data order)
  let v := List.replicate holen (1 : UInt8)
  let k := List.replicate holen (0 : UInt8)
  let k := hmac k (v ++ [0] ++ bx)
  let v := hmac k v
  let k := hmac k (v ++ [1] ++ bx)
  let v := hmac k v
  stepH hmac py3 order qlen fuel k v

/-! ## canonical signatures -/

/-- Round a natural number to 53 significant bits, ties to even: the significand of the Python float
`float(n)`. For `ecdsa/util.py:204-205`. -/
def round53 (n : Nat) : Nat :=
  let sz := bitLength n
  if sz ≤ 53 then n
  else
    let sh := sz - 53
    let q := n >>> sh
    let r := n % 2 ^ sh
    let half := 2 ^ (sh - 1)
    let q := if r > half ∨ (r = half ∧ q % 2 = 1) then q + 1 else q
    q <<< sh

/-- `if s > order / 2: s = order - s`, `ecdsa/util.py:204-205` and its copies.  `order / 2` is a true
division: the float nearest to the quotient, i.e. `round53 order` halved (orders are far below the
float overflow limit); comparing an integer with a float is exact in Python. -/
def canonizeS (s : Int) (order : Nat) : Int :=
  if 2 * s > (round53 order : Int) then order - s else s

/-- `sigencode_strings_canonize`, `ecdsa/util.py:203-206`. -/
def sigencodeStringsCanonize (r s : Int) (order : Nat) : Py (Bytes × Bytes) := do
  let s := canonizeS s order
  return (← numberToString r order, ← numberToString s order)

/-- `sigencode_string_canonize`, `ecdsa/util.py:208-211`. -/
def sigencodeStringCanonize (r s : Int) (order : Nat) : Py Bytes :=
  Der.sigencodeString r (canonizeS s order) order

/-- `sigencode_der_canonize`, `ecdsa/util.py:213-216`. -/
def sigencodeDerCanonize (r s : Int) (order : Nat) : Py Bytes :=
  Der.sigencodeDer r (canonizeS s order)

end NBC.Ecdsa
