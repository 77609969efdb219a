import Verif.Model.Curve
import Verif.Model.Bytes

/-!
# `nbc/util/ecdsa/ecdsa.py` and `nbc/util/ecdsa/curves.py`
-/

namespace NBC.Ecdsa
open NBC NT EC

/-- `Public_key`, `ecdsa.py:72-90`: the generator and the key point (on the curve `C`). -/
structure PublicKey where
  C : CurveFp
  generator : Pt
  point : Pt
  deriving DecidableEq, Repr

/-- `Public_key.__init__`, `ecdsa.py:76-90`.  Comparing the coordinate `None` of `INFINITY` with an
integer is a `TypeError` (Python 3). -/
def mkPublicKey (C : CurveFp) (generator point : Pt) : Py PublicKey :=
  match generator.order with
  | none => .error .runtimeError
  | some n =>
    if n = 0 then .error .runtimeError
    else do
      let r ← mul C point n
      if ¬ r.eq .inf then .error .runtimeError
      else match point.x, point.y with
        | some x, some y =>
          if x < 0 ∨ (n : Int) ≤ x ∨ y < 0 ∨ (n : Int) ≤ y then .error .runtimeError
          else .ok ⟨C, generator, point⟩
        | _, _ => .error .typeError

/-- `Public_key.verifies`, `ecdsa.py:93-111`.  The generator always has an order here (checked by
the constructor); `None % n` for the sum `INFINITY` is a `TypeError`. -/
def PublicKey.verifies (K : PublicKey) (hash r s : Int) : Py Bool :=
  match K.generator.order with
  | none => .error .typeError
  | some n =>
    if r < 1 ∨ r > n - 1 then .ok false
    else if s < 1 ∨ s > n - 1 then .ok false
    else do
      let c ← inverseMod s n
      let u1 := (hash * c) % (n : Int)
      let u2 := (r * c) % (n : Int)
      let xy ← add K.C (← mul K.C K.generator u1) (← mul K.C K.point u2)
      match xy.x with
      | none => .error .typeError
      | some x =>
        let v := x % (n : Int)
        return v == r

/-- `Private_key.sign`, `ecdsa.py:127-151`.  When `k * G` is `INFINITY`, `r` is `None`: it is not
`0`, and `secret_multiplier * None` is a `TypeError` (reached only if `inverse_mod` accepts `k`). -/
def sign (K : PublicKey) (secretMultiplier hash randomK : Int) : Py (Int × Int) :=
  match K.generator.order with
  | none => .error .typeError
  | some n => do
    let k := randomK % (n : Int)
    let p1 ← mul K.C K.generator k
    match p1.x with
    | none => do
      let _ ← inverseMod k n
      .error .typeError
    | some r =>
      if r = 0 then .error .runtimeError
      else do
        let s := ((← inverseMod k n) * (hash + (secretMultiplier * r) % (n : Int))) % (n : Int)
        if s = 0 then .error .runtimeError
        else return (r, s)

/-- The loop of `int_to_string`, `ecdsa.py:160-163`, with the list already in final order.
Fuel: `x`. -/
def intToStringLoop : Nat → Nat → Bytes → Bytes
  | 0, _, acc => acc
  | fuel + 1, x, acc =>
    if x = 0 then acc else intToStringLoop fuel (x >>> 8) (UInt8.ofNat (x &&& 0xff) :: acc)

/-- `int_to_string`, `ecdsa.py:155-166`. -/
def intToString (x : Int) : Py Bytes := do
  pyAssert (decide (x ≥ 0))
  if x = 0 then return [0]
  else return intToStringLoop x.toNat x.toNat []

/-- `string_to_int`, `ecdsa.py:169-175`. -/
def stringToInt (s : Bytes) : Nat := s.foldl (fun result c => 256 * result + c.toNat) 0

/-- `point_is_valid`, `ecdsa.py:190-204`, for a generator with order `n`. -/
def pointIsValid (C : CurveFp) (n : Nat) (x y : Int) : Py Bool :=
  if x < 0 ∨ (n : Int) ≤ x ∨ y < 0 ∨ (n : Int) ≤ y then .ok false
  else if ¬ C.containsPoint x y then .ok false
  else do
    let P ← mkPoint C x y none
    let r ← mul C P n
    if ¬ r.eq .inf then return false
    else return true

/-- `Curve`, `curves.py:12-22`. -/
structure Curve where
  name : String
  curve : CurveFp
  gx : Int
  gy : Int
  order : Nat
  oid : List Nat
  deriving DecidableEq, Repr

/-- `Curve.generator`: the `generator_*` constants carry their order. For `nbc/util/ecdsa/curves.py:12-22`. -/
def Curve.generator (c : Curve) : Pt := .aff c.gx c.gy (some c.order)

/-- `Curve.baselen`, `curves.py:18`. -/
def Curve.baselen (c : Curve) : Nat := orderlen c.order

/-- `NIST192p`, `ecdsa.py:206-216`, `curves.py:24-25`. -/
def nist192p : Curve where
  name := "NIST192p"
  curve := ⟨6277101735386680763835789423207666416083908700390324961279, -3,
    0x64210519e59c80e70fa7e9ab72243049feb8deecc146b9b1⟩
  gx := 0x188da80eb03090f67cbf20eb43a18800f4ff0afd82ff1012
  gy := 0x07192b95ffc8da78631011ed6b24cdd573f977a11e794811
  order := 6277101735386680763835789423176059013767194773182842284081
  oid := [1, 2, 840, 10045, 3, 1, 1]

/-- `NIST224p`, `ecdsa.py:219-229`, `curves.py:26-27`. -/
def nist224p : Curve where
  name := "NIST224p"
  curve := ⟨26959946667150639794667015087019630673557916260026308143510066298881, -3,
    0xb4050a850c04b3abf54132565044b0b7d7bfd8ba270b39432355ffb4⟩
  gx := 0xb70e0cbd6bb4bf7f321390b94a03c1d356c21122343280d6115c1d21
  gy := 0xbd376388b5f723fb4c22dfe6cd4375a05a07476444d5819985007e34
  order := 26959946667150639794667015087019625940457807714424391721682722368061
  oid := [1, 3, 132, 0, 33]

/-- `NIST256p`, `ecdsa.py:231-241`, `curves.py:28-29`. -/
def nist256p : Curve where
  name := "NIST256p"
  curve := ⟨115792089210356248762697446949407573530086143415290314195533631308867097853951, -3,
    0x5ac635d8aa3a93e7b3ebbd55769886bc651d06b0cc53b0f63bce3c3e27d2604b⟩
  gx := 0x6b17d1f2e12c4247f8bce6e563a440f277037d812deb33a0f4a13945d898c296
  gy := 0x4fe342e2fe1a7f9b8ee7eb4a7c0f9e162bce33576b315ececbb6406837bf51f5
  order := 115792089210356248762697446949407573529996955224135760342422259061068512044369
  oid := [1, 2, 840, 10045, 3, 1, 7]

/-- `NIST384p`, `ecdsa.py:243-253`, `curves.py:30-31`. -/
def nist384p : Curve where
  name := "NIST384p"
  curve := ⟨39402006196394479212279040100143613805079739270465446667948293404245721771496870329047266088258938001861606973112319, -3,
    0xb3312fa7e23ee7e4988e056be3f82d19181d9c6efe8141120314088f5013875ac656398d8a2ed19d2a85c8edd3ec2aef⟩
  gx := 0xaa87ca22be8b05378eb1c71ef320ad746e1d3b628ba79b9859f741e082542a385502f25dbf55296c3a545e3872760ab7
  gy := 0x3617de4a96262c6f5d9e98bf9292dc29f8f41dbd289a147ce9da3113b5f0b8c00a60b1ce1d7e819d7a431d7c90ea0e5f
  order := 39402006196394479212279040100143613805079739270465446667946905279627659399113263569398956308152294913554433653942643
  oid := [1, 3, 132, 0, 34]

/-- `NIST521p`, `ecdsa.py:255-265`, `curves.py:32-33`. -/
def nist521p : Curve where
  name := "NIST521p"
  curve := ⟨6864797660130609714981900799081393217269435300143305409394463459185543183397656052122559640661454554977296311391480858037121987999716643812574028291115057151, -3,
    0x051953eb9618e1c9a1f929a21a0b68540eea2da725b99b315f3b8b489918ef109e156193951ec7e937b1652c0bd3bb1bf073573df883d2c34f1ef451fd46b503f00⟩
  gx := 0xc6858e06b70404e9cd9e3ecb662395b4429c648139053fb521f828af606b4d3dbaa14b5e77efe75928fe1dc127a2ffa8de3348b3c1856a429bf97e7e31c2e5bd66
  gy := 0x11839296a789a3bc0045c8a5fb42c7d1bd998f54449579b446817afbd17273e662c97ee72995ef42640c550b9013fad0761353c7086a272c24088be94769fd16650
  order := 6864797660130609714981900799081393217269435300143305409394463459185543183397655394245057746333217197532963996371363321113864768612440380340372808892707005449
  oid := [1, 3, 132, 0, 35]

/-- `SECP256k1`, `ecdsa.py:267-276`, `curves.py:34-36`. -/
def secp256k1 : Curve where
  name := "SECP256k1"
  curve := ⟨0xfffffffffffffffffffffffffffffffffffffffffffffffffffffffefffffc2f, 0, 7⟩
  gx := 0x79be667ef9dcbbac55a06295ce870b07029bfcdb2dce28d959f2815b16f81798
  gy := 0x483ada7726a3c4655da4fbfc0e1108a8fd17b448a68554199c47d08ffb10d4b8
  order := 0xfffffffffffffffffffffffffffffffebaaedce6af48a03bbfd25e8cd0364141
  oid := [1, 3, 132, 0, 10]

/-- `curves`, `curves.py:38`. -/
def curves : List Curve := [nist192p, nist224p, nist256p, nist384p, nist521p, secp256k1]

/-- `find_curve`, `curves.py:40-46`. -/
def findCurve (oid : List Nat) : Py Curve :=
  match curves.find? (fun c => c.oid == oid) with
  | some c => .ok c
  | none => .error .unknownCurve

end NBC.Ecdsa
