import Verif.Model.Ecdsa
import Verif.Model.Rand
import Verif.Model.Key

/-!
# `nbc/util/ecdsa/keys.py`, `nbc/util/key.py` (compression) and `nbc/util/ecc.py`

The default `hashfunc` attribute of the keys is not modelled: every function below works on digests.
-/

namespace NBC.Ecdsa
open NBC NT EC Der

/-- `Curve.encoded_oid`, `curves.py:22`. -/
def Curve.encodedOid (c : Curve) : Py Bytes :=
  match c.oid with
  | a :: b :: rest => encodeOid a b rest
  | _ => .error .typeError

/-- `oid_ecPublicKey`, `util.py:16`. -/
def oidEcPublicKey : List Nat := [1, 2, 840, 10045, 2, 1]

/-- `encoded_oid_ecPublicKey`, `util.py:17`. -/
def encodedOidEcPublicKey : Py Bytes := encodeOid 1 2 [840, 10045, 2, 1]

/-- `VerifyingKey`, `keys.py:18-30`: the curve and the `Public_key` (whose `order` attribute is the
curve's). -/
structure VerifyingKey where
  curve : Curve
  pubkey : PublicKey
  deriving DecidableEq, Repr

/-- `VerifyingKey.from_public_point`, `keys.py:24-30`. -/
def VerifyingKey.fromPublicPoint (point : Pt) (c : Curve) : Py VerifyingKey := do
  let pk ← mkPublicKey c.curve c.generator point
  return ⟨c, pk⟩

/-- `VerifyingKey.from_string`, `keys.py:33-48`, with `validate_point=True`. -/
def VerifyingKey.fromString (string : Bytes) (c : Curve) : Py VerifyingKey := do
  pyAssert (string.length == 2 * c.baselen)
  let xs := string.take c.baselen
  let ys := string.drop c.baselen
  pyAssert (xs.length == c.baselen)
  pyAssert (ys.length == c.baselen)
  let x ← stringToNumber xs
  let y ← stringToNumber ys
  pyAssert (← pointIsValid c.curve c.order x y)
  let point ← mkPoint c.curve x y (some c.order)
  VerifyingKey.fromPublicPoint point c

/-- `VerifyingKey.to_string`, `keys.py:77-84`; the coordinates of `INFINITY` are `None`, which `%x`
refuses. -/
def VerifyingKey.toStr (vk : VerifyingKey) : Py Bytes :=
  match vk.pubkey.point.x, vk.pubkey.point.y with
  | some x, some y => do
    return (← numberToString x vk.curve.order) ++ (← numberToString y vk.curve.order)
  | _, _ => .error .typeError

/-- `VerifyingKey.to_der`, `keys.py:89-96`. -/
def VerifyingKey.toDer (vk : VerifyingKey) : Py Bytes := do
  let pointStr := [0x00, 0x04] ++ (← vk.toStr)
  let inner ← encodeSequence [← encodedOidEcPublicKey, ← vk.curve.encodedOid]
  encodeSequence [inner, ← encodeBitstring pointStr]

/-- `VerifyingKey.from_der`, `keys.py:55-75`. -/
def VerifyingKey.fromDer (string : Bytes) : Py VerifyingKey := do
  let (s1, empty) ← removeSequence string
  if empty ≠ [] then .error .unexpectedDER
  else
    let (s2, pointStrBitstring) ← removeSequence s1
    let (oidPk, rest) ← removeObject s2
    let (oidCurve, empty) ← removeObject rest
    if empty ≠ [] then .error .unexpectedDER
    else
      pyAssert (oidPk == oidEcPublicKey)
      let curve ← findCurve oidCurve
      let (pointStr, empty) ← removeBitstring pointStrBitstring
      if empty ≠ [] then .error .unexpectedDER
      else
        pyAssert (pointStr.take 2 == [0x00, 0x04])
        VerifyingKey.fromString (pointStr.drop 2) curve

/-- `VerifyingKey.verify_digest`, `keys.py:103-113`, for a decoder that ignores its order
argument or has it applied (signatures are byte strings, or pairs of them for `sigdecode_strings`). -/
def VerifyingKey.verifyDigest {σ : Type} (vk : VerifyingKey) (signature : σ) (digest : Bytes)
    (sigdecode : σ → Py (Nat × Nat)) : Py Bool := do
  if digest.length > vk.curve.baselen then .error .badDigest
  else
    let number ← stringToNumber digest
    let (r, s) ← sigdecode signature
    if ← vk.pubkey.verifies number r s then return true
    else .error .badSignature

/-- `SigningKey`, `keys.py:115-145`. -/
structure SigningKey where
  curve : Curve
  verifyingKey : VerifyingKey
  pubkey : PublicKey
  secretMultiplier : Int
  deriving DecidableEq, Repr

/-- `SigningKey.from_secret_exponent`, `keys.py:131-145`. -/
def SigningKey.fromSecretExponent (secexp : Int) (c : Curve) : Py SigningKey := do
  pyAssert (decide (1 ≤ secexp) && decide (secexp < c.order))
  let pubkeyPoint ← mul c.curve c.generator secexp
  let pubkey ← mkPublicKey c.curve c.generator pubkeyPoint
  let vk ← VerifyingKey.fromPublicPoint pubkeyPoint c
  return ⟨c, vk, pubkey, secexp⟩

/-- `SigningKey.generate`, `keys.py:121-123`. -/
def SigningKey.generate (c : Curve) (entropy : Nat → Nat → Bytes) : Py SigningKey := do
  let secexp ← randrange c.order entropy
  SigningKey.fromSecretExponent secexp c

/-- `SigningKey.from_string`, `keys.py:148-151`. -/
def SigningKey.fromString (string : Bytes) (c : Curve) : Py SigningKey := do
  pyAssert (string.length == c.baselen)
  let secexp ← stringToNumber string
  SigningKey.fromSecretExponent secexp c

/-- `SigningKey.to_string`, `keys.py:200-203`. -/
def SigningKey.toStr (sk : SigningKey) : Py Bytes := numberToString sk.secretMultiplier sk.curve.order

/-- `SigningKey.to_der`, `keys.py:209-217`. -/
def SigningKey.toDer (sk : SigningKey) : Py Bytes := do
  let encodedVk := [0x00, 0x04] ++ (← sk.verifyingKey.toStr)
  encodeSequence [← encodeInteger 1, ← encodeOctetString (← sk.toStr),
    ← encodeConstructed 0 (← sk.curve.encodedOid),
    ← encodeConstructed 1 (← encodeBitstring encodedVk)]

/-- `SigningKey.from_der`, `keys.py:162-198`. -/
def SigningKey.fromDer (string : Bytes) : Py SigningKey := do
  let (s, empty) ← removeSequence string
  if empty ≠ [] then .error .unexpectedDER
  else
    let (one, s) ← removeInteger s
    if one ≠ 1 then .error .unexpectedDER
    else
      let (privkeyStr, s) ← removeOctetString s
      let (tag, curveOidStr, _) ← removeConstructed s
      if tag ≠ 0 then .error .unexpectedDER
      else
        let (curveOid, empty) ← removeObject curveOidStr
        if empty ≠ [] then .error .unexpectedDER
        else
          let curve ← findCurve curveOid
          let privkeyStr := if privkeyStr.length < curve.baselen then
            List.replicate (curve.baselen - privkeyStr.length) 0 ++ privkeyStr else privkeyStr
          SigningKey.fromString privkeyStr curve

/-- `SigningKey.sign_number`, `keys.py:265-282`, with the nonce already chosen. -/
def SigningKey.signNumber (sk : SigningKey) (number k : Int) : Py (Int × Int) := do
  pyAssert (decide (1 ≤ k) && decide (k < sk.curve.order))
  sign sk.pubkey sk.secretMultiplier number k

/-- `SigningKey.sign_digest`, `keys.py:256-263`, with the nonce already chosen. -/
def SigningKey.signDigest {σ : Type} (sk : SigningKey) (digest : Bytes)
    (sigencode : Int → Int → Py σ) (k : Int) : Py σ := do
  if digest.length > sk.curve.baselen then .error .badDigest
  else
    let number ← stringToNumber digest
    let (r, s) ← sk.signNumber number k
    sigencode r s

/-- `SigningKey.sign_digest`, `keys.py:256-263`, with `k=None`: the nonce comes from `randrange`. -/
def SigningKey.signDigestRandom {σ : Type} (sk : SigningKey) (digest : Bytes)
    (sigencode : Int → Int → Py σ) (entropy : Nat → Nat → Bytes) : Py σ := do
  if digest.length > sk.curve.baselen then .error .badDigest
  else
    let number ← stringToNumber digest
    let k ← randrange sk.curve.order entropy
    let (r, s) ← sk.signNumber number k
    sigencode r s

end NBC.Ecdsa

namespace NBC.Key
open NBC NT EC Ecdsa

/-- `compress_public_key`, `key.py:45-49`. -/
def compressPublicKey (publicKey : Bytes) : Py Bytes := do
  let c ← pyIndex publicKey 0
  if c ≠ 4 ∨ publicKey.length ≠ 65 then .error .valueError
  else
    let yParity ← stringToNumber ((publicKey.drop 33).take 32)
    return [UInt8.ofNat (0x02 + (yParity &&& 0x01))] ++ (publicKey.drop 1).take 32

/-- `decompress_public_key`, `key.py:56-76`, with the module-level constants `curve`, `_a`, `_b`,
`_p`, `_n` (`key.py:27,51-54`) taken from `c`. -/
def decompressOn (c : Curve) (publicKey : Bytes) : Py Bytes := do
  let ch ← pyIndex publicKey 0
  if ch = 4 ∧ publicKey.length = 65 then
    let x ← stringToNumber ((publicKey.drop 1).take 32)
    let y ← stringToNumber ((publicKey.drop 33).take 32)
    if ¬ (← pointIsValid c.curve c.order x y) then .error .valueError
    else return publicKey
  else if (ch ≠ 2 ∧ ch ≠ 3) ∨ publicKey.length ≠ 33 then .error .valueError
  else
    let x ← stringToNumber (publicKey.drop 1)
    let y ← squareRootModPrime (((x : Int) ^ 3 + c.curve.a * x + c.curve.b) % (c.curve.p : Int)) c.curve.p
    if ¬ (← pointIsValid c.curve c.order x y) then .error .valueError
    else
      let y := if (ch.toNat % 2 : Int) ≠ y % 2 then (c.curve.p : Int) - y else y
      return [0x04] ++ publicKey.drop 1 ++ (← numberToString y c.order)

/-- `decompress_public_key`, `key.py:56-76`: the constants are those of SECP256k1. -/
def decompressPublicKey (publicKey : Bytes) : Py Bytes := decompressOn secp256k1 publicKey

end NBC.Key

namespace NBC.Ecc
open NBC NT EC Ecdsa Der Key

/-- `sign`, `ecc.py:76-78`. -/
def sign (H : Hashes) (data privateKey : Bytes) (entropy : Nat → Nat → Bytes) : Py Bytes := do
  let key ← SigningKey.fromString privateKey secp256k1
  key.signDigestRandom (H.sha256d data) sigencodeDer entropy

/-- `except ValueError`: `binascii.Error` is a subclass of `ValueError`. For `ecc.py:81-91`. -/
def isValueError : PyErr → Bool
  | .valueError => true
  | .binasciiError => true
  | _ => false

/-- `verify`, `ecc.py:81-91`. -/
def verify (H : Hashes) (data publicKey signature : Bytes) : Py Bool :=
  match decompressPublicKey publicKey with
  | .error e => if isValueError e then .ok false else .error e
  | .ok publicKey => do
    let key ← VerifyingKey.fromString (publicKey.drop 1) secp256k1
    match key.verifyDigest signature (H.sha256d data) eccSigdecodeDer with
    | .ok b => .ok b
    | .error .badSignature => .ok false
    | .error e => .error e

/-- `shared_secret`, `ecc.py:94-107`; `%x` of the coordinate `None` of `INFINITY` is a `TypeError`. -/
def sharedSecret (H : Hashes) (publicKey privateKey : Bytes) : Py Bytes := do
  let publicKey ← decompressPublicKey publicKey
  let x ← stringToNumber ((publicKey.drop 1).take 32)
  let y ← stringToNumber (publicKey.drop 33)
  let publicPoint ← mkPoint secp256k1.curve x y none
  let privkey ← privkeyFromWif H privateKey 0x80
  let secexp ← stringToNumber privkey
  let sharedPoint ← mul secp256k1.curve publicPoint secexp
  match sharedPoint.x with
  | some x => numberToString x secp256k1.order
  | none => .error .typeError

end NBC.Ecc
