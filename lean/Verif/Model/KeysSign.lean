import Verif.Model.Pem

/-!
# Signing and verifying data: the hashing half of `nbc/util/ecdsa/keys.py`

The hash constructors of `hashlib` are external: a family gives the digest and the HMAC of every
name, and only their lengths are known.  A key object carries the name of its default hash function.
-/

namespace NBC.Ecdsa
open NBC

/-- The hash functions that may be passed as `hashfunc` (`sha1` is the default, `keys.py:11,24,131`). -/
inductive HashName where
  | sha1
  | sha224
  | sha256
  | sha384
  | sha512
  deriving DecidableEq, Repr

/-- `hash_func().digest_size`, `rfc6979.py:63`. -/
def HashName.size : HashName → Nat
  | .sha1 => 20
  | .sha224 => 28
  | .sha256 => 32
  | .sha384 => 48
  | .sha512 => 64

/-- `hashfunc(data).digest()` and `hmac.new(key, msg, hashfunc).digest()`. For `keys.py:98-101`, `keys.py:239-254`. -/
structure HashFamily where
  digest : HashName → Bytes → Bytes
  hmac : HashName → Bytes → Bytes → Bytes
  digest_length : ∀ h x, (digest h x).length = h.size
  hmac_length : ∀ h k x, (hmac h k x).length = h.size

/-- A `VerifyingKey` with its attribute `default_hashfunc`, `keys.py:24-30`. -/
structure HVerifyingKey where
  key : VerifyingKey
  defaultHash : HashName
  deriving DecidableEq, Repr

/-- A `SigningKey` with its attribute `default_hashfunc` (its `verifying_key` is built with the same
one), `keys.py:131-145`. -/
structure HSigningKey where
  key : SigningKey
  defaultHash : HashName
  deriving DecidableEq, Repr

/-- `SigningKey.from_secret_exponent`, `keys.py:131-145`. -/
def HSigningKey.fromSecretExponent (secexp : Int) (c : Curve) (h : HashName) : Py HSigningKey := do
  return ⟨← SigningKey.fromSecretExponent secexp c, h⟩

/-- `SigningKey.get_verifying_key`, `keys.py:219-220`. -/
def HSigningKey.getVerifyingKey (sk : HSigningKey) : HVerifyingKey := ⟨sk.key.verifyingKey, sk.defaultHash⟩

/-- `SigningKey.from_pem` with its `hashfunc` argument, `keys.py:154-160`. -/
def HSigningKey.fromPem (string : Bytes) (h : HashName := .sha1) : Py HSigningKey := do
  return ⟨← SigningKey.fromPem string, h⟩

/-- `VerifyingKey.from_pem` and `from_der`, `keys.py:51-75`: no `hashfunc` argument, so
`from_string` uses its default `sha1`. -/
def HVerifyingKey.fromPem (string : Bytes) : Py HVerifyingKey := do
  return ⟨← VerifyingKey.fromPem string, .sha1⟩

/-- `VerifyingKey.verify`, `keys.py:98-101`. -/
def HVerifyingKey.verify {σ : Type} (F : HashFamily) (vk : HVerifyingKey) (signature : σ)
    (data : Bytes) (hashfunc : Option HashName) (sigdecode : σ → Nat → Py (Nat × Nat)) : Py Bool :=
  let hashfunc := hashfunc.getD vk.defaultHash
  let digest := F.digest hashfunc data
  vk.key.verifyDigest signature digest (fun sig => sigdecode sig vk.key.curve.order)

/-- `SigningKey.sign`, `keys.py:239-254`, with `k` given or drawn from `entropy`. -/
def HSigningKey.sign {σ : Type} (F : HashFamily) (sk : HSigningKey) (data : Bytes)
    (entropy : Nat → Nat → Bytes) (hashfunc : Option HashName) (sigencode : Int → Int → Nat → Py σ)
    (k : Option Int) : Py σ :=
  let hashfunc := hashfunc.getD sk.defaultHash
  let h := F.digest hashfunc data
  let enc := fun r s => sigencode r s sk.key.curve.order
  match k with
  | some k => sk.key.signDigest h enc k
  | none => sk.key.signDigestRandom h enc entropy

/-- `SigningKey.sign_digest_deterministic`, `keys.py:228-237`.  With `hashfunc=None`, the default of
the parameter, `hash_func()` at `rfc6979.py:63` raises `TypeError`.  The loop of `generate_k` is
unbounded: `none` says that `fuel` rounds were not enough. -/
def HSigningKey.signDigestDeterministic {σ : Type} (F : HashFamily) (py3 : Bool) (sk : HSigningKey)
    (digest : Bytes) (hashfunc : Option HashName) (sigencode : Int → Int → Nat → Py σ) (fuel : Nat) :
    Py (Option σ) :=
  match hashfunc with
  | none => .error .typeError
  | some h => do
    match ← generateK (F.hmac h) h.size py3 sk.key.curve.order sk.key.secretMultiplier digest fuel with
    | none => return none
    | some k =>
      let sig ← sk.key.signDigest digest (fun r s => sigencode r s sk.key.curve.order) k
      return some sig

/-- `SigningKey.sign_deterministic`, `keys.py:222-226`. -/
def HSigningKey.signDeterministic {σ : Type} (F : HashFamily) (py3 : Bool) (sk : HSigningKey)
    (data : Bytes) (hashfunc : Option HashName) (sigencode : Int → Int → Nat → Py σ) (fuel : Nat) :
    Py (Option σ) :=
  let hashfunc := hashfunc.getD sk.defaultHash
  let digest := F.digest hashfunc data
  sk.signDigestDeterministic F py3 digest (some hashfunc) sigencode fuel

end NBC.Ecdsa
