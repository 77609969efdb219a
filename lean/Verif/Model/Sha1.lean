import Verif.Model.KeysSign
import Verif.Proofs.Sha

/-!
# The other hash functions of `hashlib` that a key object can carry, and `digest_integer`

`nbc/util/ecdsa/keys.py` and `rfc6979.py` take a hash function as an argument; `sha1` is the default.  As in
`Verif/Model/Sha.lean` the functions themselves are outside `/repo`: here they are after FIPS 180-4 and FIPS 198-1.
-/

namespace NBC.Sha

/-- The function of step `t` of SHA-1, 4.1.1, and its constant, 4.2.1.
For `nbc/util/hash.py:29-30`, `nbc/util/ecdsa/keys.py:11`. -/
def sha1F (t b c d : Nat) : Nat × Nat :=
  if t < 20 then (ch 32 b c d, 0x5a827999)
  else if t < 40 then (b ^^^ c ^^^ d, 0x6ed9eba1)
  else if t < 60 then (maj b c d, 0x8f1bbcdc)
  else (b ^^^ c ^^^ d, 0xca62c1d6)

/-- The message schedule, 6.1.2 step 1: `n` more words, newest first.
For `nbc/util/hash.py:29-30`, `nbc/util/ecdsa/keys.py:11`. -/
def sha1Schedule : Nat → List Nat → List Nat
  | 0, ws => ws
  | n + 1, ws => sha1Schedule n
      (rotr 32 31 (ws.getD 2 0 ^^^ ws.getD 7 0 ^^^ ws.getD 13 0 ^^^ ws.getD 15 0) :: ws)

/-- One step, 6.1.2 step 3. For `nbc/util/hash.py:29-30`, `nbc/util/ecdsa/keys.py:11`. -/
def sha1Step (v : Nat × Nat × Nat × Nat × Nat) (tw : Nat × Nat) : Nat × Nat × Nat × Nat × Nat :=
  match v with
  | (a, b, c, d, e) =>
    ((rotr 32 27 a + (sha1F tw.1 b c d).1 + e + (sha1F tw.1 b c d).2 + tw.2) % 2 ^ 32, a, rotr 32 2 b, c, d)

/-- One block, 6.1.2. For `nbc/util/hash.py:29-30`, `nbc/util/ecdsa/keys.py:11`. -/
def sha1Compress (hs : List Nat) (block : Bytes) : List Nat :=
  let ws := (sha1Schedule 64 ((pieces 4 16 block).map word).reverse).reverse
  match ((List.range 80).zip ws).foldl sha1Step
      (hs.getD 0 0, hs.getD 1 0, hs.getD 2 0, hs.getD 3 0, hs.getD 4 0) with
  | (a, b, c, d, e) =>
    [(a + hs.getD 0 0) % 2 ^ 32, (b + hs.getD 1 0) % 2 ^ 32, (c + hs.getD 2 0) % 2 ^ 32,
      (d + hs.getD 3 0) % 2 ^ 32, (e + hs.getD 4 0) % 2 ^ 32]

/-- SHA-1, 6.1. For `nbc/util/hash.py:29-30`, `nbc/util/ecdsa/keys.py:11`. -/
def sha1 (m : Bytes) : Bytes :=
  let padded := pad 64 8 (unword 8) m
  let hs := (pieces 64 (padded.length / 64) padded).foldl sha1Compress
    [0x67452301, 0xefcdab89, 0x98badcfe, 0x10325476, 0xc3d2e1f0]
  (hs.map (unword 4)).flatten

/-- The constants of SHA-224, 5.3.2. For `nbc/util/ecdsa/keys.py:222-263`. -/
def p224 : Params :=
  { p256 with init := [
    0xc1059ed8, 0x367cd507, 0x3070dd17, 0xf70e5939, 0xffc00b31, 0x68581511, 0x64f98fa7, 0xbefa4fa4] }

/-- The constants of SHA-384, 5.3.4. For `nbc/util/ecdsa/keys.py:222-263`. -/
def p384 : Params :=
  { p512 with init := [
    0xcbbb9d5dc1059ed8, 0x629a292a367cd507, 0x9159015a3070dd17, 0x152fecd8f70e5939,
    0x67332667ffc00b31, 0x8eb44a8768581511, 0xdb0c2e0d64f98fa7, 0x47b5481dbefa4fa4] }

/-- SHA-224, 6.3. For `nbc/util/ecdsa/keys.py:222-263`. -/
def sha224 (m : Bytes) : Bytes := (sha2 p224 m).take 28

/-- SHA-384, 6.5. For `nbc/util/ecdsa/keys.py:222-263`. -/
def sha384 (m : Bytes) : Bytes := (sha2 p384 m).take 48

/-- HMAC, FIPS 198-1, with a hash function of blocks of `block` bytes. For `nbc/util/ecdsa/rfc6979.py:63-94`. -/
def hmac (hash : Bytes → Bytes) (block : Nat) (key m : Bytes) : Bytes :=
  let k0 := if block < key.length then hash key else key
  let k := k0 ++ List.replicate (block - k0.length) 0
  hash (k.map (· ^^^ 0x5c) ++ hash (k.map (· ^^^ 0x36) ++ m))

open NBC.Ecdsa

/-- The function of a name. For `nbc/util/ecdsa/keys.py:222-263`. -/
def digest : HashName → Bytes → Bytes
  | .sha1 => sha1
  | .sha224 => sha224
  | .sha256 => sha256
  | .sha384 => sha384
  | .sha512 => sha512

/-- `block_size` of a name. For `nbc/util/ecdsa/rfc6979.py:63-94`. -/
def blockSize : HashName → Nat
  | .sha1 | .sha224 | .sha256 => 64
  | .sha384 | .sha512 => 128

theorem sha1_length (m : Bytes) : (sha1 m).length = 20 := by
  simp only [sha1]
  rw [flatten_length _ 4 (unword_length 4), foldl_length sha1Compress 5 (fun _ _ => rfl) _ rfl]

theorem digest_length (h : HashName) (m : Bytes) : (digest h m).length = h.size := by
  cases h
  · exact sha1_length m
  · rw [digest, sha224, List.length_take, sha2_length p224 rfl]; rfl
  · exact sha256_length m
  · rw [digest, sha384, List.length_take, sha2_length p384 rfl]; rfl
  · exact sha512_length m

/-- The real family: every theorem about a `HashFamily` holds of it. For `nbc/util/ecdsa/keys.py:222-263`. -/
def family : HashFamily where
  digest := digest
  hmac h := hmac (digest h) (blockSize h)
  digest_length := digest_length
  hmac_length h _ _ := digest_length h _

theorem hmac_sha512 : hmac sha512 128 = hmacSha512 := rfl

end NBC.Sha

namespace NBC.Ecdsa

/-- `digest_integer`, `ecdsa.py:178-187`. -/
def digestInteger (m : Int) : Py Nat := do
  let s ← intToString m
  return stringToInt (Sha.sha1 s)

end NBC.Ecdsa
