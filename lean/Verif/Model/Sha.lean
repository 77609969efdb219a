import Verif.Model.Py

/-!
# The hash functions of `hashlib` that the code uses

`nbc/util/hash.py:29-42` and `nbc/util/key.py:109-112` call SHA-256, SHA-512 and RIPEMD-160 of Python's `hashlib`, and
`nbc/wallet/hdwallet.py` calls `hmac`.  These are outside `/repo`; the model is over any functions with the right
output lengths (`Hashes`).  Here are the real ones, from FIPS 180-4, FIPS 198-1 and the RIPEMD-160
paper, on bytes.  Words are natural numbers below `2 ^ 32` or `2 ^ 64`.
-/

namespace NBC.Sha

/-- The big-endian value of bytes. For `nbc/util/hash.py:32-33`, `nbc/util/key.py:109`. -/
def word (b : Bytes) : Nat := b.foldl (fun a c => 256 * a + c.toNat) 0

/-- `n` bytes, big endian. For `nbc/util/hash.py:32-33`, `nbc/util/key.py:109`. -/
def unword : Nat → Nat → Bytes
  | 0, _ => []
  | n + 1, x => UInt8.ofNat (x / 256 ^ n % 256) :: unword n x

/-- `n` pieces of `k` bytes. For `nbc/util/hash.py:32-33`, `nbc/util/key.py:109`. -/
def pieces (k : Nat) : Nat → Bytes → List Bytes
  | 0, _ => []
  | n + 1, b => b.take k :: pieces k n (b.drop k)

/-- `x >>> n` within words of `w` bits (`ROTR`). For `nbc/util/hash.py:32-33`, `nbc/util/key.py:109`. -/
def rotr (w n x : Nat) : Nat := (x >>> n) ||| (x <<< (w - n) % 2 ^ w)

/-- The two versions of SHA-2: the word size, the constants, the initial value and the rotations.
For `nbc/util/hash.py:32-33`, `nbc/util/key.py:109`. -/
structure Params where
  w : Nat
  k : List Nat
  init : List Nat
  big0 : Nat × Nat × Nat
  big1 : Nat × Nat × Nat
  small0 : Nat × Nat × Nat
  small1 : Nat × Nat × Nat

/-- FIPS 180-4, 4.1.2 and 4.1.3: three rotations. For `nbc/util/hash.py:32-33`, `nbc/util/key.py:109`. -/
def bigSigma (w : Nat) (r : Nat × Nat × Nat) (x : Nat) : Nat := rotr w r.1 x ^^^ rotr w r.2.1 x ^^^ rotr w r.2.2 x

/-- Two rotations and a shift. For `nbc/util/hash.py:32-33`, `nbc/util/key.py:109`. -/
def smallSigma (w : Nat) (r : Nat × Nat × Nat) (x : Nat) : Nat := rotr w r.1 x ^^^ rotr w r.2.1 x ^^^ (x >>> r.2.2)

/-- `Ch`; for `nbc/util/hash.py:32-33`, `nbc/util/key.py:109` -/
def ch (w x y z : Nat) : Nat := (x &&& y) ^^^ ((2 ^ w - 1 - x) &&& z)

/-- `Maj`; for `nbc/util/hash.py:32-33`, `nbc/util/key.py:109` -/
def maj (x y z : Nat) : Nat := (x &&& y) ^^^ (x &&& z) ^^^ (y &&& z)

/-- The message schedule, 6.2.2 step 1: `n` more words behind the last sixteen, newest first.
For `nbc/util/hash.py:32-33`, `nbc/util/key.py:109`. -/
def schedule (P : Params) : Nat → List Nat → List Nat
  | 0, ws => ws
  | n + 1, ws => schedule P n
      ((smallSigma P.w P.small1 (ws.getD 1 0) + ws.getD 6 0 + smallSigma P.w P.small0 (ws.getD 14 0) +
        ws.getD 15 0) % 2 ^ P.w :: ws)

/-- The working variables. For `nbc/util/hash.py:32-33`, `nbc/util/key.py:109`. -/
structure Vars where
  a : Nat
  b : Nat
  c : Nat
  d : Nat
  e : Nat
  f : Nat
  g : Nat
  h : Nat

/-- One round, 6.2.2 step 3, with constant and word. For `nbc/util/hash.py:32-33`, `nbc/util/key.py:109`. -/
def round (P : Params) (v : Vars) (kw : Nat × Nat) : Vars :=
  let t1 := v.h + bigSigma P.w P.big1 v.e + ch P.w v.e v.f v.g + kw.1 + kw.2
  let t2 := bigSigma P.w P.big0 v.a + maj v.a v.b v.c
  ⟨(t1 + t2) % 2 ^ P.w, v.a, v.b, v.c, (v.d + t1) % 2 ^ P.w, v.e, v.f, v.g⟩

/-- One block, 6.2.2. For `nbc/util/hash.py:32-33`, `nbc/util/key.py:109`. -/
def compress (P : Params) (hs : List Nat) (block : Bytes) : List Nat :=
  let ws := (schedule P (P.k.length - 16) ((pieces (P.w / 8) 16 block).map word).reverse).reverse
  let v := (P.k.zip ws).foldl (round P)
    ⟨hs.getD 0 0, hs.getD 1 0, hs.getD 2 0, hs.getD 3 0, hs.getD 4 0, hs.getD 5 0, hs.getD 6 0, hs.getD 7 0⟩
  [(v.a + hs.getD 0 0) % 2 ^ P.w, (v.b + hs.getD 1 0) % 2 ^ P.w, (v.c + hs.getD 2 0) % 2 ^ P.w,
    (v.d + hs.getD 3 0) % 2 ^ P.w, (v.e + hs.getD 4 0) % 2 ^ P.w, (v.f + hs.getD 5 0) % 2 ^ P.w,
    (v.g + hs.getD 6 0) % 2 ^ P.w, (v.h + hs.getD 7 0) % 2 ^ P.w]

/-- Padding, 5.1: a one bit, zeros, and the length in bits, to whole blocks of `block` bytes; `len` is what
encodes the length. For `nbc/util/hash.py:32-33`, `nbc/util/key.py:109`. -/
def pad (block lenBytes : Nat) (len : Nat → Bytes) (m : Bytes) : Bytes :=
  m ++ 0x80 :: List.replicate ((block - (m.length + 1 + lenBytes) % block) % block) 0 ++ len (8 * m.length)

/-- The hash of a message, 6.2 and 6.4. For `nbc/util/hash.py:32-33`, `nbc/util/key.py:109`. -/
def sha2 (P : Params) (m : Bytes) : Bytes :=
  let padded := pad (2 * P.w) (P.w / 4) (unword (P.w / 4)) m
  let hs := (pieces (2 * P.w) (padded.length / (2 * P.w)) padded).foldl (compress P) P.init
  (hs.map (unword (P.w / 8))).flatten

/-- The constants of SHA-256, 4.2.2 and 5.3.3. For `nbc/util/hash.py:32-33`. -/
def p256 : Params where
  w := 32
  k := [
    0x428a2f98, 0x71374491, 0xb5c0fbcf, 0xe9b5dba5, 0x3956c25b, 0x59f111f1, 0x923f82a4, 0xab1c5ed5,
    0xd807aa98, 0x12835b01, 0x243185be, 0x550c7dc3, 0x72be5d74, 0x80deb1fe, 0x9bdc06a7, 0xc19bf174,
    0xe49b69c1, 0xefbe4786, 0x0fc19dc6, 0x240ca1cc, 0x2de92c6f, 0x4a7484aa, 0x5cb0a9dc, 0x76f988da,
    0x983e5152, 0xa831c66d, 0xb00327c8, 0xbf597fc7, 0xc6e00bf3, 0xd5a79147, 0x06ca6351, 0x14292967,
    0x27b70a85, 0x2e1b2138, 0x4d2c6dfc, 0x53380d13, 0x650a7354, 0x766a0abb, 0x81c2c92e, 0x92722c85,
    0xa2bfe8a1, 0xa81a664b, 0xc24b8b70, 0xc76c51a3, 0xd192e819, 0xd6990624, 0xf40e3585, 0x106aa070,
    0x19a4c116, 0x1e376c08, 0x2748774c, 0x34b0bcb5, 0x391c0cb3, 0x4ed8aa4a, 0x5b9cca4f, 0x682e6ff3,
    0x748f82ee, 0x78a5636f, 0x84c87814, 0x8cc70208, 0x90befffa, 0xa4506ceb, 0xbef9a3f7, 0xc67178f2]
  init := [
    0x6a09e667, 0xbb67ae85, 0x3c6ef372, 0xa54ff53a, 0x510e527f, 0x9b05688c, 0x1f83d9ab, 0x5be0cd19]
  big0 := (2, 13, 22)
  big1 := (6, 11, 25)
  small0 := (7, 18, 3)
  small1 := (17, 19, 10)

/-- The constants of SHA-512, 4.2.3 and 5.3.5. For `nbc/util/key.py:109`. -/
def p512 : Params where
  w := 64
  k := [
    0x428a2f98d728ae22, 0x7137449123ef65cd, 0xb5c0fbcfec4d3b2f, 0xe9b5dba58189dbbc,
    0x3956c25bf348b538, 0x59f111f1b605d019, 0x923f82a4af194f9b, 0xab1c5ed5da6d8118,
    0xd807aa98a3030242, 0x12835b0145706fbe, 0x243185be4ee4b28c, 0x550c7dc3d5ffb4e2,
    0x72be5d74f27b896f, 0x80deb1fe3b1696b1, 0x9bdc06a725c71235, 0xc19bf174cf692694,
    0xe49b69c19ef14ad2, 0xefbe4786384f25e3, 0x0fc19dc68b8cd5b5, 0x240ca1cc77ac9c65,
    0x2de92c6f592b0275, 0x4a7484aa6ea6e483, 0x5cb0a9dcbd41fbd4, 0x76f988da831153b5,
    0x983e5152ee66dfab, 0xa831c66d2db43210, 0xb00327c898fb213f, 0xbf597fc7beef0ee4,
    0xc6e00bf33da88fc2, 0xd5a79147930aa725, 0x06ca6351e003826f, 0x142929670a0e6e70,
    0x27b70a8546d22ffc, 0x2e1b21385c26c926, 0x4d2c6dfc5ac42aed, 0x53380d139d95b3df,
    0x650a73548baf63de, 0x766a0abb3c77b2a8, 0x81c2c92e47edaee6, 0x92722c851482353b,
    0xa2bfe8a14cf10364, 0xa81a664bbc423001, 0xc24b8b70d0f89791, 0xc76c51a30654be30,
    0xd192e819d6ef5218, 0xd69906245565a910, 0xf40e35855771202a, 0x106aa07032bbd1b8,
    0x19a4c116b8d2d0c8, 0x1e376c085141ab53, 0x2748774cdf8eeb99, 0x34b0bcb5e19b48a8,
    0x391c0cb3c5c95a63, 0x4ed8aa4ae3418acb, 0x5b9cca4f7763e373, 0x682e6ff3d6b2b8a3,
    0x748f82ee5defb2fc, 0x78a5636f43172f60, 0x84c87814a1f0ab72, 0x8cc702081a6439ec,
    0x90befffa23631e28, 0xa4506cebde82bde9, 0xbef9a3f7b2c67915, 0xc67178f2e372532b,
    0xca273eceea26619c, 0xd186b8c721c0c207, 0xeada7dd6cde0eb1e, 0xf57d4f7fee6ed178,
    0x06f067aa72176fba, 0x0a637dc5a2c898a6, 0x113f9804bef90dae, 0x1b710b35131c471b,
    0x28db77f523047d84, 0x32caab7b40c72493, 0x3c9ebe0a15c9bebc, 0x431d67c49c100d4c,
    0x4cc5d4becb3e42b6, 0x597f299cfc657e2a, 0x5fcb6fab3ad6faec, 0x6c44198c4a475817]
  init := [
    0x6a09e667f3bcc908, 0xbb67ae8584caa73b, 0x3c6ef372fe94f82b, 0xa54ff53a5f1d36f1,
    0x510e527fade682d1, 0x9b05688c2b3e6c1f, 0x1f83d9abfb41bd6b, 0x5be0cd19137e2179]
  big0 := (28, 34, 39)
  big1 := (14, 18, 41)
  small0 := (1, 8, 7)
  small1 := (19, 61, 6)

/-- SHA-256. For `nbc/util/hash.py:32-33`. -/
def sha256 (m : Bytes) : Bytes := sha2 p256 m

/-- SHA-512. For `nbc/util/key.py:109`. -/
def sha512 (m : Bytes) : Bytes := sha2 p512 m

/-- HMAC, FIPS 198-1, with SHA-512 (blocks of 128 bytes). For `nbc/wallet/hdwallet.py:93-96,233`. -/
def hmacSha512 (key m : Bytes) : Bytes :=
  let k0 := if 128 < key.length then sha512 key else key
  let k := k0 ++ List.replicate (128 - k0.length) 0
  sha512 (k.map (· ^^^ 0x5c) ++ sha512 (k.map (· ^^^ 0x36) ++ m))

/-! ### RIPEMD-160 -/

/-- The little-endian value of bytes. For `nbc/util/hash.py:38-39`. -/
def wordLE (b : Bytes) : Nat := word b.reverse

/-- Which word a step takes, left line. For `nbc/util/hash.py:38-39`. -/
def ripeLeft : List Nat := [
  0, 1, 2, 3, 4, 5, 6, 7, 8, 9, 10, 11, 12, 13, 14, 15,
  7, 4, 13, 1, 10, 6, 15, 3, 12, 0, 9, 5, 2, 14, 11, 8,
  3, 10, 14, 4, 9, 15, 8, 1, 2, 7, 0, 6, 13, 11, 5, 12,
  1, 9, 11, 10, 0, 8, 12, 4, 13, 3, 7, 15, 14, 5, 6, 2,
  4, 0, 5, 9, 7, 12, 2, 10, 14, 1, 3, 8, 11, 6, 15, 13]

/-- Which word a step takes, right line. For `nbc/util/hash.py:38-39`. -/
def ripeRight : List Nat := [
  5, 14, 7, 0, 9, 2, 11, 4, 13, 6, 15, 8, 1, 10, 3, 12,
  6, 11, 3, 7, 0, 13, 5, 10, 14, 15, 8, 12, 4, 9, 1, 2,
  15, 5, 1, 3, 7, 14, 6, 9, 11, 8, 12, 2, 10, 0, 4, 13,
  8, 6, 4, 1, 3, 11, 15, 0, 5, 12, 2, 13, 9, 7, 10, 14,
  12, 15, 10, 4, 1, 5, 8, 7, 6, 2, 13, 14, 0, 3, 9, 11]

/-- Rotations, left line. For `nbc/util/hash.py:38-39`. -/
def ripeRotLeft : List Nat := [
  11, 14, 15, 12, 5, 8, 7, 9, 11, 13, 14, 15, 6, 7, 9, 8,
  7, 6, 8, 13, 11, 9, 7, 15, 7, 12, 15, 9, 11, 7, 13, 12,
  11, 13, 6, 7, 14, 9, 13, 15, 14, 8, 13, 6, 5, 12, 7, 5,
  11, 12, 14, 15, 14, 15, 9, 8, 9, 14, 5, 6, 8, 6, 5, 12,
  9, 15, 5, 11, 6, 8, 13, 12, 5, 12, 13, 14, 11, 8, 5, 6]

/-- Rotations, right line. For `nbc/util/hash.py:38-39`. -/
def ripeRotRight : List Nat := [
  8, 9, 9, 11, 13, 15, 15, 5, 7, 7, 8, 11, 14, 14, 12, 6,
  9, 13, 15, 7, 12, 8, 9, 11, 7, 7, 12, 7, 6, 15, 13, 11,
  9, 7, 15, 11, 8, 6, 6, 14, 12, 13, 5, 14, 13, 13, 7, 5,
  15, 5, 8, 11, 14, 14, 6, 14, 6, 9, 12, 9, 12, 5, 15, 8,
  8, 5, 12, 9, 12, 5, 14, 6, 8, 13, 6, 5, 15, 13, 11, 11]

/-- The five functions. For `nbc/util/hash.py:38-39`. -/
def ripeF : Nat → Nat → Nat → Nat → Nat
  | 0, x, y, z => x ^^^ y ^^^ z
  | 1, x, y, z => (x &&& y) ||| ((2 ^ 32 - 1 - x) &&& z)
  | 2, x, y, z => (x ||| (2 ^ 32 - 1 - y)) ^^^ z
  | 3, x, y, z => (x &&& z) ||| (y &&& (2 ^ 32 - 1 - z))
  | _, x, y, z => x ^^^ (y ||| (2 ^ 32 - 1 - z))

/-- Added constants, left line. For `nbc/util/hash.py:38-39`. -/
def ripeKLeft : List Nat := [0x00000000, 0x5a827999, 0x6ed9eba1, 0x8f1bbcdc, 0xa953fd4e]

/-- Added constants, right line. For `nbc/util/hash.py:38-39`. -/
def ripeKRight : List Nat := [0x50a28be6, 0x5c4dd124, 0x6d703ef3, 0x7a6d76e9, 0x00000000]

/-- A step: function, constant, word, rotation. For `nbc/util/hash.py:38-39`. -/
def ripeStep (v : Nat × Nat × Nat × Nat × Nat) (s : (Nat × Nat) × (Nat × Nat)) : Nat × Nat × Nat × Nat × Nat :=
  match v, s with
  | (a, b, c, d, e), ((f, k), (x, r)) =>
    (e, (rotr 32 (32 - r) ((a + ripeF f b c d + x + k) % 2 ^ 32) + e) % 2 ^ 32, b, rotr 32 22 c, d)

/-- The steps of a line: `fs` and `ks` for the five groups of sixteen steps. For `nbc/util/hash.py:38-39`. -/
def ripeLine (fs ks idx rot : List Nat) (xs : List Nat) : List ((Nat × Nat) × (Nat × Nat)) :=
  ((fs.zip ks).flatMap (List.replicate 16)).zip ((idx.map (fun i => xs.getD i 0)).zip rot)

/-- One block. For `nbc/util/hash.py:38-39`. -/
def ripeCompress (hs : List Nat) (block : Bytes) : List Nat :=
  let xs := (pieces 4 16 block).map wordLE
  let v0 := (hs.getD 0 0, hs.getD 1 0, hs.getD 2 0, hs.getD 3 0, hs.getD 4 0)
  match (ripeLine [0, 1, 2, 3, 4] ripeKLeft ripeLeft ripeRotLeft xs).foldl ripeStep v0,
    (ripeLine [4, 3, 2, 1, 0] ripeKRight ripeRight ripeRotRight xs).foldl ripeStep v0 with
  | (a, b, c, d, e), (a', b', c', d', e') =>
    [(hs.getD 1 0 + c + d') % 2 ^ 32, (hs.getD 2 0 + d + e') % 2 ^ 32, (hs.getD 3 0 + e + a') % 2 ^ 32,
      (hs.getD 4 0 + a + b') % 2 ^ 32, (hs.getD 0 0 + b + c') % 2 ^ 32]

/-- RIPEMD-160. For `nbc/util/hash.py:38-39`. -/
def ripemd160 (m : Bytes) : Bytes :=
  let padded := pad 64 8 (fun l => (unword 8 l).reverse) m
  let hs := (pieces 64 (padded.length / 64) padded).foldl ripeCompress
    [0x67452301, 0xefcdab89, 0x98badcfe, 0x10325476, 0xc3d2e1f0]
  (hs.map (fun x => (unword 4 x).reverse)).flatten

end NBC.Sha
