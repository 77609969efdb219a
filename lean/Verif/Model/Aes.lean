import Mathlib.Data.Int.Bitwise
import Verif.Model.Py
import Verif.Model.AesTables

/-!
# The AES block cipher of `nbc/util/pyaes/aes.py`

Words are Python integers, and they are *signed*: `struct.unpack('>i', ..)` yields negative numbers
and `^` keeps them negative.  The model therefore uses `Int`, `Int.xor` and the arithmetic shift.
Table lookups `T[i]` are always at an index masked by `0xFF`, and every table has 256 entries
(`tables_length` in `Proofs/Aes`), so the default of `look` is never used.
-/

namespace NBC.Aes

/-- The two Python versions the README supports (`README.md:8`). -/
inductive PyVer where
  | py2
  | py3
  deriving DecidableEq, Repr

/-- `(x >> k) & 0xFF` on a Python integer (floor shift; the mask is the remainder modulo 256).
For `nbc/util/pyaes/aes.py:147-152`, `nbc/util/pyaes/aes.py:163-168`. -/
def byteAt (x : Int) (k : Nat) : Nat := ((x >>> k) % 256).toNat

/-- `T[i]` for a table and a masked index. For `nbc/util/pyaes/aes.py:147-152`, `nbc/util/pyaes/aes.py:163-168`. -/
def look (T : List Nat) (i : Nat) : Nat := T.getD i 0

/-- `_compact_word`, `nbc/util/pyaes/aes.py:61-62` -/
def compactWord (w : Bytes) : Int :=
  (((w.getD 0 0).toNat <<< 24 ||| (w.getD 1 0).toNat <<< 16 ||| (w.getD 2 0).toNat <<< 8 |||
    (w.getD 3 0).toNat : Nat) : Int)

/-- `struct.unpack('>i', b)[0]` for four bytes: big-endian two's complement
(used at `nbc/util/pyaes/aes.py:135`). -/
def unpackI (b : Bytes) : Int :=
  let v : Nat := (b.getD 0 0).toNat * 2 ^ 24 + (b.getD 1 0).toNat * 2 ^ 16 + (b.getD 2 0).toNat * 2 ^ 8 +
    (b.getD 3 0).toNat
  if v < 2 ^ 31 then (v : Int) else (v : Int) - 2 ^ 32

/-- `AES.number_of_rounds`, `nbc/util/pyaes/aes.py:91`, after the length check of lines 120-121. -/
def numberOfRounds (len : Nat) : Py Nat :=
  if len = 16 then .ok 10
  else if len = 24 then .ok 12
  else if len = 32 then .ok 14
  else .error .valueError

/-- An `AES` object: `_Ke` and `_Kd`, `nbc/util/pyaes/aes.py:126,129`. -/
structure AES where
  Ke : List (List Int)
  Kd : List (List Int)
  deriving DecidableEq, Repr

/-- `K[r][c]`; for `nbc/util/pyaes/aes.py:182-188`, `nbc/util/pyaes/aes.py:205-211` -/
def getRC (K : List (List Int)) (r c : Nat) : Int := (K.getD r []).getD c 0

/-- `K[r][c] = v`; for `nbc/util/pyaes/aes.py:173-179`, `nbc/util/pyaes/aes.py:138-140` -/
def setRC (K : List (List Int)) (r c : Nat) (v : Int) : List (List Int) :=
  K.modify r (fun row => row.set c v)

/-- `for i in xrange(a, b): tk[i] ^= tk[i - 1]`, `nbc/util/pyaes/aes.py:156-157,161-162,170-171`;
the loop runs `n = b - a` times. -/
def xorChain (tk : List Int) (a : Nat) : Nat → List Int
  | 0 => tk
  | n + 1 => xorChain (tk.set a (Int.xor (tk.getD a 0) (tk.getD (a - 1) 0))) (a + 1) n

/-- `nbc/util/pyaes/aes.py:147-152`: the update of `tk[0]`. -/
def tkHead (KC rp : Nat) (tk : List Int) : List Int :=
  let tt := tk.getD (KC - 1) 0
  tk.set 0 (Int.xor (tk.getD 0 0)
    (Int.xor (Int.xor (Int.xor (Int.xor
      ((look tableS (byteAt tt 16) <<< 24 : Nat) : Int)
      ((look tableS (byteAt tt 8) <<< 16 : Nat) : Int))
      ((look tableS (byteAt tt 0) <<< 8 : Nat) : Int))
      ((look tableS (byteAt tt 24) : Nat) : Int))
      ((look rcon rp <<< 24 : Nat) : Int)))

/-- `nbc/util/pyaes/aes.py:163-168`: the extra `SubWord` for 256-bit keys, at `m = KC / 2`. -/
def tkMid (m : Nat) (tk : List Int) : List Int :=
  let tt := tk.getD (m - 1) 0
  tk.set m (Int.xor (tk.getD m 0)
    (Int.xor (Int.xor (Int.xor
      ((look tableS (byteAt tt 0) : Nat) : Int)
      ((look tableS (byteAt tt 8) <<< 8 : Nat) : Int))
      ((look tableS (byteAt tt 16) <<< 16 : Nat) : Int))
      ((look tableS (byteAt tt 24) <<< 24 : Nat) : Int)))

/-- One pass of the body of the expansion loop over `tk`, `nbc/util/pyaes/aes.py:147-171`.
For `KC == 8` the bound `KC / 2` is a `float` in Python 3, so `xrange` (bound to `range`,
lines 72-76) raises `TypeError`. -/
def roundTk (ver : PyVer) (KC rp : Nat) (tk : List Int) : Py (List Int) :=
  let tk := tkHead KC rp tk
  if KC ≠ 8 then .ok (xorChain tk 1 (KC - 1))
  else match ver with
    | .py3 => .error .typeError
    | .py2 =>
      let tk := xorChain tk 1 (KC / 2 - 1)
      let tk := tkMid (KC / 2) tk
      .ok (xorChain tk (KC / 2 + 1) (KC - (KC / 2 + 1)))

/-- Local variables of `AES.__init__`. For `nbc/util/pyaes/aes.py:173-179`, `nbc/util/pyaes/aes.py:145-179`. -/
structure KState where
  Ke : List (List Int)
  Kd : List (List Int)
  t : Nat
  rp : Nat
  tk : List Int

/-- `nbc/util/pyaes/aes.py:173-179`: copy `tk[j..]` while `j < KC and t < round_key_count`;
`fuel` is the number of values of `j` left. -/
def copyLoop (rounds KC : Nat) : Nat → Nat → KState → KState
  | 0, _, s => s
  | fuel + 1, j, s =>
    if j < KC ∧ s.t < (rounds + 1) * 4 then
      copyLoop rounds KC fuel (j + 1)
        { s with
          Ke := setRC s.Ke (s.t / 4) (s.t % 4) (s.tk.getD j 0)
          Kd := setRC s.Kd (rounds - s.t / 4) (s.t % 4) (s.tk.getD j 0)
          t := s.t + 1 }
    else s

/-- `nbc/util/pyaes/aes.py:145-179`: `while t < round_key_count`.  `t` grows in every pass, so
`round_key_count` passes suffice; the fuel is never exhausted (`expandLoop_end`). -/
def expandLoop (ver : PyVer) (rounds KC : Nat) : Nat → KState → Py KState
  | 0, s => .ok s
  | fuel + 1, s =>
    if s.t < (rounds + 1) * 4 then do
      let tk ← roundTk ver KC s.rp s.tk
      expandLoop ver rounds KC fuel
        (copyLoop rounds KC KC 0 { s with tk := tk, rp := s.rp + 1 })
    else .ok s

/-- `nbc/util/pyaes/aes.py:138-140`: `for i in xrange(0, KC)`. -/
def initCopy (rounds KC : Nat) (tk : List Int) (Ke Kd : List (List Int)) :
    List (List Int) × List (List Int) :=
  (List.range KC).foldl (fun K i =>
    (setRC K.1 (i / 4) (i % 4) (tk.getD i 0), setRC K.2 (rounds - i / 4) (i % 4) (tk.getD i 0)))
    (Ke, Kd)

/-- `nbc/util/pyaes/aes.py:184-188`: the `U`-table transformation of one word. -/
def uWord (tt : Int) : Int :=
  Int.xor (Int.xor (Int.xor
    (look tableU1 (byteAt tt 24) : Int) (look tableU2 (byteAt tt 16) : Int))
    (look tableU3 (byteAt tt 8) : Int)) (look tableU4 (byteAt tt 0) : Int)

/-- `nbc/util/pyaes/aes.py:182-188`: `for r in xrange(1, rounds): for j in xrange(0, 4)`. -/
def invKeys (rounds : Nat) (Kd : List (List Int)) : List (List Int) :=
  (List.range' 1 (rounds - 1)).foldl (fun K r =>
    (List.range 4).foldl (fun K j => setRC K r j (uWord (getRC K r j))) K) Kd

/-- `AES.__init__`, `nbc/util/pyaes/aes.py:118-188` -/
def AES.init (ver : PyVer) (key : Bytes) : Py AES := do
  let rounds ← numberOfRounds key.length
  let K0 := List.replicate (rounds + 1) (List.replicate 4 (0 : Int))
  let KC := key.length / 4
  let tk := (List.range KC).map (fun i => unpackI ((key.drop (4 * i)).take 4))
  let K := initCopy rounds KC tk K0 K0
  let s ← expandLoop ver rounds KC ((rounds + 1) * 4)
    { Ke := K.1, Kd := K.2, t := KC, rp := 0, tk := tk }
  .ok { Ke := s.Ke, Kd := invKeys rounds s.Kd }

/-- One table round, `nbc/util/pyaes/aes.py:205-211` (and 239-245 with the other tables and
shifts): `a[i] = Ta[t[i] >> 24] ^ Tb[t[(i+s1)%4] >> 16] ^ Tc[t[(i+s2)%4] >> 8] ^ Td[t[(i+s3)%4]]
^ K[r][i]`. -/
def tableRound (Ta Tb Tc Td : List Nat) (s1 s2 s3 : Nat) (K : List (List Int)) (r : Nat)
    (t : List Int) : List Int :=
  (List.range 4).map (fun i =>
    Int.xor (Int.xor (Int.xor (Int.xor
      (look Ta (byteAt (t.getD i 0) 24) : Int)
      (look Tb (byteAt (t.getD ((i + s1) % 4) 0) 16) : Int))
      (look Tc (byteAt (t.getD ((i + s2) % 4) 0) 8) : Int))
      (look Td (byteAt (t.getD ((i + s3) % 4) 0) 0) : Int))
      (getRC K r i))

/-- `(x) & 0xFF` kept as a byte of the result list. For `nbc/util/pyaes/aes.py:214-220`. -/
def maskByte (x : Int) : UInt8 := UInt8.ofNat (byteAt x 0)

/-- The last round, `nbc/util/pyaes/aes.py:214-220` and 248-254. -/
def lastRound (T : List Nat) (s1 s2 s3 : Nat) (K : List (List Int)) (r : Nat) (t : List Int) :
    Bytes :=
  (List.range 4).flatMap (fun i =>
    let tt := getRC K r i
    [maskByte (Int.xor (look T (byteAt (t.getD i 0) 24) : Int) (tt >>> (24 : Nat))),
     maskByte (Int.xor (look T (byteAt (t.getD ((i + s1) % 4) 0) 16) : Int) (tt >>> (16 : Nat))),
     maskByte (Int.xor (look T (byteAt (t.getD ((i + s2) % 4) 0) 8) : Int) (tt >>> (8 : Nat))),
     maskByte (Int.xor (look T (byteAt (t.getD ((i + s3) % 4) 0) 0) : Int) tt)])

/-- `[_compact_word(b[4*i:4*i+4]) ^ K[0][i] for i in xrange(0, 4)]`,
`nbc/util/pyaes/aes.py:201,235`. -/
def firstKey (b : Bytes) (K : List (List Int)) : List Int :=
  (List.range 4).map (fun i => Int.xor (compactWord ((b.drop (4 * i)).take 4)) (getRC K 0 i))

/-- `AES.encrypt`, `nbc/util/pyaes/aes.py:190-222`.  The argument is a list of integers in the
code; every caller in the package passes bytes, so the model takes bytes. -/
def AES.encrypt (A : AES) (plaintext : Bytes) : Py Bytes :=
  if plaintext.length ≠ 16 then .error .valueError
  else
    let rounds := A.Ke.length - 1
    let t := (List.range' 1 (rounds - 1)).foldl
      (fun t r => tableRound tableT1 tableT2 tableT3 tableT4 1 2 3 A.Ke r t)
      (firstKey plaintext A.Ke)
    .ok (lastRound tableS 1 2 3 A.Ke rounds t)

/-- `AES.decrypt`, `nbc/util/pyaes/aes.py:224-256` -/
def AES.decrypt (A : AES) (ciphertext : Bytes) : Py Bytes :=
  if ciphertext.length ≠ 16 then .error .valueError
  else
    let rounds := A.Kd.length - 1
    let t := (List.range' 1 (rounds - 1)).foldl
      (fun t r => tableRound tableT5 tableT6 tableT7 tableT8 3 2 1 A.Kd r t)
      (firstKey ciphertext A.Kd)
    .ok (lastRound tableSi 3 2 1 A.Kd rounds t)

end NBC.Aes
