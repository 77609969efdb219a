import Verif.Model.Bytes

/-!
# `nbc/util/ecdsa/der.py`, the DER parts of `nbc/util/ecdsa/util.py` and `nbc/util/ecc.py`

PEM wrapping (`unpem`, `topem`) is in `Model/Pem`.
-/

namespace NBC.Der
open NBC

/-- `six.int2byte`: values outside `0..255` raise (`struct.error`, `OverflowError` or `ValueError`
depending on the `six` version; written `structError` here). For `der.py:129-138`, `der.py:10-11`. -/
def int2byte (i : Int) : Py Bytes :=
  if 0 ≤ i ∧ i < 256 then .ok [UInt8.ofNat i.toNat] else .error .structError

/-- `("%x" % r)`, with a leading `0` if the number of digits is odd, unhexlified:
`der.py:14-17` and `der.py:133-136`. -/
def minimalBytes (r : Nat) : Py Bytes :=
  let h := fmtHexNat r
  let h := if h.length % 2 ≠ 0 then 48 :: h else h
  unhexlify h

/-- `encode_length`, `der.py:129-138` (`l` is a length, hence non-negative). -/
def encodeLength (l : Nat) : Py Bytes :=
  if l < 0x80 then int2byte l
  else do
    let s ← minimalBytes l
    return (← int2byte ((0x80 ||| s.length : Nat) : Int)) ++ s

/-- `encode_constructed`, `der.py:10-11`. -/
def encodeConstructed (tag : Nat) (value : Bytes) : Py Bytes := do
  return (← int2byte ((0xa0 + tag : Nat) : Int)) ++ (← encodeLength value.length) ++ value

/-- `encode_integer`, `der.py:12-25`: the length is written as a single byte whatever its size. -/
def encodeInteger (r : Int) : Py Bytes := do
  pyAssert (decide (r ≥ 0))
  let s ← minimalBytes r.toNat
  let num ← pyIndex s 0
  if num.toNat ≤ 0x7f then return [0x02] ++ (← int2byte s.length) ++ s
  else return [0x02] ++ (← int2byte (s.length + 1)) ++ [0x00] ++ s

/-- `encode_bitstring`, `der.py:27-28`. -/
def encodeBitstring (s : Bytes) : Py Bytes := do
  return [0x03] ++ (← encodeLength s.length) ++ s

/-- `encode_octet_string`, `der.py:29-30`. -/
def encodeOctetString (s : Bytes) : Py Bytes := do
  return [0x04] ++ (← encodeLength s.length) ++ s

/-- The loop of `encode_number`, `der.py:43-45`.  Fuel: `n`. -/
def b128Loop : Nat → Nat → List Nat → List Nat
  | 0, _, acc => acc
  | fuel + 1, n, acc => if n = 0 then acc else b128Loop fuel (n >>> 7) (((n &&& 0x7f) ||| 0x80) :: acc)

/-- `l[-1] &= 0x7f`, `der.py:48`. -/
def clearLast : List Nat → List Nat
  | [] => []
  | [d] => [d &&& 0x7f]
  | d :: ds => d :: clearLast ds

/-- `encode_number`, `der.py:41-49`. -/
def encodeNumber (n : Nat) : Bytes :=
  let ds := b128Loop n n []
  let ds := if ds.isEmpty then [0] else ds
  (clearLast ds).map UInt8.ofNat

/-- `encode_oid`, `der.py:31-37`. -/
def encodeOid (first second : Nat) (pieces : List Nat) : Py Bytes := do
  pyAssert (decide (first ≤ 2))
  pyAssert (decide (second ≤ 39))
  let b0 ← int2byte ((40 * first + second : Nat) : Int)
  let body := b0 ++ pieces.flatMap encodeNumber
  return [0x06] ++ (← encodeLength body.length) ++ body

/-- `encode_sequence`, `der.py:38-40`. -/
def encodeSequence (pieces : List Bytes) : Py Bytes := do
  let totalLen := (pieces.map List.length).sum
  return [0x30] ++ (← encodeLength totalLen) ++ pieces.flatten

/-- `read_length`, `der.py:140-150`: the length and the number of bytes it took. -/
def readLength (string : Bytes) : Py (Nat × Nat) := do
  let num ← pyIndex string 0
  if num.toNat &&& 0x80 = 0 then return (num.toNat &&& 0x7f, 1)
  else
    let llen := num.toNat &&& 0x7f
    if (llen : Int) > (string.length : Int) - 1 then .error .unexpectedDER
    else return (← intOfHex (hexlify ((string.drop 1).take llen)), 1 + llen)

/-- A tag byte that must match, `der.py:63-65` and its copies: on an empty string `string[0]`
raises `IndexError` before the `UnexpectedDER`. -/
def expectTag (tag : UInt8) (string : Bytes) : Py Unit :=
  match string with
  | [] => .error .indexError
  | c :: _ => if c = tag then .ok () else .error .unexpectedDER

/-- The slices `string[1+llen:1+llen+length]` and `string[1+llen+length:]`. For `der.py:51-60`, `der.py:62-68`. -/
def cutBody (string : Bytes) : Py (Bytes × Bytes) := do
  let (length, llen) ← readLength (string.drop 1)
  return ((string.drop (1 + llen)).take length, string.drop (1 + llen + length))

/-- `remove_constructed`, `der.py:51-60`. -/
def removeConstructed (string : Bytes) : Py (Nat × Bytes × Bytes) := do
  let s0 ← pyIndex string 0
  if s0.toNat &&& 0xe0 ≠ 0xa0 then .error .unexpectedDER
  else
    let tag := s0.toNat &&& 0x1f
    let (body, rest) ← cutBody string
    return (tag, body, rest)

/-- `remove_sequence`, `der.py:62-68`. -/
def removeSequence (string : Bytes) : Py (Bytes × Bytes) := do
  expectTag 0x30 string
  cutBody string

/-- `remove_octet_string`, `der.py:70-77`. -/
def removeOctetString (string : Bytes) : Py (Bytes × Bytes) := do
  expectTag 0x04 string
  cutBody string

/-- `remove_bitstring`, `der.py:152-159`. -/
def removeBitstring (string : Bytes) : Py (Bytes × Bytes) := do
  expectTag 0x03 string
  cutBody string

/-- The loop of `read_number`, `der.py:118-126`, on the unread bytes.  (The test
`llen > len(string)` on line 119 is never true: the index on line 122 fails first.) -/
def readNumberLoop : Bytes → Nat → Nat → Py (Nat × Nat)
  | [], _, _ => .error .indexError
  | d :: rest, number, llen =>
    let number := (number <<< 7) + (d.toNat &&& 0x7f)
    if d.toNat &&& 0x80 = 0 then .ok (number, llen + 1)
    else readNumberLoop rest number (llen + 1)

/-- `read_number`, `der.py:114-127`. -/
def readNumber (string : Bytes) : Py (Nat × Nat) := readNumberLoop string 0 0

/-- The loop of `remove_object`, `der.py:86-90`.  Fuel: the length of the body. -/
def readNumbers : Nat → Bytes → Py (List Nat)
  | 0, _ => .ok []
  | fuel + 1, body =>
    if body.isEmpty then .ok []
    else do
      let (n, ll) ← readNumber body
      let ns ← readNumbers fuel (body.drop ll)
      return n :: ns

/-- `remove_object`, `der.py:79-96`. -/
def removeObject (string : Bytes) : Py (List Nat × Bytes) := do
  expectTag 0x06 string
  let (body, rest) ← cutBody string
  match ← readNumbers body.length body with
  | [] => .error .indexError
  | n0 :: numbers =>
    let first := n0 / 40
    let second := n0 - 40 * first
    return (first :: second :: numbers, rest)

/-- `remove_integer`, `der.py:98-112`. -/
def removeInteger (string : Bytes) : Py (Nat × Bytes) := do
  expectTag 0x02 string
  let (numberbytes, rest) ← cutBody string
  let nbytes ← pyIndex numberbytes 0
  pyAssert (decide (nbytes.toNat < 0x80))
  return (← intOfHex (hexlify numberbytes), rest)

/-- `sigencode_der`, `ecdsa/util.py:197-198`. -/
def sigencodeDer (r s : Int) : Py Bytes := do
  let er ← encodeInteger r
  let es ← encodeInteger s
  encodeSequence [er, es]

/-- `sigdecode_der`, `ecdsa/util.py:235-246`. -/
def sigdecodeDer (sigDer : Bytes) : Py (Nat × Nat) := do
  let (rsStrings, empty) ← removeSequence sigDer
  if empty ≠ [] then .error .unexpectedDER
  else
    let (r, rest) ← removeInteger rsStrings
    let (s, empty) ← removeInteger rest
    if empty ≠ [] then .error .unexpectedDER
    else return (r, s)

/-- `remove_integer` of `ecc.py:45-54`: `UnexpectedDER` is not imported there, so a wrong tag is a
`NameError`. -/
def eccRemoveInteger (string : Bytes) : Py (Nat × Bytes) := do
  match string with
  | [] => .error .indexError
  | c :: _ =>
    if c ≠ 0x02 then .error .nameError
    else
      let (numberbytes, rest) ← cutBody string
      return (← intOfHex (hexlify numberbytes), rest)

/-- `sigdecode_der` of `ecc.py:58-73`: trailing bytes are ignored. -/
def eccSigdecodeDer (sigDer : Bytes) : Py (Nat × Nat) := do
  let (rsStrings, _) ← removeSequence sigDer
  let (r, rest) ← eccRemoveInteger rsStrings
  let (s, _) ← eccRemoveInteger rest
  return (r, s)

/-- `sigencode_strings`, `ecdsa/util.py:186-189`. -/
def sigencodeStrings (r s : Int) (order : Nat) : Py (Bytes × Bytes) := do
  return (← numberToString r order, ← numberToString s order)

/-- `sigencode_string`, `ecdsa/util.py:191-195`. -/
def sigencodeString (r s : Int) (order : Nat) : Py Bytes := do
  return (← numberToString r order) ++ (← numberToString s order)

/-- `sigdecode_string`, `ecdsa/util.py:219-224`. -/
def sigdecodeString (signature : Bytes) (order : Nat) : Py (Nat × Nat) := do
  let l := orderlen order
  pyAssert (signature.length == 2 * l)
  return (← stringToNumberFixedlen (signature.take l) order,
    ← stringToNumberFixedlen (signature.drop l) order)

/-- `sigdecode_strings`, `ecdsa/util.py:226-233`. -/
def sigdecodeStrings (rStr sStr : Bytes) (order : Nat) : Py (Nat × Nat) := do
  let l := orderlen order
  pyAssert (rStr.length == l)
  pyAssert (sStr.length == l)
  return (← stringToNumberFixedlen rStr order, ← stringToNumberFixedlen sStr order)

end NBC.Der
