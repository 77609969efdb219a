import Verif.Model.Bytes

/-! # `nbc/util/base58.py` -/

namespace NBC.Base58
open NBC

/-- `alphabet`, `nbc/util/base58.py:6` -/
def alphabet : Bytes :=
  [49,50,51,52,53,54,55,56,57,
   65,66,67,68,69,70,71,72,74,75,76,77,78,80,81,82,83,84,85,86,87,88,89,90,
   97,98,99,100,101,102,103,104,105,106,107,109,110,111,112,113,114,115,116,117,118,119,120,121,122]

/-- `alphabet[idx:idx+1]` for `idx < 58` (the only indices `divmod(i, 58)` can give). For `nbc/util/base58.py:35`. -/
def alphaAt (i : Nat) : UInt8 := alphabet.getD i 0

/-- `alphabet.index(ch)`: `ValueError` when absent. For `nbc/util/base58.py:60`. -/
def alphaIndex (c : UInt8) : Py Nat :=
  match alphabet.findIdx? (· == c) with
  | some i => .ok i
  | none => .error .valueError

/-- `b58encode_int`, `nbc/util/base58.py:27-36` (for `i ≥ 0`; the `while i:` loop is
`digitsLoop`). -/
def b58encodeInt (i : Nat) (defaultOne : Bool) : Bytes :=
  if i = 0 ∧ defaultOne then [alphaAt 0] else (digitsBE 58 i).map alphaAt

/-- The loop of `b58encode`, `nbc/util/base58.py:46-49`, over the reversed string. -/
def accLoop : Bytes → Nat → Nat → Nat
  | [], _, acc => acc
  | c :: cs, p, acc => accLoop cs (p * 256) (acc + p * c.toNat)

/-- `b58encode`, `nbc/util/base58.py:38-52` (on `bytes`; `scrub_input` is the identity there). -/
def b58encode (v : Bytes) : Bytes :=
  let nPad := v.length
  let v := v.dropWhile (· == 0)
  let nPad := nPad - v.length
  let acc := accLoop v.reverse 1 0
  List.replicate nPad (alphaAt 0) ++ b58encodeInt acc false

/-- `b58decode_int`, `nbc/util/base58.py:54-61`. -/
def b58decodeInt (v : Bytes) : Py Nat :=
  v.foldlM (fun acc ch => do return acc * 58 + (← alphaIndex ch)) 0

/-- `b58decode`, `nbc/util/base58.py:63-78` (the `while acc > 0` loop appends the digits least
significant first and the list is reversed at the end: `digitsBE 256`). -/
def b58decode (v : Bytes) : Py Bytes := do
  let origlen := v.length
  let v := v.dropWhile (· == alphaAt 0)
  let newlen := v.length
  let acc ← b58decodeInt v
  return List.replicate (origlen - newlen) 0 ++ (digitsBE 256 acc).map UInt8.ofNat

/-- `encode_check`, `nbc/util/base58.py:80-84`. -/
def encodeCheck (H : Hashes) (v : Bytes) : Bytes :=
  b58encode (v ++ (H.sha256d v).take 4)

/-- `decode_check`, `nbc/util/base58.py:86-95`; `none` is Python's `None`. -/
def decodeCheck (H : Hashes) (v : Bytes) : Py (Option Bytes) := do
  let ret ← b58decode v
  let body := ret.take (ret.length - 4)
  let check := ret.drop (ret.length - 4)
  if (H.sha256d body).take 4 = check then return some body else return none

end NBC.Base58
