import Verif.Model.Piecewise
import Verif.Model.Util

/-!
# `nbc/util/piecewise.py:275-338`: partial key-sets as texts for QR codes

`base64.b32encode` and `base64.b32decode` are the functions of Python 2's library (decoding is modelled for
Python 2 only).
-/

namespace NBC.Piecewise
open NBC Key Ecdsa Base58 Aes

/-- One character of the base32 alphabet (`base64.b32encode`, called at `piecewise.py:307`). -/
def b32Char (v : Nat) : UInt8 := if v < 26 then UInt8.ofNat (65 + v) else UInt8.ofNat (24 + v)

/-- Value of a base32 character (`base64.b32decode`, called at `piecewise.py:314`). -/
def b32Val (c : UInt8) : Option Nat :=
  if 65 ≤ c.toNat ∧ c.toNat ≤ 90 then some (c.toNat - 65)
  else if 50 ≤ c.toNat ∧ c.toNat ≤ 55 then some (c.toNat - 24)
  else none

/-- The number of a group of five bytes. For `piecewise.py:307`. -/
def quint (a b c d e : UInt8) : Nat :=
  a.toNat * 256 ^ 4 + b.toNat * 256 ^ 3 + c.toNat * 256 ^ 2 + d.toNat * 256 + e.toNat

/-- The five bytes of a number (`unhexlify('%010x' % acc)`). For `piecewise.py:314`. -/
def quintBytes (v : Nat) : Bytes :=
  [UInt8.ofNat (v / 256 ^ 4), UInt8.ofNat (v / 256 ^ 3), UInt8.ofNat (v / 256 ^ 2), UInt8.ofNat (v / 256),
    UInt8.ofNat v]

/-- The eight digits of a group of five bytes. For `piecewise.py:307`. -/
def b32Digits (v : Nat) : List Nat :=
  [v / 32 ^ 7, v / 32 ^ 6 % 32, v / 32 ^ 5 % 32, v / 32 ^ 4 % 32, v / 32 ^ 3 % 32, v / 32 ^ 2 % 32,
    v / 32 % 32, v % 32]

/-- `base64.b32encode`, called at `piecewise.py:307`: the last group is filled with zero bytes, and the
characters that hold none of the data are replaced by `=`. -/
def b32encode : Bytes → Bytes
  | [] => []
  | [a] => ((b32Digits (quint a 0 0 0 0)).map b32Char).take 2 ++ List.replicate 6 61
  | [a, b] => ((b32Digits (quint a b 0 0 0)).map b32Char).take 4 ++ List.replicate 4 61
  | [a, b, c] => ((b32Digits (quint a b c 0 0)).map b32Char).take 5 ++ List.replicate 3 61
  | [a, b, c, d] => ((b32Digits (quint a b c d 0)).map b32Char).take 7 ++ List.replicate 1 61
  | a :: b :: c :: d :: e :: rest =>
    (b32Digits (quint a b c d e)).map b32Char ++ b32encode rest

/-- The loop of `base64.b32decode`: five bytes for each eight characters, and the characters left over.
For `piecewise.py:314`. -/
def b32Groups : List Nat → Bytes × List Nat
  | a :: b :: c :: d :: e :: f :: g :: h :: rest =>
    let r := b32Groups rest
    (quintBytes ([a, b, c, d, e, f, g, h].foldl (fun acc v => acc * 32 + v) 0) ++ r.1, r.2)
  | l => ([], l)

/-- A character looked up by `base64.b32decode`. For `piecewise.py:314`. -/
def b32Digit (c : UInt8) : Py Nat :=
  match b32Val c with
  | some v => .ok v
  | none => .error .typeError

/-- `base64.b32decode` of Python 2, called at `piecewise.py:314`: `TypeError` for a length that is no multiple
of 8, for other characters, and for a number of trailing `=` other than 0, 1, 3, 4 or 6. -/
def b32decode (s : Bytes) : Py Bytes := do
  if s.length % 8 ≠ 0 then .error .typeError
  else
    let pad := (s.reverse.takeWhile (· == 61)).length
    let body := s.take (s.length - pad)
    let vals ← body.mapM b32Digit
    let (out, left) := b32Groups vals
    let last := quintBytes ((left ++ List.replicate (8 - left.length) 0).foldl (fun acc v => acc * 32 + v) 0)
    match pad with
    | 0 => .ok out
    | 1 => .ok (out ++ last.take 4)
    | 3 => .ok (out ++ last.take 3)
    | 4 => .ok (out ++ last.take 2)
    | 6 => .ok (out ++ last.take 1)
    | _ => .error .typeError

/-- `s.strip('=')`, `piecewise.py:307` -/
def stripPad (s : Bytes) : Bytes := ((s.dropWhile (· == 61)).reverse.dropWhile (· == 61)).reverse

/-- The variables of the loop of `partial_split_qr_encode`, `piecewise.py:278-280` -/
structure QrState where
  required : Option Nat
  checksum : Option Bytes
  binary : List (Nat × Bytes)

/-- One turn of the loop, `piecewise.py:282-296`; `None`, for a wrong check code, has no items. -/
def qrStep (st : QrState) (privateKey : Option Bytes) : Py QrState := do
  match privateKey with
  | none => .error .typeError
  | some pk =>
    if pk.take 2 ≠ [0x10, 0x01] then .error .valueError
    else do
      let r ← pyIndex pk 3
      let required := st.required.getD r.toNat
      if r.toNat ≠ required then .error .valueError
      else
        let c := (pk.drop 4).take 4
        let checksum := st.checksum.getD c
        if c ≠ checksum then .error .valueError
        else do
          let i ← pyIndex pk 2
          .ok ⟨some required, some checksum, st.binary ++ [(i.toNat, pk.drop 8)]⟩

/-- `<=` on pairs of an integer and a byte string. For `piecewise.py:298`. -/
def pairLe (p q : Nat × Bytes) : Bool := decide (p.1 < q.1) || (decide (p.1 = q.1) && Util.bytesLe p.2 q.2)

/-- Insertion of a pair in a sorted list. For `piecewise.py:298`. -/
def insertPair (p : Nat × Bytes) : List (Nat × Bytes) → List (Nat × Bytes)
  | [] => [p]
  | q :: l => if pairLe p q then p :: q :: l else q :: insertPair p l

/-- `binary.sort()`, `piecewise.py:298` (the order `<=` is total, so every sort gives this list). -/
def sortPairs : List (Nat × Bytes) → List (Nat × Bytes)
  | [] => []
  | p :: l => insertPair p (sortPairs l)

/-- `missing`, `piecewise.py:299-303`: the first place `i` with another index, or the length. -/
def findMissing : Nat → List (Nat × Bytes) → Nat
  | i, [] => i
  | i, p :: l => if p.1 ≠ i then i else findMissing (i + 1) l

/-- `partial_split_qr_encode`, `piecewise.py:275-307`.  In Python 3 the bytes of line 283 differ from the `str`,
so the first key raises `ValueError`; without keys `CHR(None)` raises `TypeError`. -/
def qrEncode (ver : PyVer) (H : Hashes) (privateKeys : List Bytes) : Py Bytes := do
  match ver, privateKeys with
  | .py3, [] => .error .typeError
  | .py3, k :: _ => do
    match ← decodeCheck H k with
    | none => .error .typeError
    | some _ => .error .valueError
  | .py2, privateKeys => do
    let ks ← privateKeys.mapM (decodeCheck H)
    let st ← ks.foldlM qrStep ⟨none, none, []⟩
    let binary := sortPairs st.binary
    let m ← CHR (findMissing 0 binary)
    match st.required, st.checksum with
    | some required, some checksum => do
      let r ← CHR required
      let qr := [0x84, 0x7c, 0x20] ++ m ++ r ++ checksum ++ (binary.map (·.2)).flatten
      .ok (stripPad (b32encode qr))
    | _, _ => .error .typeError

/-- The loop of `partial_split_qr_decode`, `piecewise.py:329-336`; the first argument is the number of turns,
`rest` is `binary[start:]`. -/
def qrLoop (H : Hashes) (missing required : Nat) (checksum : Bytes) :
    Nat → Nat → Bytes → List Bytes → Py (List Bytes)
  | 0, _, _, keys => .ok keys
  | turns + 1, index, rest, keys => do
    let index := if index = missing then index + 1 else index
    let i ← CHR index
    let r ← CHR required
    let key := [0x10, 0x01] ++ i ++ r ++ checksum ++ rest.take 32
    qrLoop H missing required checksum turns (index + 1) (rest.drop 32) (setAdd keys (encodeCheck H key))

/-- `partial_split_qr_decode`, `piecewise.py:309-338`, in Python 2 -/
def qrDecode (H : Hashes) (qrCode : Bytes) : Py (List Bytes) := do
  let padding := (((qrCode.length : Int) * 5 - 9 * 8) % 32).toNat
  let binary ← b32decode (qrCode ++ List.replicate padding 61)
  if binary.take 3 ≠ [0x84, 0x7c, 0x20] then .error .valueError
  else do
    let missing ← pyIndex binary 3
    let required ← pyIndex binary 4
    let checksum := (binary.drop 5).take 4
    qrLoop H missing.toNat required.toNat checksum ((binary.length - 9) / 32) 0 (binary.drop 9) []

end NBC.Piecewise
