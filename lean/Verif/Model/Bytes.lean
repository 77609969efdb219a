import Verif.Model.Py

/-!
# Integers as byte strings

Models the hexadecimal route the code takes between integers and byte strings
(`"%x" %`, `binascii.hexlify`, `binascii.unhexlify`, `int(.., 16)`).
-/

namespace NBC

/-- Digits of `n` in base `b`, most significant first, `0` giving no digit; the accumulator loop
`while i: i, d = divmod(i, b); s = [d] + s`.  The first argument is loop fuel (`n` is enough).
For `nbc/util/base58.py:33-35`. -/
def digitsLoop (b : Nat) : Nat → Nat → List Nat → List Nat
  | 0, _, acc => acc
  | fuel + 1, n, acc => if n = 0 then acc else digitsLoop b fuel (n / b) (n % b :: acc)

/-- Big-endian digits of `n` in base `b` (no leading zero; `[]` for `0`). For `nbc/util/base58.py:33-35`. -/
def digitsBE (b n : Nat) : List Nat := digitsLoop b n n []

/-- One lowercase hexadecimal digit as an ASCII code.
For `nbc/util/ecdsa/curves.py:8-9`, `nbc/util/ecdsa/der.py:14,133`. -/
def hexDigit (d : Nat) : UInt8 :=
  if d < 10 then UInt8.ofNat (48 + d) else UInt8.ofNat (87 + d)

/-- Value of a hexadecimal digit character, both cases (`binascii.unhexlify`, `int(.., 16)`).
For `nbc/util/ecdsa/curves.py:8-9`, `nbc/util/ecdsa/der.py:14,133`. -/
def hexVal (c : UInt8) : Option Nat :=
  if 48 ≤ c.toNat ∧ c.toNat ≤ 57 then some (c.toNat - 48)
  else if 97 ≤ c.toNat ∧ c.toNat ≤ 102 then some (c.toNat - 87)
  else if 65 ≤ c.toNat ∧ c.toNat ≤ 70 then some (c.toNat - 55)
  else none

/-- `"%x" % n` for `n ≥ 0`: at least one digit. For `nbc/util/ecdsa/curves.py:8-9`, `nbc/util/ecdsa/der.py:14,133`. -/
def fmtHexNat (n : Nat) : Bytes :=
  if n = 0 then [48] else (digitsBE 16 n).map hexDigit

/-- `"%0<w>x" % n` for any int: zero padded to width `w`, the sign counting for the width.
For `nbc/util/ecdsa/util.py:161-166`, `nbc/util/ecdsa/util.py:168-172`. -/
def fmtHexPad (w : Nat) (n : Int) : Bytes :=
  let h := fmtHexNat n.natAbs
  if n < 0 then 45 :: (List.replicate (w - 1 - h.length) 48 ++ h)
  else List.replicate (w - h.length) 48 ++ h

/-- `binascii.unhexlify`: odd length or a non-hexadecimal character raises `binascii.Error`
(`TypeError` in Python 2). For `nbc/util/ecdsa/util.py:161-166`, `nbc/util/ecdsa/util.py:168-172`. -/
def unhexlify : Bytes → Py Bytes
  | [] => .ok []
  | [_] => .error .binasciiError
  | a :: b :: rest =>
    match hexVal a, hexVal b with
    | some x, some y =>
      match unhexlify rest with
      | .ok r => .ok (UInt8.ofNat (16 * x + y) :: r)
      | .error e => .error e
    | _, _ => .error .binasciiError

/-- `binascii.hexlify`. For `nbc/util/ecdsa/util.py:174-175`, `nbc/util/ecdsa/util.py:177-180`. -/
def hexlify (s : Bytes) : Bytes :=
  s.flatMap fun c => [hexDigit (c.toNat / 16), hexDigit (c.toNat % 16)]

/-- One digit of `int(s, 16)`. For `nbc/util/ecdsa/util.py:174-175`, `nbc/util/ecdsa/util.py:177-180`. -/
def hexStep (acc : Nat) (c : UInt8) : Py Nat :=
  match hexVal c with
  | some d => .ok (16 * acc + d)
  | none => .error .valueError

/-- `int(s, 16)` on plain digit strings: the empty string and non-digits raise `ValueError`.
(Simplified: the sign, `0x`, underscore and blank forms that `int` also takes are not reachable
from `hexlify` output and raise here.) For `nbc/util/ecdsa/util.py:174-175`, `nbc/util/ecdsa/util.py:177-180`. -/
def intOfHex (s : Bytes) : Py Nat :=
  match s with
  | [] => .error .valueError
  | _ => s.foldlM hexStep 0

/-- `orderlen`, `nbc/util/ecdsa/curves.py:8-9`. -/
def orderlen (order : Nat) : Nat := (1 + (fmtHexNat order).length) / 2

/-- `number_to_string`, `nbc/util/ecdsa/util.py:161-166`. -/
def numberToString (num : Int) (order : Nat) : Py Bytes := do
  let l := orderlen order
  let string ← unhexlify (fmtHexPad (2 * l) num)
  pyAssert (string.length == l)
  return string

/-- `number_to_string_crop`, `nbc/util/ecdsa/util.py:168-172`. -/
def numberToStringCrop (num : Int) (order : Nat) : Py Bytes := do
  let l := orderlen order
  let string ← unhexlify (fmtHexPad (2 * l) num)
  return string.take l

/-- `string_to_number`, `nbc/util/ecdsa/util.py:174-175`. -/
def stringToNumber (s : Bytes) : Py Nat := intOfHex (hexlify s)

/-- `string_to_number_fixedlen`, `nbc/util/ecdsa/util.py:177-180`. -/
def stringToNumberFixedlen (s : Bytes) (order : Nat) : Py Nat := do
  let l := orderlen order
  pyAssert (s.length == l)
  intOfHex (hexlify s)

end NBC
