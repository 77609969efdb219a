import Verif.Model.Py

/-!
# `struct.pack` and `struct.unpack` of the standard sizes

Only the integer formats with an explicit byte order (`<` or `>`), as used by `nbc/protocol`,
`nbc/util/__init__.py` and `nbc/wallet`.
-/

namespace NBC.Proto

/-- The integer format characters of `nbc/protocol/format.py:191-200`. -/
inductive Fmt where
  | b | B | h | H | i | I | q | Q
  deriving DecidableEq, Repr

/-- `dict(b=1,h=2,i=4,q=8)[format.lower()]`, `nbc/protocol/format.py:221` -/
def Fmt.size : Fmt → Nat
  | .b | .B => 1
  | .h | .H => 2
  | .i | .I => 4
  | .q | .Q => 8

/-- Lower-case format characters are two's complement. For `nbc/protocol/format.py:217-222,234-253`. -/
def Fmt.signed : Fmt → Bool
  | .b | .h | .i | .q => true
  | .B | .H | .I | .Q => false

/-- The little-endian bytes of `n`, `size` of them. For `nbc/protocol/format.py:217-222,234-253`. -/
def leBytes : Nat → Nat → Bytes
  | 0, _ => []
  | size + 1, n => UInt8.ofNat (n % 256) :: leBytes size (n / 256)

/-- The value of little-endian bytes. For `nbc/protocol/format.py:217-222,234-253`. -/
def leNat : Bytes → Nat
  | [] => 0
  | x :: xs => x.toNat + 256 * leNat xs

/-- The values that a format can hold. For `nbc/protocol/format.py:217-222,234-253`. -/
def Fmt.holds (f : Fmt) (v : Int) : Bool :=
  if f.signed then decide (-(256 ^ f.size / 2 : Nat) ≤ v ∧ v < (256 ^ f.size / 2 : Nat))
  else decide (0 ≤ v ∧ v < (256 ^ f.size : Nat))

/-- `struct.pack(order + f, v)`: `struct.error` outside the range of the format.
For `nbc/protocol/format.py:217-222,234-253`. -/
def pack (f : Fmt) (big : Bool) (v : Int) : Py Bytes :=
  if f.holds v then
    let le := leBytes f.size (v % (256 ^ f.size : Nat)).toNat
    .ok (if big then le.reverse else le)
  else .error .structError

/-- `struct.unpack(order + f, d)[0]`: `struct.error` unless `d` has exactly the size of the format.
For `nbc/protocol/format.py:217-222,234-253`. -/
def unpack (f : Fmt) (big : Bool) (d : Bytes) : Py Int :=
  if d.length ≠ f.size then .error .structError
  else
    let n := leNat (if big then d.reverse else d)
    .ok (if f.signed ∧ 256 ^ f.size / 2 ≤ n then (n : Int) - (256 ^ f.size : Nat) else n)

end NBC.Proto
