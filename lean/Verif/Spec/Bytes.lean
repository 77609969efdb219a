import Verif.Model.Py

/-!
# Specification of integers as byte strings

Independent of the model's routes: the big-endian value of a digit list.
-/

namespace NBC.Spec
open NBC

/-- Value of a list of digits in base `b`, most significant digit first. -/
def beVal (b : Nat) : List Nat → Nat
  | [] => 0
  | d :: ds => d * b ^ ds.length + beVal b ds

/-- Big-endian value of a byte string. -/
def bytesVal (s : Bytes) : Nat := beVal 256 (s.map UInt8.toNat)

/-- The `l`-byte big-endian representation of `n` (of `n mod 256^l`). -/
def beBytes : Nat → Nat → Bytes
  | 0, _ => []
  | l + 1, n => UInt8.ofNat (n / 256 ^ l) :: beBytes l n

end NBC.Spec
