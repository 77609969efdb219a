import Verif.Model.Keys

/-!
# `VerifyingKey.from_string` with `validate_point`
-/

namespace NBC.Ecdsa
open NBC NT EC

/-- `VerifyingKey.from_string`, `keys.py:33-48`, with its argument `validate_point`. -/
def VerifyingKey.fromStringV (string : Bytes) (c : Curve) (validatePoint : Bool) : Py VerifyingKey := do
  pyAssert (string.length == 2 * c.baselen)
  let xs := string.take c.baselen
  let ys := string.drop c.baselen
  pyAssert (xs.length == c.baselen)
  pyAssert (ys.length == c.baselen)
  let x ← stringToNumber xs
  let y ← stringToNumber ys
  if validatePoint then pyAssert (← pointIsValid c.curve c.order x y)
  let point ← mkPoint c.curve x y (some c.order)
  VerifyingKey.fromPublicPoint point c

end NBC.Ecdsa
