import Verif.Spec.Bytes
import Verif.Spec.Ecdsa

/-!
# Public keys as byte strings (SEC 1, section 2.3.3)
-/

namespace NBC.Spec
open NBC

/-- `04 || X || Y`, 32 bytes each. -/
def uncompressedKey (x y : Nat) : Bytes := 4 :: (beBytes 32 x ++ beBytes 32 y)

/-- `02 || X` or `03 || X` according to the parity of `Y`. -/
def compressedKey (x y : Nat) : Bytes := (if y % 2 = 0 then 2 else 3) :: beBytes 32 x

open Classical in
/-- The one of `y` and `p - y` that is a square modulo `p` (for a prime `p = 4 k + 3` and `y ≠ 0` exactly one is). -/
noncomputable def residueRoot (p y : Nat) : Nat := if ∃ w : Nat, w * w % p = y then y else p - y

end NBC.Spec
