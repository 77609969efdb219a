import Verif.Model.Py

/-!
# Two's complement

`twos_comp`, `nbc/util/ecc.py:38-43`.
-/

namespace NBC.Ecc
open NBC

/-- `val & (1 << k)` is not zero: bit `k` of `val`, which for a negative number is that of its two's complement of unbounded
length; for `ecc.py:38-43` -/
def bitSet (val : Int) (k : Nat) : Bool := (val / 2 ^ k) % 2 == 1

/-- `twos_comp`, `ecc.py:38-43`.  A shift by a negative number raises `ValueError`. -/
def twosComp (val bits : Int) : Py Int :=
  if bits - 1 < 0 then .error .valueError
  else if bitSet val (bits - 1).toNat then .ok (val - 2 ^ bits.toNat)
  else .ok val

end NBC.Ecc
