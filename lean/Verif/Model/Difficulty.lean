import Verif.Model.Rand
import Mathlib.Data.Rat.Defs

/-!
# `get_difficulty`, `nbc/util/__init__.py:79-81`

A finite float is its rational value.  `bits` is a natural number (the field of a header is one); a negative number
would make the exponent as small as wanted and the quotient `inf`.
-/

namespace NBC.Util
open NBC Ecdsa

/-- `a / b` to the nearest integer, ties to even. For `nbc/util/__init__.py:80-81`. -/
def roundEven (a b : Nat) : Nat :=
  let q := a / b
  let r := a % b
  if b < 2 * r ∨ (2 * r = b ∧ q % 2 = 1) then q + 1 else q

/-- The division of two positive floats with quotient `a / b` (`__truediv__` of `float`, IEEE 754 with 53 bits): the
quotient is scaled by a power of two to lie between `2 ^ 52` and `2 ^ 53`, and rounded to an integer.  Simplified:
neither the subnormal range nor the overflow to `inf` are modelled; `get_difficulty` meets neither.
For `nbc/util/__init__.py:80-81`. -/
def fdiv (a b : Nat) : Rat :=
  let k : Int := 53 - ((Nat.log2 a : Int) - Nat.log2 b)
  let a' := a * 2 ^ k.toNat
  let b' := b * 2 ^ (-k).toNat
  if a' / b' < 2 ^ 53 then (roundEven a' b' : Rat) * 2 ^ (-k) else (roundEven a' (2 * b') : Rat) * 2 ^ (1 - k)

/-- `DifficultyOneTarget`, `nbc/util/__init__.py:79` -/
def difficultyOneTarget : Nat := 26959535291011309493156476344723991336010898738574164086137773096960

/-- `get_difficulty`, `nbc/util/__init__.py:80-81`.  With an exponent of 3 or more the divisor is an integer, which
the division makes a float first (`OverflowError` from `2 ^ 1024` on); below 3 the power of two is a float and so is
the product, which is exact since the first factor has 23 bits. -/
def getDifficulty (bits : Nat) : Py Rat :=
  let m := bits &&& 0x7fffff
  let e : Int := 8 * (((bits >>> 24 : Nat) : Int) - 3)
  if 0 ≤ e then
    let t := m * 2 ^ e.toNat
    if 2 ^ 1024 ≤ round53 t then .error .overflowError
    else if t = 0 then .error .zeroDivisionError
    else .ok (fdiv difficultyOneTarget (round53 t))
  else if m = 0 then .error .zeroDivisionError
  else .ok (fdiv (difficultyOneTarget * 2 ^ (-e).toNat) m)

end NBC.Util
