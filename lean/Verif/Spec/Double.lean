import Mathlib.Data.Rat.Defs
import Mathlib.Algebra.Order.Ring.Rat
import Mathlib.Algebra.Order.Group.Abs
import Mathlib.Tactic.Ring

/-!
# Doubles, and the target that compact bits stand for
-/

namespace NBC.Spec

/-- The finite non-negative doubles of IEEE 754: 53 bits, exponents from -1074 to 971. -/
def IsDouble (x : ℚ) : Prop := ∃ (m : ℕ) (e : ℤ), m < 2 ^ 53 ∧ -1074 ≤ e ∧ e ≤ 971 ∧ x = m * 2 ^ e

/-- `d` is the double nearest to `q`, and no other is as near. -/
def NearestDouble (q d : ℚ) : Prop := IsDouble d ∧ ∀ y, IsDouble y → y ≠ d → |d - q| < |y - q|

/-- The target of compact bits: the low 23 bits times a power of 256 given by the bits from 24 on. -/
def compactTarget (bits : ℕ) : ℚ := (bits % 2 ^ 23 : ℕ) * 256 ^ (((bits / 2 ^ 24 : ℕ) : ℤ) - 3)

/-- The target of difficulty one, that of the bits `0x1d00ffff` of the first block. -/
def targetOne : ℚ := 0xffff * 2 ^ 208

end NBC.Spec
