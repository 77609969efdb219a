import Mathlib.AlgebraicGeometry.EllipticCurve.Affine.Point
import Mathlib.Algebra.Field.ZMod
import Verif.Model.Curve

/-!
# The mathematical elliptic curve

`W C` is the curve `y^2 = x^3 + a x + b` over the integers modulo `p` as defined in Mathlib, with
Mathlib's group law on its points.  `Rep C P Q` says that the Python point `P` denotes the group
element `Q`.
-/

namespace NBC.Spec
open NBC EC

/-- The short Weierstrass curve over `ZMod p`. -/
def W (C : CurveFp) : WeierstrassCurve.Affine (ZMod C.p) :=
  { a₁ := 0, a₂ := 0, a₃ := 0, a₄ := (C.a : ZMod C.p), a₆ := (C.b : ZMod C.p) }

/-- A modulus above 3 (its primality is the instance `Fact C.p.Prime` in the theorems) and
`4 a^3 + 27 b^2 ≠ 0 (mod p)`. -/
structure Good (C : CurveFp) : Prop where
  big : 3 < C.p
  nonsingular : (4 * C.a ^ 3 + 27 * C.b ^ 2) % (C.p : Int) ≠ 0

/-- The Python point `P` (with reduced `x`) denotes the point `Q` of the curve. -/
def Rep (C : CurveFp) (P : Pt) (Q : (W C).Point) : Prop :=
  match P with
  | .inf => Q = .zero
  | .aff x y _ => 0 ≤ x ∧ x < C.p ∧ ∃ h, Q = .some (x : ZMod C.p) (y : ZMod C.p) h

/-- The `y` coordinate is reduced modulo `p`. -/
def Reduced (C : CurveFp) (P : Pt) : Prop :=
  match P with
  | .inf => True
  | .aff _ y _ => 0 ≤ y ∧ y < C.p

/-- The affine equation with integers. -/
def OnCurve (C : CurveFp) (x y : Int) : Prop :=
  y ^ 2 % (C.p : Int) = (x ^ 3 + C.a * x + C.b) % (C.p : Int)

/-- A Python point that is `INFINITY` or satisfies the curve equation. -/
def PtOn (C : CurveFp) (P : Pt) : Prop :=
  match P with
  | .inf => True
  | .aff x y _ => OnCurve C x y

/-- The points a program can get hold of: `INFINITY`, whatever the constructor returned, and the
results of `+`, `*` and `double()` on such points. -/
inductive Built (C : CurveFp) : Pt → Prop
  | inf : Built C .inf
  | new {x y o P} : mkPoint C x y o = .ok P → Built C P
  | add {P Q R} : Built C P → Built C Q → EC.add C P Q = .ok R → Built C R
  | mul {P e R} : Built C P → EC.mul C P e = .ok R → Built C R
  | double {P R} : Built C P → EC.double C P = .ok R → Built C R

end NBC.Spec
