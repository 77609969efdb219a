import Verif.Spec.Curve

/-!
# ECDSA domain parameters
-/

namespace NBC.Spec
open NBC EC

/-- `G` is a generator object of prime order `n > 2` on a non-singular curve, denoting `g`. -/
structure GenOk (C : CurveFp) [Fact C.p.Prime] (G : Pt) (n : Nat) (g : (W C).Point) : Prop where
  good : Good C
  rep : Rep C G g
  order : G.order = some n
  prime : n.Prime
  odd : n ≠ 2
  addOrder : addOrderOf g = n

/-- `P` is a key point object denoting `q` in the subgroup of order `n`; it may or may not carry
the order. -/
structure KeyOk (C : CurveFp) [Fact C.p.Prime] (n : Nat) (P : Pt) (q : (W C).Point) : Prop where
  rep : Rep C P q
  order : P.order = none ∨ P.order = some n
  torsion : n • q = 0

end NBC.Spec
