import Verif.Model.NumberTheory

/-!
# `nbc/util/ecdsa/ellipticcurve.py`

One curve at a time: every point carries the same `CurveFp` object in the code (`__eq__` and the
assertion on line 92 compare curve *objects*), so the curve is a parameter here.  `INFINITY`
(line 182) is `Pt.inf`; any other point has integer coordinates and an optional order.
-/

namespace NBC.EC
open NBC NT

/-- `CurveFp`, `ellipticcurve.py:40-55`; the modulus is a positive integer. -/
structure CurveFp where
  p : Nat
  a : Int
  b : Int
  deriving DecidableEq, Repr

/-- `CurveFp.contains_point`, `ellipticcurve.py:57-59`. -/
def CurveFp.containsPoint (C : CurveFp) (x y : Int) : Bool :=
  (y * y - (x * x * x + C.a * x + C.b)) % (C.p : Int) == 0

/-- `Point`, `ellipticcurve.py:63-74`; `order = None` (or the equally falsy `0`) is `none`/`some 0`. -/
inductive Pt where
  | inf
  | aff (x y : Int) (order : Option Nat)
  deriving DecidableEq, Repr

/-- `Point.x()`, `ellipticcurve.py:168-169`; `None` for `INFINITY`. -/
def Pt.x : Pt → Option Int
  | .inf => none
  | .aff x _ _ => some x

/-- `Point.y()`, `ellipticcurve.py:171-172`. -/
def Pt.y : Pt → Option Int
  | .inf => none
  | .aff _ y _ => some y

/-- `Point.order()`, `ellipticcurve.py:177-178`; `INFINITY` has none. -/
def Pt.order : Pt → Option Nat
  | .inf => none
  | .aff _ _ o => o

/-- `Point.__eq__`, `ellipticcurve.py:76-83`: the order is not compared. -/
def Pt.eq : Pt → Pt → Bool
  | .inf, .inf => true
  | .aff x y _, .aff x' y' _ => x == x' && y == y'
  | _, _ => false

/-- `Point(curve, x, y)` without an order, `ellipticcurve.py:66-74`. -/
def mkPoint0 (C : CurveFp) (x y : Int) : Py Pt := do
  pyAssert (C.containsPoint x y)
  return .aff x y none

/-- `Point.double`, `ellipticcurve.py:149-166`. -/
def double (C : CurveFp) : Pt → Py Pt
  | .inf => .ok .inf
  | .aff x y _ => do
    let p : Int := C.p
    let l := ((3 * x * x + C.a) * (← inverseMod (2 * y) p)) % p
    let x3 := (l * l - 2 * x) % p
    let y3 := (l * (x - x3) - y) % p
    mkPoint0 C x3 y3

/-- `Point.__add__`, `ellipticcurve.py:85-107`. -/
def add (C : CurveFp) (self other : Pt) : Py Pt :=
  match other, self with
  | .inf, _ => .ok self
  | _, .inf => .ok other
  | .aff x2 y2 _, .aff x1 y1 _ =>
    if x1 = x2 then
      if (y1 + y2) % (C.p : Int) = 0 then .ok .inf else double C self
    else do
      let p : Int := C.p
      let l := ((y2 - y1) * (← inverseMod (x2 - x1) p)) % p
      let x3 := (l * l - x1 - x2) % p
      let y3 := (l * (x1 - x3) - y1) % p
      mkPoint0 C x3 y3

/-- `while result <= x: result = 2 * result`, `ellipticcurve.py:115`.  Fuel: `x + 1`. -/
def leftmostLoop (x : Nat) : Nat → Nat → Nat
  | 0, result => result
  | fuel + 1, result => if result ≤ x then leftmostLoop x fuel (2 * result) else result

/-- `leftmost_bit`, `ellipticcurve.py:112-116`, for `x > 0`. -/
def leftmostBit (x : Nat) : Nat := leftmostLoop x (x + 1) 1 / 2

/-- The `while i > 1` loop of `Point.__mul__`, `ellipticcurve.py:131-136`.  Fuel: `i`. -/
def mulLoop (C : CurveFp) (self negSelf : Pt) (e3 e : Nat) : Nat → Nat → Pt → Py Pt
  | 0, _, result => .ok result
  | fuel + 1, i, result =>
    if i > 1 then do
      let result ← double C result
      let result ← if e3 &&& i ≠ 0 ∧ e &&& i = 0 then add C result self else .ok result
      let result ← if e3 &&& i = 0 ∧ e &&& i ≠ 0 then add C result negSelf else .ok result
      mulLoop C self negSelf e3 e fuel (i / 2) result
    else .ok result

/-- `Point.__init__`, `ellipticcurve.py:66-74`, given the multiplication used by the assertion
`self * order == INFINITY` (the two methods call each other). -/
def mkPointWith (mul : Pt → Int → Py Pt) (C : CurveFp) (x y : Int) (order : Option Nat) : Py Pt := do
  pyAssert (C.containsPoint x y)
  match order with
  | none => return .aff x y order
  | some n =>
    if n = 0 then return .aff x y order
    else do
      let r ← mul (.aff x y order) n
      pyAssert (r.eq .inf)
      return .aff x y order

/-- `Point.__mul__`, `ellipticcurve.py:109-138`.  The first argument bounds the depth of the mutual
recursion with the constructor; `RecursionError` beyond it (proved unreachable at depth 2). -/
def mulD (C : CurveFp) : Nat → Pt → Int → Py Pt
  | 0, _, _ => .error .recursionError
  | depth + 1, self, other =>
    let e : Int := match self.order with
      | some n => if n = 0 then other else other % (n : Int)
      | none => other
    if e = 0 then .ok .inf
    else match self with
      | .inf => .ok .inf
      | .aff x y order => do
        pyAssert (decide (e > 0))
        let e3 := 3 * e.toNat
        let negSelf ← mkPointWith (mulD C depth) C x (-y) order
        let i := leftmostBit e3 / 2
        mulLoop C self negSelf e3 e.toNat i i self

/-- `Point.__mul__` / `__rmul__`, `ellipticcurve.py:109-143`. -/
def mul (C : CurveFp) (self : Pt) (other : Int) : Py Pt := mulD C 2 self other

/-- `Point(curve, x, y, order)`, `ellipticcurve.py:66-74`. -/
def mkPoint (C : CurveFp) (x y : Int) (order : Option Nat) : Py Pt :=
  mkPointWith (mulD C 1) C x y order

end NBC.EC
