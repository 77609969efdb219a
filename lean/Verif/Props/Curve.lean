import Verif.Proofs.CurveOn

/-!
# C16-C19: elliptic curve points
-/

namespace NBC.Props
open NBC EC Spec

/-- C16.  `P + P'` never raises and is the sum in the group of the curve. -/
theorem C16_add {C : CurveFp} [Fact C.p.Prime] (hC : Good C) {P P' : Pt} {Q Q' : (W C).Point}
    (h : Rep C P Q) (h' : Rep C P' Q') :
    ∃ R, add C P P' = .ok R ∧ Rep C R (Q + Q') := by
  obtain ⟨R, h1, h2, -⟩ := add_spec hC h h'
  exact ⟨R, h1, h2⟩

/-- C16.  `P.double()` is `P + P`, except that it raises for the points of order two. -/
theorem C16_double {C : CurveFp} [Fact C.p.Prime] (hC : Good C) {P : Pt} {Q : (W C).Point}
    (h : Rep C P Q) :
    (addOrderOf Q ≠ 2 → ∃ R, double C P = .ok R ∧ Rep C R (Q + Q)) ∧
    (addOrderOf Q = 2 → double C P = .error .assertionError) := by
  constructor
  · intro hq
    have : Q = 0 ∨ Q + Q ≠ 0 := by
      by_contra hn
      push Not at hn
      apply hq
      rw [addOrderOf_eq_prime_iff, two_nsmul]
      exact ⟨hn.2, hn.1⟩
    obtain ⟨R, h1, h2, -⟩ := (double_spec hC h).1 this
    exact ⟨R, h1, h2⟩
  · intro hq
    rw [addOrderOf_eq_prime_iff, two_nsmul] at hq
    exact (double_spec hC h).2 hq.2 hq.1

/-- C17.  `P * e` is `e` times the point, whether or not the object carries an order (which may be
any multiple of the true order), for every non-negative `e` - and for negative `e` too when the
order is known.  Its coordinates are reduced when `e` is below the order of the point. -/
theorem C17_mul {C : CurveFp} [Fact C.p.Prime] (hC : Good C) {P : Pt} {Q : (W C).Point}
    (h : Rep C P Q) (hodd : Odd (addOrderOf Q)) (e : Int)
    (ho : P.order = none ∧ 0 ≤ e ∨ ∃ n : Nat, 0 < n ∧ P.order = some n ∧ n • Q = 0) :
    ∃ R, mul C P e = .ok R ∧ Rep C R (e • Q) ∧
      (0 ≤ e → e < addOrderOf Q → Reduced C P → Reduced C R) :=
  mul_ok hC h hodd e ho

/-- C17.  Whatever the order of the point, a result that is returned is the right one. -/
theorem C17_mul_sound {C : CurveFp} [Fact C.p.Prime] (hC : Good C) {P R : Pt} {Q : (W C).Point}
    (h : Rep C P Q) (ho : P.order = none) (e : Int) (hr : mul C P e = .ok R) :
    Rep C R (e • Q) := by
  have heff : effScalar P e = e := by simp [effScalar, ho]
  have hs := mulD_spec hC 0 h e
  rw [heff] at hs
  unfold mul at hr
  by_cases he : 0 ≤ e
  · rcases hs.1 he with ⟨R', a, b, -⟩ | ⟨a, -⟩
    · rw [a] at hr; injection hr with hr; subst hr; exact b
    · rw [a] at hr; cases hr
  · by_cases hq : Q = 0
    · subst hq
      cases P with
      | inf =>
        rw [zsmul_zero]
        have : mulD C 2 .inf e = .ok .inf := by simp [mulD]
        rw [this] at hr; injection hr with hr; subst hr; exact rfl
      | aff x y o =>
        obtain ⟨-, -, hns, h⟩ := h
        exact absurd h.symm (WeierstrassCurve.Affine.Point.some_ne_zero _)
    · rw [hs.2 (by omega) hq] at hr; cases hr

/-- C18.  The constructor rejects exactly the coordinates that are off the curve. -/
theorem C18_constructor (C : CurveFp) (x y : Int) (o : Option Nat) :
    (¬ OnCurve C x y → mkPoint C x y o = .error .assertionError) ∧
    (OnCurve C x y → mkPoint C x y o = .ok (.aff x y o)) := by
  rw [mkPoint_eq, onCurve_iff]
  constructor <;> intro h <;> simp [h]

/-- C18.  Every point obtained from constructors, `+`, `*` and `double()` is on the curve. -/
theorem C18_closed {C : CurveFp} {P : Pt} (h : Built C P) : PtOn C P := built_on h

/-- The curve used in the X9.62 examples. -/
def c23 : CurveFp := ⟨23, 1, 1⟩

/-- C19 is false: the constructor accepts the order 5 for a point whose order is 28.  The assertion
`self * order == INFINITY` reduces the scalar modulo that very order first. -/
theorem C19_declared_order_false :
    ¬ ∀ (C : CurveFp) (x y : Int) (n : Nat), 0 < n →
      (∃ P, mkPoint C x y (some n) = .ok P) → mul C (.aff x y none) n = .ok .inf := by
  intro h
  have := h c23 3 10 5 (by norm_num) ⟨.aff 3 10 (some 5), by decide +kernel⟩
  revert this; decide +kernel

/-- C19.  In fact no declared order is ever rejected for a point of the curve. -/
theorem C19_declared_order_partial (C : CurveFp) (x y : Int) (h : OnCurve C x y) (n : Nat) :
    mkPoint C x y (some n) = .ok (.aff x y (some n)) :=
  (C18_constructor C x y (some n)).2 h

/-! ### Concrete cases -/

instance : Fact (Nat.Prime c23.p) := ⟨by decide⟩

theorem good_c23 : Good c23 := ⟨by decide, by decide⟩

theorem rep_c23 {x y : Int} (o : Option Nat) (hx : 0 ≤ x) (hx' : x < 23)
    (h : c23.containsPoint x y = true) :
    ∃ Q, Rep c23 (.aff x y o) Q :=
  ⟨_, hx, hx', nonsingular_of_equation good_c23 ((containsPoint_iff c23 x y).mp h), rfl⟩

/-- The X9.62 examples `(3,10) + (9,7) = (17,20)` and `2 (3,10) = (7,12)`. -/
example : add c23 (.aff 3 10 none) (.aff 9 7 none) = .ok (.aff 17 20 none) ∧
    double c23 (.aff 3 10 none) = .ok (.aff 7 12 none) := by decide +kernel

/-- A point of order two: `double` raises, `+` gives `INFINITY`. -/
example : c23.containsPoint 4 0 = true ∧ double c23 (.aff 4 0 none) = .error .assertionError ∧
    add c23 (.aff 4 0 none) (.aff 4 0 none) = .ok .inf := by decide +kernel

/-- `(13,7)` has order 7. -/
theorem c23_order7 {Q : (W c23).Point} (h : Rep c23 (.aff 13 7 none) Q) : addOrderOf Q = 7 := by
  have h7 := C17_mul_sound good_c23 h rfl 7 (R := .inf) (by decide +kernel)
  have : Fact (Nat.Prime 7) := ⟨by decide⟩
  rw [addOrderOf_eq_prime_iff]
  refine ⟨by have : (7 : Int) • Q = 0 := h7; exact_mod_cast this, ?_⟩
  obtain ⟨-, -, hns, rfl⟩ := h
  exact WeierstrassCurve.Affine.Point.some_ne_zero _

/-- `C17_mul` applies to `(13,7)` of order 7, with and without the order, for any scalar. -/
example : ∃ Q, Rep c23 (.aff 13 7 none) Q ∧ Rep c23 (.aff 13 7 (some 7)) Q ∧
    Odd (addOrderOf Q) ∧ 7 • Q = 0 ∧
    mul c23 (.aff 13 7 none) 12 = .ok (.aff 5 19 none) ∧
    mul c23 (.aff 13 7 (some 7)) (-2) = .ok (.aff 5 19 none) := by
  obtain ⟨Q, hQ⟩ := rep_c23 none (x := 13) (y := 7) (by norm_num) (by norm_num) (by decide)
  have ho := c23_order7 hQ
  refine ⟨Q, hQ, hQ, by rw [ho]; decide, by rw [← ho]; exact addOrderOf_nsmul_eq_zero Q, ?_, ?_⟩ <;>
    decide +kernel

/-- C86 is false: two results denoting the same point can compare unequal.  `6 * (13,7)` is
`(13,16)` and `27 * (13,7)`, the same point of the group, comes out as `(13,-7)`. -/
theorem C86_point_equality_false :
    ¬ ∀ (C : CurveFp) (P P' : Pt) (Q : (W C).Point), Built C P → Built C P' →
      Rep C P Q → Rep C P' Q → P.eq P' = true := by
  intro h
  obtain ⟨Q, hQ⟩ := rep_c23 none (x := 13) (y := 7) (by norm_num) (by norm_num) (by decide)
  have ho := c23_order7 hQ
  have h0 : Built c23 (.aff 13 7 none) := .new (x := 13) (y := 7) (o := none) (by decide +kernel)
  have e6 : mul c23 (.aff 13 7 none) 6 = .ok (.aff 13 16 none) := by decide +kernel
  have e27 : mul c23 (.aff 13 7 none) 27 = .ok (.aff 13 (-7) none) := by decide +kernel
  have r6 := C17_mul_sound good_c23 hQ rfl 6 e6
  have r27 := C17_mul_sound good_c23 hQ rfl 27 e27
  have hsame : (27 : Int) • Q = (6 : Int) • Q := by
    have h7 : (7 : Int) • Q = 0 := by
      rw [← addOrderOf_dvd_iff_zsmul_eq_zero, ho]; decide
    rw [show (27 : Int) = 6 + 3 * 7 by norm_num, add_zsmul, mul_zsmul, h7, zsmul_zero, add_zero]
  rw [hsame] at r27
  have := h c23 _ _ _ (.mul h0 e6) (.mul h0 e27) r6 r27
  revert this; decide

/-- C86.  Equality is exact for points with reduced coordinates, which `*` returns for scalars
below the order of the point (`C17_mul`) and `+` preserves. -/
theorem C86_point_equality_partial {C : CurveFp} [Fact C.p.Prime] {P P' : Pt} {Q Q' : (W C).Point}
    (h : Rep C P Q) (h' : Rep C P' Q') (hr : Reduced C P) (hr' : Reduced C P') :
    P.eq P' = true ↔ Q = Q' := by
  cases P with
  | inf =>
    have hq : Q = 0 := h
    subst hq
    cases P' with
    | inf =>
      have hq : Q' = 0 := h'
      subst hq; simp [Pt.eq]
    | aff x' y' o' =>
      obtain ⟨-, -, hns', rfl⟩ := h'
      simp only [Pt.eq, Bool.false_eq_true, false_iff]
      exact (WeierstrassCurve.Affine.Point.some_ne_zero _).symm
  | aff x y o =>
    obtain ⟨hx0, hx1, hns, rfl⟩ := h
    cases P' with
    | inf =>
      have hq : Q' = 0 := h'
      subst hq
      simp only [Pt.eq, Bool.false_eq_true, false_iff]
      exact WeierstrassCurve.Affine.Point.some_ne_zero _
    | aff x' y' o' =>
      obtain ⟨hx0', hx1', hns', rfl⟩ := h'
      simp only [Pt.eq, Bool.and_eq_true, beq_iff_eq, WeierstrassCurve.Affine.Point.some.injEq]
      constructor
      · rintro ⟨rfl, rfl⟩; exact ⟨rfl, rfl⟩
      · rintro ⟨h1, h2⟩
        exact ⟨EC.cast_inj hx0 hx1 hx0' hx1' h1, EC.cast_inj hr.1 hr.2 hr'.1 hr'.2 h2⟩

/-- C86.  `+` keeps coordinates reduced and so does `double()`. -/
theorem C86_reduced_partial {C : CurveFp} [Fact C.p.Prime] (hC : Good C) {P P' R : Pt}
    {Q Q' : (W C).Point} (h : Rep C P Q) (h' : Rep C P' Q') (hr : Reduced C P) (hr' : Reduced C P') :
    (add C P P' = .ok R → Reduced C R) ∧ (double C P = .ok R → Reduced C R) := by
  constructor
  · intro ha
    obtain ⟨R', h1, -, h3, -⟩ := add_spec hC h h'
    rw [h1] at ha; injection ha with ha; subst ha; exact h3 hr hr'
  · intro ha
    by_cases hq : Q = 0 ∨ Q + Q ≠ 0
    · obtain ⟨R', h1, -, h3, -⟩ := (double_spec hC h).1 hq
      rw [h1] at ha; injection ha with ha; subst ha; exact h3
    · push Not at hq
      rw [(double_spec hC h).2 hq.1 hq.2] at ha; cases ha

end NBC.Props
