import Mathlib.Tactic.LinearCombination
import Mathlib.Tactic.Ring
import Mathlib.Tactic.Positivity
import Mathlib.GroupTheory.OrderOfElement
import Verif.Proofs.Arith
import Verif.Spec.Curve

/-!
# The model of `ellipticcurve.py` computes Mathlib's group law
-/

namespace NBC.EC
open NBC NT Spec WeierstrassCurve.Affine

variable {C : CurveFp}

theorem equation_iff_int (C : CurveFp) (x y : Int) :
    (W C).Equation (x : ZMod C.p) (y : ZMod C.p) ↔
      (y * y - (x * x * x + C.a * x + C.b)) % (C.p : Int) = 0 := by
  rw [WeierstrassCurve.Affine.equation_iff, ← Int.dvd_iff_emod_eq_zero,
    ← ZMod.intCast_zmod_eq_zero_iff_dvd]
  simp only [W]
  push_cast
  constructor
  · intro h; linear_combination h
  · intro h; linear_combination h

theorem containsPoint_iff (C : CurveFp) (x y : Int) :
    C.containsPoint x y = true ↔ (W C).Equation (x : ZMod C.p) (y : ZMod C.p) := by
  rw [equation_iff_int]; simp [CurveFp.containsPoint]

theorem onCurve_iff (C : CurveFp) (x y : Int) :
    OnCurve C x y ↔ C.containsPoint x y = true := by
  unfold OnCurve
  simp only [CurveFp.containsPoint, beq_iff_eq]
  rw [Int.emod_eq_emod_iff_emod_sub_eq_zero]
  constructor <;> intro h <;> rw [← h] <;> ring_nf

theorem delta_ne_zero [Fact C.p.Prime] (hC : Good C) : (W C).Δ ≠ 0 := by
  have h4 : (W C).Δ = ((-16 * (4 * C.a ^ 3 + 27 * C.b ^ 2) : Int) : ZMod C.p) := by
    simp only [WeierstrassCurve.Δ, WeierstrassCurve.b₂, WeierstrassCurve.b₄, WeierstrassCurve.b₆,
      WeierstrassCurve.b₈, W]
    push_cast; ring
  have hp : Prime (C.p : Int) := Nat.prime_iff_prime_int.mp Fact.out
  rw [h4, Ne, ZMod.intCast_zmod_eq_zero_iff_dvd]
  intro h
  rcases hp.dvd_mul.mp h with h | h
  · have h16 : (C.p : Int) ∣ 2 ^ 4 := by
      have := (Int.dvd_neg.mpr h); simpa using this
    have h2 := hp.dvd_of_dvd_pow h16
    have := Int.le_of_dvd (by norm_num) h2
    have := hC.big
    omega
  · exact hC.nonsingular (Int.emod_eq_zero_of_dvd h)

theorem nonsingular_of_equation [Fact C.p.Prime] (hC : Good C) {x y : ZMod C.p}
    (h : (W C).Equation x y) : (W C).Nonsingular x y :=
  ((W C).equation_iff_nonsingular_of_Δ_ne_zero (delta_ne_zero hC)).mp h

theorem two_ne_zero_zmod [Fact C.p.Prime] (hC : Good C) : (2 : ZMod C.p) ≠ 0 := by
  intro h
  have : ((2 : Nat) : ZMod C.p) = 0 := by exact_mod_cast h
  rw [ZMod.natCast_eq_zero_iff] at this
  have := Nat.le_of_dvd (by norm_num) this
  have := hC.big
  omega

/-- `inverse_mod` modulo a prime is inversion in the field. -/
theorem inverseMod_zmod (p : Nat) [Fact p.Prime] (a : Int) :
    ((a : ZMod p) ≠ 0 → ∃ i, inverseMod a p = .ok i ∧ (i : ZMod p) = (a : ZMod p)⁻¹ ∧ 1 ≤ i ∧ i < p) ∧
    ((a : ZMod p) = 0 → inverseMod a p = .error .assertionError) := by
  have hp : p.Prime := Fact.out
  have h2 : (2 : Int) ≤ (p : Int) := by exact_mod_cast hp.two_le
  have hs := inverseMod_spec a p h2
  constructor
  · intro ha
    have hg : Int.gcd a p = 1 := by
      rw [Int.gcd_comm]
      apply (Int.isCoprime_iff_gcd_eq_one).mp
      rw [Prime.coprime_iff_not_dvd (Nat.prime_iff_prime_int.mp hp)]
      intro h; exact ha ((ZMod.intCast_zmod_eq_zero_iff_dvd a p).mpr h)
    obtain ⟨i, h1, h2, h3, h4⟩ := hs.1 hg
    refine ⟨i, h1, ?_, h2, h3⟩
    have : ((a * i : Int) : ZMod p) = ((1 : Int) : ZMod p) := by
      rw [ZMod.intCast_eq_intCast_iff']
      rw [h4, Int.emod_eq_of_lt (by norm_num) (by omega)]
    push_cast at this
    exact eq_inv_of_mul_eq_one_right this
  · intro ha
    apply hs.2
    intro hg
    have hd : (p : Int) ∣ a := (ZMod.intCast_zmod_eq_zero_iff_dvd a p).mp ha
    have : (p : Int) ∣ (Int.gcd a p : Int) := Int.dvd_coe_gcd hd dvd_rfl
    rw [hg] at this
    have := Int.le_of_dvd (by norm_num) this
    omega

theorem emod_cast (p : Nat) (a : Int) : ((a % (p : Int) : Int) : ZMod p) = (a : ZMod p) := by
  rw [ZMod.intCast_eq_intCast_iff']
  exact Int.emod_emod_of_dvd _ dvd_rfl

theorem mkPoint0_ok {x y : Int} {R : Pt} (h : mkPoint0 C x y = .ok R) :
    C.containsPoint x y = true ∧ R = .aff x y none := by
  unfold mkPoint0 pyAssert at h
  split at h
  · rename_i hc
    simp only [Bind.bind, Except.bind, Pure.pure, Except.pure] at h
    injection h with h; exact ⟨hc, h.symm⟩
  · cases h

theorem mkPoint0_eq {x y : Int} (h : C.containsPoint x y = true) :
    mkPoint0 C x y = .ok (.aff x y none) := by
  simp [mkPoint0, pyAssert, h, Bind.bind, Except.bind, Pure.pure, Except.pure]

section group
variable [Fact C.p.Prime]

theorem p_pos : (0 : Int) < C.p := by
  exact_mod_cast (Fact.out : C.p.Prime).pos

theorem negY_eq (x y : ZMod C.p) : (W C).negY x y = -y := by
  simp [WeierstrassCurve.Affine.negY, W]

/-- Construction of the sum from a slope. -/
theorem mk_of_slope {x1 y1 x2 y2 l : Int} {h1 : (W C).Nonsingular (x1 : ZMod C.p) (y1 : ZMod C.p)}
    {h2 : (W C).Nonsingular (x2 : ZMod C.p) (y2 : ZMod C.p)}
    (hne : ¬ ((x1 : ZMod C.p) = x2 ∧ (y1 : ZMod C.p) = (W C).negY x2 y2))
    (hl : (l : ZMod C.p) = (W C).slope x1 x2 y1 y2) :
    ∃ R, mkPoint0 C ((l * l - x1 - x2) % C.p)
        ((l * (x1 - (l * l - x1 - x2) % C.p) - y1) % C.p) = .ok R ∧
      Rep C R (Point.some _ _ h1 + Point.some _ _ h2) ∧ Reduced C R ∧ R ≠ .inf := by
  have hx : (((l * l - x1 - x2) % (C.p : Int) : Int) : ZMod C.p)
      = (W C).addX x1 x2 ((W C).slope x1 x2 y1 y2) := by
    rw [emod_cast, ← hl]; simp [WeierstrassCurve.Affine.addX, W]; ring
  have hy : (((l * (x1 - (l * l - x1 - x2) % (C.p : Int)) - y1) % (C.p : Int) : Int) : ZMod C.p)
      = (W C).addY x1 x2 y1 ((W C).slope x1 x2 y1 y2) := by
    rw [emod_cast]
    push_cast
    rw [WeierstrassCurve.Affine.addY, negY_eq, WeierstrassCurve.Affine.negAddY, ← hl]
    rw [hl, ← hx, ← hl]; push_cast; ring
  have hns := nonsingular_add h1 h2 hne
  have hc : C.containsPoint ((l * l - x1 - x2) % C.p)
        ((l * (x1 - (l * l - x1 - x2) % C.p) - y1) % C.p) = true := by
    rw [containsPoint_iff, hx, hy]; exact hns.1
  refine ⟨_, mkPoint0_eq hc, ⟨Int.emod_nonneg _ p_pos.ne', Int.emod_lt_of_pos _ p_pos, ?_⟩,
    ⟨Int.emod_nonneg _ p_pos.ne', Int.emod_lt_of_pos _ p_pos⟩, by simp⟩
  refine ⟨by rw [hx, hy]; exact hns, ?_⟩
  rw [Point.add_some hne]
  simp only [Point.some.injEq]
  exact ⟨hx.symm, hy.symm⟩

/-- `P` has order two (in the group) exactly when `y = 0`. -/
theorem two_torsion_iff (hC : Good C) {x y : Int} {h : (W C).Nonsingular (x : ZMod C.p) (y : ZMod C.p)} :
    Point.some _ _ h + Point.some _ _ h = 0 ↔ (y : ZMod C.p) = 0 := by
  constructor
  · intro h0
    by_contra hy
    have hn : (y : ZMod C.p) ≠ (W C).negY x y := by
      rw [negY_eq]; intro he
      have : (2 : ZMod C.p) * y = 0 := by linear_combination he
      rcases mul_eq_zero.mp this with h | h
      · exact two_ne_zero_zmod hC h
      · exact hy h
    rw [Point.add_self_of_Y_ne hn] at h0
    exact Point.some_ne_zero _ h0
  · intro hy
    apply Point.add_self_of_Y_eq
    rw [negY_eq, hy, neg_zero]

theorem double_spec (hC : Good C) {P : Pt} {Q : (W C).Point} (h : Rep C P Q) :
    (Q = 0 ∨ Q + Q ≠ 0 → ∃ R, double C P = .ok R ∧ Rep C R (Q + Q) ∧ Reduced C R ∧
      (R = .inf → Q = 0)) ∧
    (Q ≠ 0 → Q + Q = 0 → double C P = .error .assertionError) := by
  cases P with
  | inf =>
    have hq : Q = 0 := h
    subst hq
    refine ⟨fun _ => ⟨.inf, rfl, ?_, trivial, fun _ => rfl⟩, fun h => absurd rfl h⟩
    show (0 : (W C).Point) + 0 = 0
    exact zero_add 0
  | aff x y o =>
    obtain ⟨hx0, hxp, hns, rfl⟩ := h
    have hcast2 : ((2 * y : Int) : ZMod C.p) = 2 * (y : ZMod C.p) := by push_cast; rfl
    constructor
    · intro hq
      have hy : (y : ZMod C.p) ≠ 0 := by
        rcases hq with hq | hq
        · exact absurd hq (Point.some_ne_zero _)
        · intro h0; exact hq ((two_torsion_iff hC).mpr h0)
      have h2y : ((2 * y : Int) : ZMod C.p) ≠ 0 := by
        rw [hcast2]; exact mul_ne_zero (two_ne_zero_zmod hC) hy
      obtain ⟨i, hi, hii, -, -⟩ := (inverseMod_zmod C.p (2 * y)).1 h2y
      have hn : (y : ZMod C.p) ≠ (W C).negY x y := by
        rw [negY_eq]; intro he
        apply h2y; rw [hcast2]; linear_combination he
      set l : Int := ((3 * x * x + C.a) * i) % C.p with hl
      have hslope : (l : ZMod C.p) = (W C).slope x x y y := by
        rw [slope_of_Y_ne rfl hn, negY_eq, hl, emod_cast]
        push_cast
        rw [hii, hcast2, eq_div_iff (by rw [sub_neg_eq_add, ← two_mul, ← hcast2]; exact h2y)]
        simp only [W]
        rw [sub_neg_eq_add, ← two_mul, mul_assoc, inv_mul_cancel₀ (by rw [← hcast2]; exact h2y)]
        ring
      obtain ⟨R, hR, h1, h2, h3⟩ := mk_of_slope (h1 := hns) (h2 := hns)
        (fun hh => hn hh.2) hslope
      refine ⟨R, ?_, h1, h2, fun h => absurd h h3⟩
      simp only [double, hi, Bind.bind, Except.bind]
      rw [← hl, show l * l - 2 * x = l * l - x - x by ring]
      exact hR
    · intro _ h0
      have hy := (two_torsion_iff hC).mp h0
      have h2y : ((2 * y : Int) : ZMod C.p) = 0 := by rw [hcast2, hy, mul_zero]
      simp only [double, (inverseMod_zmod C.p (2 * y)).2 h2y, Bind.bind, Except.bind]

theorem cast_inj {x x' : Int} (h0 : 0 ≤ x) (h1 : x < C.p) (h0' : 0 ≤ x') (h1' : x' < C.p)
    (h : (x : ZMod C.p) = x') : x = x' := by
  rw [ZMod.intCast_eq_intCast_iff', Int.emod_eq_of_lt h0 h1, Int.emod_eq_of_lt h0' h1'] at h
  exact h

theorem add_spec (hC : Good C) {P P' : Pt} {Q Q' : (W C).Point} (h : Rep C P Q) (h' : Rep C P' Q') :
    ∃ R, add C P P' = .ok R ∧ Rep C R (Q + Q') ∧
      (Reduced C P → Reduced C P' → Reduced C R) ∧ (Q ≠ 0 → Q' ≠ 0 → Reduced C R) := by
  cases P' with
  | inf =>
    have hq : Q' = 0 := h'
    subst hq
    refine ⟨P, by cases P <;> rfl, by rwa [add_zero], fun h _ => h, fun _ h => absurd rfl h⟩
  | aff x2 y2 o2 =>
    cases P with
    | inf =>
      have hq : Q = 0 := h
      subst hq
      exact ⟨_, rfl, by rwa [zero_add], fun _ h => h, fun h => absurd rfl h⟩
    | aff x1 y1 o1 =>
      obtain ⟨hx0, hxp, hns, rfl⟩ := id h
      obtain ⟨hx0', hxp', hns', rfl⟩ := id h'
      simp only [add]
      split
      · rename_i hxx
        subst hxx
        split
        · rename_i hyy
          have hy : (y1 : ZMod C.p) = (W C).negY x1 y2 := by
            rw [negY_eq]
            have : ((y1 + y2 : Int) : ZMod C.p) = 0 := by
              rw [ZMod.intCast_zmod_eq_zero_iff_dvd]; exact Int.dvd_of_emod_eq_zero hyy
            push_cast at this
            linear_combination this
          refine ⟨.inf, rfl, ?_, fun _ _ => trivial, fun _ _ => trivial⟩
          exact Point.add_of_Y_eq rfl hy
        · rename_i hyy
          have hsum : (y1 : ZMod C.p) ≠ -y2 := by
            intro he
            apply hyy
            apply Int.emod_eq_zero_of_dvd
            rw [← ZMod.intCast_zmod_eq_zero_iff_dvd]
            push_cast; rw [he]; ring
          have hyeq : (y1 : ZMod C.p) = y2 := by
            have := Y_eq_of_X_eq hns.1 hns'.1 rfl
            rw [negY_eq] at this
            exact this.resolve_right hsum
          have hqq : Point.some _ _ hns' = Point.some _ _ hns := by
            simp [hyeq]
          rw [hqq]
          have hy0 : (y1 : ZMod C.p) ≠ 0 := by
            intro h0; apply hsum; rw [← hyeq, h0, neg_zero]
          obtain ⟨R, h1, h2, h3, -⟩ := (double_spec hC h).1
            (Or.inr fun h0 => hy0 ((two_torsion_iff hC).mp h0))
          exact ⟨R, h1, h2, fun _ _ => h3, fun _ _ => h3⟩
      · rename_i hxx
        have hxne : (x1 : ZMod C.p) ≠ x2 := fun he => hxx (cast_inj hx0 hxp hx0' hxp' he)
        have hd : ((x2 - x1 : Int) : ZMod C.p) ≠ 0 := by
          push_cast; exact sub_ne_zero.mpr hxne.symm
        obtain ⟨i, hi, hii, -, -⟩ := (inverseMod_zmod C.p (x2 - x1)).1 hd
        set l : Int := ((y2 - y1) * i) % C.p with hl
        have hslope : (l : ZMod C.p) = (W C).slope x1 x2 y1 y2 := by
          rw [slope_of_X_ne hxne, hl, emod_cast]
          push_cast
          rw [hii, eq_div_iff (sub_ne_zero.mpr hxne)]
          have : ((x2 - x1 : Int) : ZMod C.p)⁻¹ * ((x2 : ZMod C.p) - x1) = 1 := by
            push_cast; push_cast at hd; exact inv_mul_cancel₀ hd
          linear_combination ((y1 : ZMod C.p) - y2) * this
        obtain ⟨R, hR, h1, h2, h3⟩ := mk_of_slope (h1 := hns) (h2 := hns')
          (fun hh => hxne hh.1) hslope
        refine ⟨R, ?_, h1, fun _ _ => h2, fun _ _ => h2⟩
        simp only [hi, Bind.bind, Except.bind]
        exact hR

end group
end NBC.EC
