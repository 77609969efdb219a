import Mathlib.GroupTheory.Perm.Cycle.Type
import Mathlib.FieldTheory.Finite.Basic
import Verif.Proofs.Ecdsa

/-!
# Counting the points of a curve

If the generator has prime order `n`, `2 p + 1 < 3 n`, and `x^3 + a x + b` has no root, then the curve has exactly
`n` points.  That the cubic has no root is checked by computing `X^p - X` modulo the cubic and inverting it.
-/

namespace NBC.EC
open NBC NT Spec WeierstrassCurve.Affine

/-! ## polynomials of degree two, packed into one number -/

/-- The base in which the three coefficients are digits. -/
def base : Nat := 2 ^ 600

/-- Three coefficients modulo `p` as one number. -/
def packQ (p c0 c1 c2 : Nat) : Nat := c0 % p + base * (c1 % p + base * (c2 % p))

/-- The product modulo `X^3 = A X + B`. -/
def mulQ (p A B u v : Nat) : Nat :=
  packQ p
    (u % base * (v % base) + B * (u / base % base * (v / base / base) + u / base / base * (v / base % base)))
    (u % base * (v / base % base) + u / base % base * (v % base) +
      A * (u / base % base * (v / base / base) + u / base / base * (v / base % base)) +
      B * (u / base / base * (v / base / base)))
    (u % base * (v / base / base) + u / base % base * (v / base % base) + u / base / base * (v % base) +
      A * (u / base / base * (v / base / base)))

/-- Powers modulo the cubic. -/
def powQ (p A B : Nat) : Nat → Nat → Nat → Nat → Nat
  | 0, _, _, acc => acc
  | fuel + 1, b, e, acc =>
    if e = 0 then acc
    else powQ p A B fuel (mulQ p A B b b) (e / 2) (if e % 2 = 1 then mulQ p A B acc b else acc)

/-- The value of a packed polynomial. -/
def evQ {p : Nat} (r : ZMod p) (u : Nat) : ZMod p :=
  ((u % base : Nat) : ZMod p) + ((u / base % base : Nat) : ZMod p) * r + ((u / base / base : Nat) : ZMod p) * r ^ 2

section
variable {p A B : Nat} {r : ZMod p}

theorem ev_pack (hp : 0 < p) (hb : p ≤ base) (c0 c1 c2 : Nat) :
    evQ r (packQ p c0 c1 c2) = c0 + c1 * r + c2 * r ^ 2 := by
  have hB : 0 < base := by omega
  have h0 : c0 % p < base := lt_of_lt_of_le (Nat.mod_lt _ hp) hb
  have h1 : c1 % p < base := lt_of_lt_of_le (Nat.mod_lt _ hp) hb
  have e0 : packQ p c0 c1 c2 % base = c0 % p := by
    rw [packQ, Nat.add_mul_mod_self_left, Nat.mod_eq_of_lt h0]
  have e1 : packQ p c0 c1 c2 / base = c1 % p + base * (c2 % p) := by
    rw [packQ, Nat.add_mul_div_left _ _ hB, Nat.div_eq_of_lt h0, Nat.zero_add]
  rw [evQ, e0, e1, Nat.add_mul_mod_self_left, Nat.mod_eq_of_lt h1, Nat.add_mul_div_left _ _ hB, Nat.div_eq_of_lt h1,
    Nat.zero_add]
  simp only [ZMod.natCast_mod]

theorem ev_mul (hp : 0 < p) (hb : p ≤ base) (hr : r ^ 3 = A * r + B) (u v : Nat) :
    evQ r (mulQ p A B u v) = evQ r u * evQ r v := by
  rw [mulQ, ev_pack hp hb]
  unfold evQ
  push_cast
  generalize ((u % base : Nat) : ZMod p) = u0
  generalize ((u / base % base : Nat) : ZMod p) = u1
  generalize ((u / base / base : Nat) : ZMod p) = u2
  generalize ((v % base : Nat) : ZMod p) = v0
  generalize ((v / base % base : Nat) : ZMod p) = v1
  generalize ((v / base / base : Nat) : ZMod p) = v2
  linear_combination (-(u1 * v2 + u2 * v1) - u2 * v2 * r) * hr

theorem ev_pow (hp : 0 < p) (hb : p ≤ base) (hr : r ^ 3 = A * r + B) (fuel b e acc : Nat) (he : e < 2 ^ fuel) :
    evQ r (powQ p A B fuel b e acc) = evQ r acc * evQ r b ^ e := by
  induction fuel generalizing b e acc with
  | zero =>
    have : e = 0 := by omega
    subst this
    simp [powQ]
  | succ fuel ih =>
    rw [powQ]
    split
    · rename_i h; simp [h]
    · rw [ih _ _ _ (by rw [pow_succ] at he; omega), ev_mul hp hb hr]
      have h2 := Nat.div_add_mod e 2
      split
      · rename_i h1
        rw [h1] at h2
        rw [ev_mul hp hb hr]
        nth_rewrite 2 [← h2]
        rw [pow_succ, pow_mul, pow_two]
        ring
      · have h0 : e % 2 = 0 := by omega
        rw [h0] at h2
        nth_rewrite 2 [← h2]
        rw [Nat.add_zero, pow_mul, pow_two]

/-- The certificate: `u` inverts `X^p - X` modulo the cubic. -/
def noRootCert (p A B u : Nat) : Bool :=
  let q := powQ p A B 600 base p 1
  mulQ p A B u (packQ p (q % base) (q / base % base + (p - 1)) (q / base / base)) == 1

theorem no_root [Fact p.Prime] {u : Nat} (hb : p < base) (h : noRootCert p A B u = true) : r ^ 3 ≠ A * r + B := by
  intro hr
  have hp : 0 < p := (Fact.out : p.Prime).pos
  unfold noRootCert at h
  simp only [beq_iff_eq] at h
  have hq := ev_pow hp hb.le hr 600 base p 1 (by exact hb)
  have h1 : evQ r 1 = 1 := by
    have : (1 : Nat) = packQ p 1 0 0 := by
      have : 1 < p := (Fact.out : p.Prime).one_lt
      simp [packQ, Nat.mod_eq_of_lt this]
    rw [this, ev_pack hp hb.le]; simp
  have hx : evQ r base = r := by
    have h : (base : Nat) = packQ p 0 1 0 := by
      have : 1 < p := (Fact.out : p.Prime).one_lt
      simp [packQ, Nat.mod_eq_of_lt this]
    rw [h, ev_pack hp hb.le]; simp
  rw [h1, hx, ZMod.pow_card, one_mul] at hq
  have hm := congrArg (evQ r) h
  rw [h1, ev_mul hp hb.le hr, ev_pack hp hb.le] at hm
  have hz : ((powQ p A B 600 base p 1 % base : Nat) : ZMod p) +
      ((powQ p A B 600 base p 1 / base % base + (p - 1) : Nat) : ZMod p) * r +
      ((powQ p A B 600 base p 1 / base / base : Nat) : ZMod p) * r ^ 2 = 0 := by
    have hp1 : ((p - 1 : Nat) : ZMod p) = -1 := by
      rw [Nat.cast_sub (Fact.out : p.Prime).one_lt.le]; simp
    rw [Nat.cast_add, hp1]
    unfold evQ at hq
    linear_combination hq
  rw [hz, mul_zero] at hm
  exact zero_ne_one hm

end

/-! ## the number of points -/

section
variable {C : CurveFp} [Fact C.p.Prime]

/-- A point is determined by `x` and the parity of `y`. -/
def codePt : (W C).Point → Option (ZMod C.p × Bool)
  | .zero => none
  | .some x y _ => some (x, y.val % 2 == 1)

theorem codePt_injective (hg : Good C) : Function.Injective (codePt (C := C)) := by
  intro P Q h
  cases P with
  | zero => cases Q with
    | zero => rfl
    | some => cases h
  | some x y hxy => cases Q with
    | zero => cases h
    | some x' y' hxy' =>
      simp only [codePt, Option.some.injEq, Prod.mk.injEq] at h
      obtain ⟨rfl, hpar⟩ := h
      rcases Y_eq_of_X_eq hxy.1 hxy'.1 rfl with hy | hy
      · subst hy; rfl
      · rw [negY_eq] at hy
        by_cases h0 : y' = 0
        · subst h0; simp at hy; subst hy; rfl
        · exfalso
          have hv : y.val = C.p - y'.val := by
            have : NeZero y' := ⟨h0⟩
            rw [hy, ZMod.val_neg_of_ne_zero]
          have h1 : y'.val < C.p := ZMod.val_lt y'
          have h2 : C.p % 2 = 1 := by
            rcases (Fact.out : C.p.Prime).eq_two_or_odd with h | h
            · have := hg.big; omega
            · exact h
          have h3 : (y.val % 2 == 1) = (y'.val % 2 == 1) := hpar
          have h4 : y.val % 2 = 1 ↔ y'.val % 2 = 1 := by
            constructor <;> intro h
            · rw [h] at h3; simpa using h3.symm
            · rw [h] at h3; simpa using h3
          omega

theorem card_points {n : Nat} {g : (W C).Point} (hg : Good C) (hg0 : addOrderOf g = n)
    (hp : 2 * C.p + 1 < n * 3) (hroot : ∀ x : ZMod C.p, ¬ (W C).Equation x 0) :
    Finite (W C).Point ∧ Nat.card (W C).Point = n := by
  have : Finite (W C).Point := Finite.of_injective _ (codePt_injective hg)
  refine ⟨this, ?_⟩
  have := Fintype.ofFinite (W C).Point
  rw [Nat.card_eq_fintype_card]
  have hd : n ∣ Fintype.card (W C).Point := by rw [← hg0]; exact addOrderOf_dvd_card
  obtain ⟨c, hc⟩ := hd
  have hle : Fintype.card (W C).Point ≤ 2 * C.p + 1 := by
    have := Fintype.card_le_of_injective _ (codePt_injective hg)
    rw [Fintype.card_option, Fintype.card_prod, ZMod.card, Fintype.card_bool] at this
    omega
  have hpos : 0 < Fintype.card (W C).Point := Fintype.card_pos
  have hc3 : c < 3 := by
    by_contra h
    have : n * 3 ≤ n * c := Nat.mul_le_mul_left _ (by omega)
    omega
  have hc0 : c ≠ 0 := by rintro rfl; omega
  have hc2 : c ≠ 2 := by
    rintro rfl
    have : 2 ∣ Fintype.card (W C).Point := by rw [hc]; exact dvd_mul_left 2 n
    obtain ⟨P, hP⟩ := exists_prime_addOrderOf_dvd_card 2 this
    have : Fact (Nat.Prime 2) := ⟨Nat.prime_two⟩
    rw [addOrderOf_eq_prime_iff, two_nsmul] at hP
    cases P with
    | zero => exact hP.2 rfl
    | some x y hxy =>
      have hy : y = 0 := by
        by_contra hy
        have hn : y ≠ (W C).negY x y := by
          rw [negY_eq]; intro he
          have : (2 : ZMod C.p) * y = 0 := by linear_combination he
          rcases mul_eq_zero.mp this with h | h
          · exact two_ne_zero_zmod hg h
          · exact hy h
        rw [Point.add_self_of_Y_ne hn] at hP
        exact Point.some_ne_zero _ hP.1
      subst hy
      exact hroot x hxy.1
  have : c = 1 := by omega
  rw [hc, this, mul_one]

/-- Every point is a multiple of the generator. -/
theorem exists_multiple {n : Nat} {g : (W C).Point} (hg0 : addOrderOf g = n) (hn : 0 < n)
    (hfin : Finite (W C).Point) (hcard : Nat.card (W C).Point = n) (Q : (W C).Point) :
    n • Q = 0 ∧ ∃ k : Nat, k < n ∧ Q = k • g := by
  refine ⟨by rw [← hcard]; exact card_nsmul_eq_zero', ?_⟩
  have hz : Nat.card (AddSubgroup.zmultiples g) = Nat.card (W C).Point := by
    rw [Nat.card_zmultiples, hg0, hcard]
  have htop : AddSubgroup.zmultiples g = ⊤ := AddSubgroup.eq_top_of_card_eq _ hz
  have hQ : Q ∈ AddSubgroup.zmultiples g := by rw [htop]; trivial
  obtain ⟨z, hz⟩ := AddSubgroup.mem_zmultiples_iff.mp hQ
  have hng : n • g = 0 := by rw [← hg0]; exact addOrderOf_nsmul_eq_zero g
  refine ⟨(z % (n : Int)).toNat, ?_, ?_⟩
  · have := Int.emod_lt_of_pos z (by omega : (0 : Int) < (n : Int))
    have := Int.emod_nonneg z (by omega : (n : Int) ≠ 0)
    omega
  · rw [← natCast_zsmul, Int.toNat_of_nonneg (Int.emod_nonneg z (by omega)), Ecdsa.zsmul_emod hng, hz]

/-- The certificate for a curve. -/
theorem no_y_zero_of_cert {A B u : Nat} (hb : C.p < base) (hA : (A : Int) % C.p = -C.a % C.p)
    (hB : (B : Int) % C.p = -C.b % C.p) (h : noRootCert C.p A B u = true) (x : ZMod C.p) :
    ¬ (W C).Equation x 0 := by
  intro he
  rw [WeierstrassCurve.Affine.equation_iff] at he
  simp only [W] at he
  refine no_root (r := x) hb h ?_
  have h1 : ((A : Int) : ZMod C.p) = ((-C.a : Int) : ZMod C.p) := (ZMod.intCast_eq_intCast_iff' _ _ _).2 hA
  have h2 : ((B : Int) : ZMod C.p) = ((-C.b : Int) : ZMod C.p) := (ZMod.intCast_eq_intCast_iff' _ _ _).2 hB
  push_cast at h1 h2
  rw [h1, h2]
  linear_combination -he

end

end NBC.EC
