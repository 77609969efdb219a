import Verif.Proofs.SecpOrder
import Mathlib.GroupTheory.Perm.Cycle.Type
import Verif.Proofs.Primes
import Verif.Proofs.Ecdsa

/-!
# The group of secp256k1

Its points form a group of prime order: the declared order of the generator.
-/

namespace NBC.Secp
open NBC NT EC Ecdsa Spec WeierstrassCurve.Affine

/-- The field modulus. -/
abbrev p : Nat := 0xfffffffffffffffffffffffffffffffffffffffffffffffffffffffefffffc2f
/-- The group order. -/
abbrev n : Nat := 0xfffffffffffffffffffffffffffffffebaaedce6af48a03bbfd25e8cd0364141
/-- The curve. -/
abbrev K : CurveFp := secp256k1.curve

theorem prime_p : Nat.Prime p :=
  prime_115792089237316195423570985008687907853269984665640564039457584007908834671663

theorem prime_n : Nat.Prime n :=
  prime_115792089237316195423570985008687907852837564279074904382605163141518161494337

instance fact_p : Fact (Nat.Prime K.p) := ⟨prime_p⟩

theorem good : Good K := ⟨by decide, by decide⟩

theorem gen_contains : K.containsPoint secp256k1.gx secp256k1.gy = true := by decide +kernel

/-- The generator as a group element. -/
def g : (W K).Point :=
  .some (secp256k1.gx : ZMod K.p) (secp256k1.gy : ZMod K.p)
    (nonsingular_of_equation good ((containsPoint_iff K _ _).mp gen_contains))

theorem rep_g (o : Option Nat) : Rep K (.aff secp256k1.gx secp256k1.gy o) g :=
  ⟨by decide, by decide, _, rfl⟩

/-- The code's own multiplication applied to the generator without order. -/
theorem n_mul_gen : EC.mul K (.aff secp256k1.gx secp256k1.gy none) (n : Int) = .ok .inf :=
  Ecdsa.secp256k1_mul_order

theorem n_smul_g : n • g = 0 := by
  have heff : effScalar (.aff secp256k1.gx secp256k1.gy none) (n : Int) = (n : Int) := rfl
  have hs := (mulD_spec good 0 (rep_g none) (n : Int)).1
  rw [heff] at hs
  rcases hs (by decide) with ⟨R, a, b, -⟩ | ⟨a, -⟩
  · have : R = .inf := by
      have h := n_mul_gen
      unfold EC.mul at h
      rw [a] at h; injection h
    subst this
    have : (n : Int) • g = 0 := b
    rwa [natCast_zsmul] at this
  · have h := n_mul_gen
    unfold EC.mul at h
    rw [a] at h; cases h

theorem addOrderOf_g : addOrderOf g = n := by
  haveI : Fact (Nat.Prime n) := ⟨prime_n⟩
  exact addOrderOf_eq_prime n_smul_g (Point.some_ne_zero _)

theorem genOk : GenOk K secp256k1.generator n g where
  good := good
  rep := rep_g _
  order := rfl
  prime := prime_n
  odd := by decide
  addOrder := addOrderOf_g

/-! ## the number of points -/

/-- A point is determined by `x` and the parity of `y`. -/
def code : (W K).Point → Option (ZMod K.p × Bool)
  | .zero => none
  | .some x y _ => some (x, y.val % 2 == 1)

theorem code_injective : Function.Injective code := by
  intro P Q h
  cases P with
  | zero => cases Q with
    | zero => rfl
    | some => cases h
  | some x y hxy => cases Q with
    | zero => cases h
    | some x' y' hxy' =>
      simp only [code, Option.some.injEq, Prod.mk.injEq] at h
      obtain ⟨rfl, hpar⟩ := h
      rcases Y_eq_of_X_eq hxy.1 hxy'.1 rfl with hy | hy
      · subst hy; rfl
      · rw [negY_eq] at hy
        by_cases h0 : y' = 0
        · subst h0; simp at hy; subst hy; rfl
        · exfalso
          have hv : y.val = K.p - y'.val := by
            haveI : NeZero y' := ⟨h0⟩
            rw [hy, ZMod.val_neg_of_ne_zero]
          have h1 : y'.val < K.p := ZMod.val_lt y'
          have h2 : K.p % 2 = 1 := by decide
          have h3 : (y.val % 2 == 1) = (y'.val % 2 == 1) := hpar
          have h4 : y.val % 2 = 1 ↔ y'.val % 2 = 1 := by
            constructor <;> intro h
            · rw [h] at h3; simpa using h3.symm
            · rw [h] at h3; simpa using h3
          omega

noncomputable instance : Fintype (W K).Point := Fintype.ofInjective code code_injective

theorem card_le : Fintype.card (W K).Point ≤ 2 * K.p + 1 := by
  have := Fintype.card_le_of_injective code code_injective
  rw [Fintype.card_option, Fintype.card_prod, ZMod.card, Fintype.card_bool] at this
  omega

/-- There is no point with `y = 0`: `-7` is not a cube. -/
theorem no_y_zero {x : ZMod K.p} (h : (W K).Equation x 0) : False := by
  rw [WeierstrassCurve.Affine.equation_iff] at h
  simp only [W] at h
  have h3 : x ^ 3 = ((-7 : Int) : ZMod K.p) := by
    have hb : K.b = 7 := rfl
    have ha : K.a = 0 := rfl
    rw [hb, ha] at h
    push_cast at h ⊢
    linear_combination -h
  have hx : x ≠ 0 := by
    rintro rfl
    rw [zero_pow (by norm_num)] at h3
    have := (ZMod.intCast_zmod_eq_zero_iff_dvd (-7) K.p).mp h3.symm
    revert this; decide
  have hpow : (((-7 : Int) % (K.p : Int)).toNat : ZMod K.p) ^ ((K.p - 1) / 3) = 1 := by
    have hc : (((-7 : Int) % (K.p : Int)).toNat : ZMod K.p) = ((-7 : Int) : ZMod K.p) := by
      have : ((((-7 : Int) % (K.p : Int)).toNat : Int) : ZMod K.p) = ((-7 : Int) : ZMod K.p) := by
        rw [Int.toNat_of_nonneg (by decide), emod_cast]
      exact_mod_cast this
    rw [hc, ← h3, ← pow_mul]
    have : 3 * ((K.p - 1) / 3) = K.p - 1 := by decide
    rw [this]
    exact ZMod.pow_card_sub_one_eq_one hx
  have hnat : ((-7 : Int) % (K.p : Int)).toNat ^ ((K.p - 1) / 3) % K.p = 1 % K.p := by
    have : ((((-7 : Int) % (K.p : Int)).toNat ^ ((K.p - 1) / 3) : Nat) : ZMod K.p)
        = ((1 : Nat) : ZMod K.p) := by push_cast; exact hpow
    exact (ZMod.natCast_eq_natCast_iff' _ _ _).mp this
  rw [← powMod_eq _ _ _ (by decide)] at hnat
  revert hnat
  decide +kernel

theorem card_eq : Fintype.card (W K).Point = n := by
  have hd : n ∣ Fintype.card (W K).Point := by
    rw [← addOrderOf_g]; exact addOrderOf_dvd_card
  obtain ⟨c, hc⟩ := hd
  have hle := card_le
  have hpos : 0 < Fintype.card (W K).Point := Fintype.card_pos
  have hp : 2 * K.p + 1 < n * 3 := by decide
  have hc3 : c < 3 := by
    by_contra h
    have : n * 3 ≤ n * c := Nat.mul_le_mul_left _ (by omega)
    omega
  have hc0 : c ≠ 0 := by rintro rfl; omega
  have hc2 : c ≠ 2 := by
    rintro rfl
    have : 2 ∣ Fintype.card (W K).Point := by rw [hc]; exact dvd_mul_left 2 n
    obtain ⟨P, hP⟩ := exists_prime_addOrderOf_dvd_card 2 this
    haveI : Fact (Nat.Prime 2) := ⟨Nat.prime_two⟩
    rw [addOrderOf_eq_prime_iff, two_nsmul] at hP
    cases P with
    | zero => exact hP.2 rfl
    | some x y hxy =>
      have hy : y = 0 := by
        by_contra hy
        have hn : y ≠ (W K).negY x y := by
          rw [negY_eq]; intro he
          have : (2 : ZMod K.p) * y = 0 := by linear_combination he
          rcases mul_eq_zero.mp this with h | h
          · exact two_ne_zero_zmod good h
          · exact hy h
        rw [Point.add_self_of_Y_ne hn] at hP
        exact Point.some_ne_zero _ hP.1
      subst hy
      exact no_y_zero hxy.1
  have : c = 1 := by omega
  rw [hc, this, mul_one]

/-- Every point of the curve is killed by the group order. -/
theorem n_smul (Q : (W K).Point) : n • Q = 0 := by
  rw [← card_eq]; exact card_nsmul_eq_zero

/-- Every point is a multiple of the generator. -/
theorem exists_smul (Q : (W K).Point) : ∃ k : Nat, k < n ∧ Q = k • g := by
  have hcard : Nat.card (AddSubgroup.zmultiples g) = Nat.card (W K).Point := by
    rw [Nat.card_zmultiples, addOrderOf_g, Nat.card_eq_fintype_card, card_eq]
  have htop : AddSubgroup.zmultiples g = ⊤ := AddSubgroup.eq_top_of_card_eq _ hcard
  have hQ : Q ∈ AddSubgroup.zmultiples g := by rw [htop]; trivial
  obtain ⟨z, hz⟩ := AddSubgroup.mem_zmultiples_iff.mp hQ
  refine ⟨(z % (n : Int)).toNat, ?_, ?_⟩
  · have := Int.emod_lt_of_pos z (by decide : (0 : Int) < (n : Int))
    have := Int.emod_nonneg z (by decide : (n : Int) ≠ 0)
    omega
  · rw [← natCast_zsmul, Int.toNat_of_nonneg (Int.emod_nonneg z (by decide)),
      zsmul_emod n_smul_g, hz]

theorem odd_order (Q : (W K).Point) : Odd (addOrderOf Q) :=
  odd_addOrderOf prime_n (by decide) (n_smul Q)

end NBC.Secp
