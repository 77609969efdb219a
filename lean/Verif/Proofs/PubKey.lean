import Verif.Model.Keys
import Verif.Spec.PubKey
import Verif.Proofs.Secp256k1
import Verif.Proofs.Sqrt
import Verif.Proofs.Hex

/-! # Lemmas about public key encodings on SECP256k1 -/

namespace NBC.Secp
open NBC NT EC Ecdsa Spec Key

theorem n_lt_p : n < p := by decide
theorem p_lt : p < 256 ^ 32 := by decide
theorem orderlen_n : orderlen secp256k1.order = 32 := by decide +kernel
theorem order_eq : secp256k1.order = n := rfl
theorem curve_p : secp256k1.curve.p = p := rfl

theorem rep_of_on {x y : Int} (o : Option Nat) (hx0 : 0 ≤ x) (hx : x < p) (h : OnCurve K x y) :
    ∃ Q, Rep K (.aff x y o) Q ∧ Q ≠ 0 := by
  have hc := (onCurve_iff K x y).1 h
  exact ⟨_, ⟨hx0, hx, nonsingular_of_equation good ((containsPoint_iff K x y).mp hc), rfl⟩,
    WeierstrassCurve.Affine.Point.some_ne_zero _⟩

theorem mul_n_eq {x y : Int} (hx0 : 0 ≤ x) (hx : x < p) (h : OnCurve K x y) :
    EC.mul K (.aff x y none) (n : Int) = .ok .inf := by
  obtain ⟨Q, hQ, -⟩ := rep_of_on none hx0 hx h
  obtain ⟨R, h1, h2, -⟩ := mul_ok good hQ (odd_order Q) (n : Int) (Or.inl ⟨rfl, by decide⟩)
  rw [natCast_zsmul, n_smul] at h2
  rw [h1, rep_zero h2]

end NBC.Secp

namespace NBC.Key
open NBC NT EC Ecdsa Spec

theorem pointIsValid_unfold (C : CurveFp) (n : Nat) (x y : Int) :
    (¬ (0 ≤ x ∧ x < n ∧ 0 ≤ y ∧ y < n ∧ C.containsPoint x y = true) →
      pointIsValid C n x y = .ok false) ∧
    (0 ≤ x ∧ x < n ∧ 0 ≤ y ∧ y < n ∧ C.containsPoint x y = true →
      EC.mul C (.aff x y none) n = .ok .inf → pointIsValid C n x y = .ok true) := by
  constructor
  · intro h
    simp only [pointIsValid]
    split
    · rfl
    · rename_i hr
      have hc : ¬ C.containsPoint x y = true := by
        intro h5; apply h; refine ⟨?_, ?_, ?_, ?_, h5⟩ <;> omega
      rw [if_pos hc]
  · rintro ⟨h1, h2, h3, h4, hc⟩ hm
    simp only [pointIsValid]
    rw [if_neg (by omega)]
    simp only [hc, not_true, if_false, mkPoint_eq, if_true, Bind.bind, Except.bind, hm]
    rfl

theorem stringToNumber_of_length {t : Bytes} {l : Nat} (hl : t.length = l) (h0 : 0 < l) :
    stringToNumber t = .ok (bytesVal t) :=
  stringToNumber_eq t (by rintro rfl; simp at hl; omega)

theorem decompressOn_uncompressed (c : Curve) {t : Bytes} (ht : t.length = 64) {v : Bool}
    (hv : pointIsValid c.curve c.order (bytesVal (t.take 32)) (bytesVal (t.drop 32)) = .ok v) :
    decompressOn c (4 :: t) = if v then .ok (4 :: t) else .error .valueError := by
  have h1 : stringToNumber (((4 :: t).drop 1).take 32) = .ok (bytesVal (t.take 32)) :=
    stringToNumber_of_length (l := 32) (by simp; omega) (by omega)
  have hd : ((4 :: t).drop 33).take 32 = t.drop 32 := by
    rw [List.drop_succ_cons, List.take_of_length_le (by simp; omega)]
  have h2 : stringToNumber (((4 :: t).drop 33).take 32) = .ok (bytesVal (t.drop 32)) := by
    rw [hd]; exact stringToNumber_of_length (l := 32) (by simp; omega) (by omega)
  have h3 : pyIndex (4 :: t) 0 = .ok 4 := rfl
  have h4 : True ∧ ((4 : UInt8) :: t).length = 65 := ⟨trivial, by simp [ht]⟩
  simp only [decompressOn, h3, Bind.bind, Except.bind]
  rw [if_pos h4]
  simp only [h1, h2, hv]
  cases v <;> rfl

/-- The `y` with the wanted parity. -/
def fixParity (p : Nat) (ch : UInt8) (y : Int) : Int :=
  if (ch.toNat % 2 : Int) ≠ y % 2 then (p : Int) - y else y

/-- The right-hand side of the curve equation, reduced. -/
def rhs (C : CurveFp) (x : Nat) : Int := ((x : Int) ^ 3 + C.a * x + C.b) % (C.p : Int)

theorem decompressOn_compressed (c : Curve) {ch : UInt8} (hch : ch = 2 ∨ ch = 3) {t : Bytes}
    (ht : t.length = 32) :
    (∀ e, squareRootModPrime (rhs c.curve (bytesVal t)) c.curve.p = .error e →
      decompressOn c (ch :: t) = .error e) ∧
    (∀ y v, squareRootModPrime (rhs c.curve (bytesVal t)) c.curve.p = .ok y →
      pointIsValid c.curve c.order (bytesVal t) y = .ok v →
      decompressOn c (ch :: t) = if v then
          (numberToString (fixParity c.curve.p ch y) c.order).map fun ys => [4] ++ t ++ ys
        else .error .valueError) := by
  have h1 : stringToNumber ((ch :: t).drop 1) = .ok (bytesVal t) :=
    stringToNumber_of_length (l := 32) (by simpa using ht) (by omega)
  have h3 : pyIndex (ch :: t) 0 = .ok ch := rfl
  have h4 : ¬ (ch = 4 ∧ (ch :: t).length = 65) := by
    rintro ⟨-, h⟩; simp [ht] at h
  have h5 : ¬ ((ch ≠ 2 ∧ ch ≠ 3) ∨ (ch :: t).length ≠ 33) := by
    simp [ht]; tauto
  constructor
  · intro e he
    rw [rhs] at he
    simp only [decompressOn, h3, Bind.bind, Except.bind]
    rw [if_neg h4, if_neg h5]
    simp only [h1, he]
  · intro y v he hv
    rw [rhs] at he
    simp only [decompressOn, h3, Bind.bind, Except.bind]
    rw [if_neg h4, if_neg h5]
    simp only [h1, he, hv]
    cases v with
    | false => rfl
    | true =>
      simp only [not_true, if_false, if_true, fixParity]
      cases numberToString (if (ch.toNat % 2 : Int) ≠ y % 2 then (c.curve.p : Int) - y else y)
        c.order <;> rfl

theorem decompressOn_other (c : Curve) {s : Bytes} (h4 : ¬ (s.head? = some 4 ∧ s.length = 65))
    (h2 : ¬ ((s.head? = some 2 ∨ s.head? = some 3) ∧ s.length = 33)) :
    decompressOn c s = .error (if s = [] then .indexError else .valueError) := by
  cases s with
  | nil => rfl
  | cons ch t =>
    have h3 : pyIndex (ch :: t) 0 = .ok ch := rfl
    simp only [List.head?_cons, Option.some.injEq] at h4 h2
    have h5 : (ch ≠ 2 ∧ ch ≠ 3) ∨ (ch :: t).length ≠ 33 := by
      by_cases h : (ch :: t).length = 33
      · left; constructor <;> intro h' <;> exact h2 ⟨by tauto, h⟩
      · right; exact h
    simp only [decompressOn, h3, Bind.bind, Except.bind]
    rw [if_neg h4, if_pos h5]
    simp

end NBC.Key

namespace NBC.Secp
open NBC NT EC Ecdsa Spec Key

/-- `point_is_valid` on this curve: coordinates below the group order and the curve equation. -/
theorem pointIsValid_true {x y : Int} (h : 0 ≤ x ∧ x < n ∧ 0 ≤ y ∧ y < n ∧ OnCurve K x y) :
    pointIsValid secp256k1.curve secp256k1.order x y = .ok true := by
  obtain ⟨h1, h2, h3, h4, h5⟩ := h
  exact (pointIsValid_unfold _ _ x y).2 ⟨h1, h2, h3, h4, (onCurve_iff K x y).1 h5⟩
    (mul_n_eq h1 (lt_trans h2 (by exact_mod_cast n_lt_p)) h5)

theorem pointIsValid_false {x y : Int} (h : ¬ (0 ≤ x ∧ x < n ∧ 0 ≤ y ∧ y < n ∧ OnCurve K x y)) :
    pointIsValid secp256k1.curve secp256k1.order x y = .ok false :=
  (pointIsValid_unfold _ _ x y).1 fun ⟨h1, h2, h3, h4, h5⟩ =>
    h ⟨h1, h2, h3, h4, (onCurve_iff K x y).2 h5⟩

/-! ### roots -/

theorem rhs_nonneg (x : Nat) : 0 ≤ rhs K x := Int.emod_nonneg _ (by decide)
theorem rhs_lt (x : Nat) : rhs K x < p := Int.emod_lt_of_pos _ (by decide)

theorem onCurve_sq {x : Nat} {y : Int} : OnCurve K x y ↔ y ^ 2 % (p : Int) = rhs K x := Iff.rfl

instance : Fact (Nat.Prime p) := ⟨prime_p⟩

theorem onCurve_zmod {x : Nat} {y : Int} :
    OnCurve K x y ↔ ((y : Int) : ZMod p) ^ 2 = ((rhs K x : Int) : ZMod p) := by
  rw [onCurve_sq, ← Int.cast_pow, ZMod.intCast_eq_intCast_iff']
  rw [Int.emod_eq_of_lt (rhs_nonneg x) (rhs_lt x)]

theorem root_or {x : Nat} {y z : Int} (hy : OnCurve K x y) (hz : OnCurve K x z) (hy0 : 0 ≤ y)
    (hyp : y < p) (hz0 : 0 ≤ z) (hzp : z < p) : z = y ∨ z = p - y := by
  rw [onCurve_zmod] at hy hz
  have h : ((z : Int) : ZMod p) ^ 2 = ((y : Int) : ZMod p) ^ 2 := by rw [hy, hz]
  rcases sq_eq_sq_iff_eq_or_eq_neg.1 h with h | h
  · left
    rw [ZMod.intCast_eq_intCast_iff', Int.emod_eq_of_lt hz0 hzp, Int.emod_eq_of_lt hy0 hyp] at h
    exact h
  · have h' : ((z : Int) : ZMod p) = (((p : Int) - y : Int) : ZMod p) := by
      rw [h, Int.cast_sub, Int.cast_natCast, ZMod.natCast_self]; ring
    rw [ZMod.intCast_eq_intCast_iff', Int.emod_eq_of_lt hz0 hzp] at h'
    rcases eq_or_lt_of_le hy0 with h0 | h0
    · left; rw [← h0, sub_zero, Int.emod_self] at h'; omega
    · right; rw [Int.emod_eq_of_lt (by omega) (by omega)] at h'; exact h'

theorem y_ne_zero {x : Nat} {y : Int} (h : OnCurve K x y) : ¬ (p : Int) ∣ y := by
  intro hd
  have h0 : ((y : Int) : ZMod K.p) = 0 := (ZMod.intCast_zmod_eq_zero_iff_dvd y p).2 hd
  have := (containsPoint_iff K x y).1 ((onCurve_iff K x y).1 h)
  rw [h0] at this
  exact no_y_zero this

theorem onCurve_neg {x : Nat} {y : Int} (h : OnCurve K x y) : OnCurve K x (p - y) := by
  rw [onCurve_zmod] at h ⊢
  rw [← h, Int.cast_sub, Int.cast_natCast, ZMod.natCast_self]; ring

/-- What `square_root_mod_prime` gives for an `x` on the curve. -/
theorem sqrt_of_on {x : Nat} {y : Int} (h : OnCurve K x y) :
    ∃ r, squareRootModPrime (rhs K x) p = .ok r ∧ 0 < r ∧ r < p ∧ OnCurve K x r := by
  have hs := (squareRoot_spec p (rhs K x) (rhs_nonneg x) (rhs_lt x)).1
    ⟨((y : Int) : ZMod p), by rw [← pow_two]; exact (onCurve_zmod.1 h).symm⟩
  obtain ⟨r, h1, h2, h3, h4⟩ := hs
  have hr : OnCurve K x r := onCurve_zmod.2 h4
  refine ⟨r, h1, ?_, h3, hr⟩
  rcases eq_or_lt_of_le h2 with h0 | h0
  · exact absurd (h0 ▸ dvd_zero _) (y_ne_zero hr)
  · exact h0

theorem sqrt_of_not_on {x : Nat} (h : ¬ ∃ y : Int, OnCurve K x y) :
    squareRootModPrime (rhs K x) p = .error .squareRootError := by
  apply (squareRoot_spec p (rhs K x) (rhs_nonneg x) (rhs_lt x)).2
  rintro ⟨c, hc⟩
  obtain ⟨w, rfl⟩ := ZMod.intCast_surjective c
  exact h ⟨w, onCurve_zmod.2 (by rw [hc]; ring)⟩

theorem fixParity_eq {ch : UInt8} {r : Int} (h0 : 0 < r) (hp : r < p) :
    (fixParity p ch r = r ∨ fixParity p ch r = p - r) ∧ 0 < fixParity p ch r ∧ fixParity p ch r < p ∧
      fixParity p ch r % 2 = ch.toNat % 2 := by
  have hodd : (p : Int) % 2 = 1 := by decide
  unfold fixParity
  split <;> omega

theorem fixParity_of {ch : UInt8} {r y : Int} (h : r = y ∨ r = p - y)
    (hpar : y % 2 = ch.toNat % 2) : fixParity p ch r = y := by
  have hodd : (p : Int) % 2 = 1 := by decide
  unfold fixParity
  split <;> omega

theorem numberToString_y {y : Int} (h0 : 0 ≤ y) (hp : y < p) :
    numberToString y secp256k1.order = .ok (beBytes 32 y.toNat) := by
  obtain ⟨m, rfl⟩ := Int.eq_ofNat_of_zero_le h0
  have hm : m < 256 ^ orderlen secp256k1.order := by
    rw [orderlen_n]; exact lt_trans (by exact_mod_cast hp) p_lt
  have := numberToString_eq hm
  rw [orderlen_n] at this
  simpa using this

end NBC.Secp
