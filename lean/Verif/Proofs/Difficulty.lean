import Verif.Model.Difficulty
import Verif.Spec.Double
import Verif.Proofs.Rand
import Mathlib.Tactic.Linarith
import Mathlib.Tactic.FieldSimp
import Mathlib.Tactic.Positivity
import Mathlib.Tactic.NormNum

/-!
# Rounding a quotient to 53 bits
-/

namespace NBC.Util
open NBC Spec Ecdsa

/-- The rounded quotient is nearer than any other integer unless the quotient is halfway between two. -/
theorem roundEven_nearest (A B : Nat) (hB : 0 < B) (ht : 2 * (A % B) ≠ B) (y : Int) (hy : y ≠ roundEven A B) :
    |(roundEven A B : Int) * B - A| < |y * B - A| := by
  have hA : (A : Int) = B * (A / B : Nat) + (A % B : Nat) := by exact_mod_cast (Nat.div_add_mod A B).symm
  have hr : ((A % B : Nat) : Int) < B := by exact_mod_cast Nat.mod_lt A hB
  have hr0 : (0 : Int) ≤ ((A % B : Nat) : Int) := by positivity
  have ht' : 2 * ((A % B : Nat) : Int) ≠ B := by exact_mod_cast ht
  have hB' : (0 : Int) < B := by exact_mod_cast hB
  unfold roundEven at hy ⊢
  simp only at hy ⊢
  generalize A / B = q at *
  generalize A % B = r at *
  by_cases hc : B < 2 * r
  · rw [if_pos (.inl hc)] at hy ⊢
    have hc' : (B : Int) < 2 * r := by exact_mod_cast hc
    have e1 : |((q + 1 : Nat) : Int) * B - A| = B - r := by
      rw [hA, show ((q + 1 : Nat) : Int) * B - (B * q + r) = B - r by push_cast; ring, abs_of_nonneg (by omega)]
    rw [e1]
    rcases lt_or_gt_of_ne hy with h | h
    · have : y ≤ q := by push_cast at h; omega
      rw [abs_of_nonpos (by nlinarith)]
      nlinarith
    · have : (q : Int) + 2 ≤ y := by push_cast at h; omega
      rw [abs_of_nonneg (by nlinarith)]
      nlinarith
  · rw [if_neg (by rintro (h | h); exacts [hc h, ht h.1])] at hy ⊢
    have hc' : 2 * (r : Int) < B := by
      have : 2 * (r : Int) ≤ B := by exact_mod_cast not_lt.1 hc
      omega
    have e1 : |(q : Int) * B - A| = r := by
      rw [hA, show (q : Int) * B - (B * q + r) = -(r : Int) by ring, abs_neg, abs_of_nonneg hr0]
    rw [e1]
    rcases lt_or_gt_of_ne hy with h | h
    · have : y + 1 ≤ q := by omega
      rw [abs_of_nonpos (by nlinarith)]
      nlinarith
    · have : (q : Int) + 1 ≤ y := by omega
      rw [abs_of_nonneg (by nlinarith)]
      nlinarith

/-- The error is at most one half. -/
theorem roundEven_err (A B : Nat) (hB : 0 < B) : 2 * |(roundEven A B : Int) * B - A| ≤ B := by
  have hA : (A : Int) = B * (A / B : Nat) + (A % B : Nat) := by exact_mod_cast (Nat.div_add_mod A B).symm
  have hr : ((A % B : Nat) : Int) < B := by exact_mod_cast Nat.mod_lt A hB
  unfold roundEven
  simp only
  generalize A / B = q at *
  generalize A % B = r at *
  split_ifs with hc
  · rw [hA, show ((q + 1 : Nat) : Int) * B - (B * q + r) = B - r by push_cast; ring, abs_of_nonneg (by omega)]
    omega
  · rw [hA, show (q : Int) * B - (B * q + r) = -(r : Int) by ring, abs_neg, abs_of_nonneg (by positivity)]
    omega

/-- What `fdiv` does: the quotient is `A / B` times a power of two, with `A / B` in the range of 53 bits. -/
theorem fdiv_spec (a b : Nat) (ha : 0 < a) (hb : 0 < b) : ∃ (A B i : Nat) (t : ℤ), 0 < B ∧ A = a * 2 ^ i ∧
    2 ^ 52 * B ≤ A ∧ A < 2 ^ 53 * B ∧ (a : ℚ) / b = (A : ℚ) / B * 2 ^ t ∧ fdiv a b = (roundEven A B : ℚ) * 2 ^ t ∧
    (Nat.log2 a : ℤ) - Nat.log2 b - 53 ≤ t ∧ t ≤ (Nat.log2 a : ℤ) - Nat.log2 b - 52 := by
  have a1 : 2 ^ Nat.log2 a ≤ a := Nat.log2_self_le (by omega)
  have a2 : a < 2 ^ (Nat.log2 a + 1) := Nat.lt_log2_self
  have b1 : 2 ^ Nat.log2 b ≤ b := Nat.log2_self_le (by omega)
  have b2 : b < 2 ^ (Nat.log2 b + 1) := Nat.lt_log2_self
  unfold fdiv
  simp only
  generalize Nat.log2 a = la at *
  generalize Nat.log2 b = lb at *
  obtain ⟨k, hk⟩ : ∃ k : ℤ, k = 53 - ((la : ℤ) - lb) := ⟨_, rfl⟩
  rw [← hk]
  obtain ⟨u, hu⟩ : ∃ u, u = k.toNat := ⟨_, rfl⟩
  obtain ⟨v, hv⟩ : ∃ v, v = (-k).toNat := ⟨_, rfl⟩
  have huv : k = (u : ℤ) - v := by omega
  rw [← hu, ← hv]
  have hx : la + u = 53 + lb + v := by omega
  have hb' : 0 < b * 2 ^ v := by positivity
  have hlow : 2 ^ 52 * (b * 2 ^ v) ≤ a * 2 ^ u := by
    calc 2 ^ 52 * (b * 2 ^ v) ≤ 2 ^ 52 * (2 ^ (lb + 1) * 2 ^ v) := by gcongr
      _ = 2 ^ la * 2 ^ u := by rw [← pow_add, ← pow_add, ← pow_add, hx]; congr 1; omega
      _ ≤ a * 2 ^ u := by gcongr
  have hhigh : a * 2 ^ u < 2 ^ 54 * (b * 2 ^ v) := by
    calc a * 2 ^ u < 2 ^ (la + 1) * 2 ^ u := by gcongr
      _ = 2 ^ 54 * (2 ^ lb * 2 ^ v) := by rw [← pow_add, ← pow_add, ← pow_add]; congr 1; omega
      _ ≤ 2 ^ 54 * (b * 2 ^ v) := by gcongr
  have hq : (a : ℚ) / b = ((a * 2 ^ u : Nat) : ℚ) / ((b * 2 ^ v : Nat) : ℚ) * 2 ^ (-k) := by
    rw [huv, neg_sub, zpow_sub₀ (by norm_num), zpow_natCast, zpow_natCast]
    have : (b : ℚ) ≠ 0 := by positivity
    push_cast
    field_simp
  by_cases hc : a * 2 ^ u / (b * 2 ^ v) < 2 ^ 53
  · rw [if_pos hc]
    refine ⟨a * 2 ^ u, b * 2 ^ v, u, -k, hb', rfl, hlow, ?_, hq, rfl, by omega, by omega⟩
    rwa [Nat.div_lt_iff_lt_mul hb'] at hc
  · rw [if_neg hc]
    rw [Nat.div_lt_iff_lt_mul hb', not_lt] at hc
    refine ⟨a * 2 ^ u, 2 * (b * 2 ^ v), u, 1 - k, by omega, rfl, ?_, ?_, ?_, rfl, by omega, by omega⟩
    · calc 2 ^ 52 * (2 * (b * 2 ^ v)) = 2 ^ 53 * (b * 2 ^ v) := by ring
        _ ≤ _ := hc
    · calc a * 2 ^ u < 2 ^ 54 * (b * 2 ^ v) := hhigh
        _ = _ := by ring
    · rw [hq, sub_eq_add_neg, zpow_add₀ (by norm_num)]
      have : ((b * 2 ^ v : Nat) : ℚ) ≠ 0 := by exact_mod_cast hb'.ne'
      push_cast at this ⊢
      field_simp

theorem zpow_pos' (t : ℤ) : (0 : ℚ) < 2 ^ t := zpow_pos (by norm_num) t

/-- The error of a quotient is at most `2 ^ -53` of it. -/
theorem fdiv_err (a b : Nat) (ha : 0 < a) (hb : 0 < b) :
    |fdiv a b - (a : ℚ) / b| ≤ (a : ℚ) / b / 2 ^ 53 := by
  obtain ⟨A, B, i, t, hB, -, h1, -, hq, hd, -, -⟩ := fdiv_spec a b ha hb
  have he := roundEven_err A B hB
  rw [hd, hq]
  have hBq : (0 : ℚ) < B := by exact_mod_cast hB
  have hp := zpow_pos' t
  have he' : 2 * |(roundEven A B : ℚ) * B - A| ≤ B := by exact_mod_cast he
  have h1' : 2 ^ 52 * (B : ℚ) ≤ A := by exact_mod_cast h1
  have e : (roundEven A B : ℚ) * 2 ^ t - (A : ℚ) / B * 2 ^ t = ((roundEven A B : ℚ) * B - A) * (2 ^ t / B) := by
    field_simp
  rw [e, abs_mul, abs_of_pos (div_pos hp hBq)]
  rw [show (A : ℚ) / B * 2 ^ t / 2 ^ 53 = (A / 2 ^ 53) * (2 ^ t / B) by field_simp]
  apply mul_le_mul_of_nonneg_right _ (div_pos hp hBq).le
  linarith

/-- The rounded quotient is the nearest double, for a dividend with few bits and a quotient in the normal range. -/
theorem fdiv_nearest (a b c s : Nat) (hac : a = c * 2 ^ s) (hc : c < 2 ^ 53) (ha : 0 < a) (hb : 0 < b)
    (h1 : -1021 ≤ (Nat.log2 a : ℤ) - Nat.log2 b) (h2 : (Nat.log2 a : ℤ) - Nat.log2 b ≤ 1022) :
    NearestDouble ((a : ℚ) / b) (fdiv a b) := by
  obtain ⟨A, B, i, t, hB, hA, l1, l2, hq, hd, t1, t2⟩ := fdiv_spec a b ha hb
  have hBq : (0 : ℚ) < B := by exact_mod_cast hB
  have hp := zpow_pos' t
  have htie : 2 * (A % B) ≠ B := by
    intro h
    have hdm := Nat.div_add_mod A B
    have hcpos : 0 < c := by
      rcases Nat.eq_zero_or_pos c with h0 | h0
      · subst h0; omega
      · exact h0
    have e : B * (2 * (A / B) + 1) = c * 2 ^ (s + i + 1) := by
      calc B * (2 * (A / B) + 1) = 2 * (B * (A / B)) + B := by ring
        _ = 2 * (B * (A / B) + A % B) := by omega
        _ = 2 * A := by rw [hdm]
        _ = c * 2 ^ (s + i + 1) := by rw [hA, hac]; ring
    have hdvd : (2 * (A / B) + 1) ∣ c * 2 ^ (s + i + 1) := ⟨B, by rw [← e]; ring⟩
    have hcop : Nat.Coprime (2 * (A / B) + 1) (2 ^ (s + i + 1)) :=
      Nat.Coprime.pow_right _ (by simp [Nat.coprime_comm, Nat.coprime_mul_left_add_left])
    have hle := Nat.le_of_dvd hcpos (hcop.dvd_of_dvd_mul_right hdvd)
    have : 2 ^ 52 ≤ A / B := (Nat.le_div_iff_mul_le hB).2 l1
    omega
  have hn1 : 2 ^ 52 ≤ roundEven A B := by
    have h : 2 ^ 52 ≤ A / B := (Nat.le_div_iff_mul_le hB).2 l1
    unfold roundEven; simp only; split_ifs <;> omega
  have hn2 : roundEven A B ≤ 2 ^ 53 := by
    have h : A / B < 2 ^ 53 := (Nat.div_lt_iff_lt_mul hB).2 l2
    unfold roundEven; simp only; split_ifs <;> omega
  -- the distance in units of `2 ^ t / B`
  have dist (y : ℚ) : |y * 2 ^ t - (A : ℚ) / B * 2 ^ t| = |y * B - A| * (2 ^ t / B) := by
    rw [show y * 2 ^ t - (A : ℚ) / B * 2 ^ t = (y * B - A) * (2 ^ t / B) by field_simp, abs_mul,
      abs_of_pos (div_pos hp hBq)]
  refine ⟨?_, ?_⟩
  · rw [hd]
    rcases hn2.lt_or_eq with h | h
    · exact ⟨_, t, h, by omega, by omega, rfl⟩
    · refine ⟨2 ^ 52, t + 1, by norm_num, by omega, by omega, ?_⟩
      rw [h, zpow_add₀ (by norm_num)]
      norm_num
      ring
  · rintro y ⟨m, e, hm, -, -, rfl⟩ hne
    rw [hq, hd] at *
    by_cases het : t ≤ e
    · obtain ⟨j, rfl⟩ : ∃ j : ℕ, e = t + j := ⟨(e - t).toNat, by omega⟩
      have ey : (m : ℚ) * 2 ^ (t + (j : ℤ)) = ((m * 2 ^ j : ℕ) : ℤ) * 2 ^ t := by
        rw [zpow_add₀ (by norm_num), zpow_natCast]; push_cast; ring
      rw [ey] at hne ⊢
      rw [dist, show (roundEven A B : ℚ) = ((roundEven A B : ℤ) : ℚ) by push_cast; rfl, dist]
      apply mul_lt_mul_of_pos_right _ (div_pos hp hBq)
      have := roundEven_nearest A B hB htie ((m * 2 ^ j : ℕ) : ℤ) (by
        intro h; apply hne; rw [h]; push_cast; rfl)
      exact_mod_cast this
    · -- below the range: further away than `2 ^ 52`
      have hy : (m : ℚ) * 2 ^ e < 2 ^ 52 * 2 ^ t := by
        have e1 : (2 : ℚ) ^ e ≤ 2 ^ (t - 1) := zpow_le_zpow_right₀ (by norm_num) (by omega)
        have e2 : (2 : ℚ) ^ t = 2 ^ (t - 1) * 2 := by
          rw [← zpow_add_one₀ (by norm_num)]; congr 1; omega
        have hm' : (m : ℚ) < 2 ^ 53 := by exact_mod_cast hm
        have e3 := zpow_pos' e
        rw [e2]
        nlinarith
      have hlow : (2 : ℚ) ^ 52 * 2 ^ t ≤ (A : ℚ) / B * 2 ^ t := by
        apply mul_le_mul_of_nonneg_right _ hp.le
        rw [le_div_iff₀ hBq]
        exact_mod_cast l1
      have hstep : |(roundEven A B : ℚ) * 2 ^ t - (A : ℚ) / B * 2 ^ t| ≤ |2 ^ 52 * 2 ^ t - (A : ℚ) / B * 2 ^ t| := by
        rw [dist, dist]
        apply mul_le_mul_of_nonneg_right _ (div_pos hp hBq).le
        by_cases h52 : (2 ^ 52 : ℤ) = roundEven A B
        · rw [show (roundEven A B : ℚ) = ((roundEven A B : ℤ) : ℚ) by push_cast; rfl, ← h52]
          push_cast; exact le_refl _
        · have := (roundEven_nearest A B hB htie (2 ^ 52) h52).le
          exact_mod_cast this
      refine lt_of_le_of_lt hstep ?_
      rw [abs_of_nonpos (by linarith), abs_of_nonpos (by linarith)]
      linarith

theorem nearest_unique {q d d' : ℚ} (h : NearestDouble q d) (h' : NearestDouble q d') : d = d' := by
  by_contra hne
  have h1 := h.2 d' h'.1 (Ne.symm hne)
  have h2 := h'.2 d h.1 hne
  exact lt_asymm h1 h2

/-- Numbers with few bits are not changed. -/
theorem round53_few (m e : Nat) (hm : m < 2 ^ 53) : round53 (m * 2 ^ e) = m * 2 ^ e := by
  unfold round53
  simp only
  split
  · rfl
  · rename_i hsz
    obtain ⟨sh, hsh⟩ : ∃ sh, bitLength (m * 2 ^ e) = sh + 52 + 1 := ⟨bitLength (m * 2 ^ e) - 53, by omega⟩
    have hle : bitLength (m * 2 ^ e) ≤ 53 + e := by
      refine (digitsBE_length_le_iff 2 _ _ (by omega)).2 ?_
      rw [pow_add]
      gcongr
    rw [show bitLength (m * 2 ^ e) - 53 = sh by omega]
    have hdvd : 2 ^ sh ∣ m * 2 ^ e := (pow_dvd_pow 2 (by omega)).trans (Dvd.intro_left _ rfl)
    rw [Nat.mod_eq_zero_of_dvd hdvd, if_neg (by
      have : 0 < 2 ^ (sh - 1) := by positivity
      omega), Nat.shiftRight_eq_div_pow, Nat.shiftLeft_eq, Nat.div_mul_cancel hdvd]

end NBC.Util
