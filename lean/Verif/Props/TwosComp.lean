import Verif.Model.TwosComp
import Mathlib.Tactic.Ring
import Mathlib.Tactic.Linarith

/-!
# C163: two's complement
-/

namespace NBC.Spec

/-- `r` is the signed number whose two's complement of `bits` bits is `val`. -/
structure SignedOf (val bits r : Int) : Prop where
  low : -2 ^ (bits.toNat - 1) ≤ r
  high : r < 2 ^ (bits.toNat - 1)
  same : (2 ^ bits.toNat : Int) ∣ val - r

end NBC.Spec

namespace NBC.Props
open NBC NBC.Ecc NBC.Spec

private theorem pow_bits {bits : Int} (h : 0 < bits) : (2 : Int) ^ bits.toNat = 2 * 2 ^ (bits.toNat - 1) := by
  obtain ⟨n, hn⟩ : ∃ n, bits.toNat = n + 1 := ⟨bits.toNat - 1, by omega⟩
  rw [hn, Nat.add_sub_cancel, pow_succ]
  ring

/-- There is only one such number. -/
theorem signedOf_unique {val bits r s : Int} (hb : 0 < bits) (h : SignedOf val bits r) (h' : SignedOf val bits s) : r = s := by
  obtain ⟨k, hk⟩ := h.same
  obtain ⟨l, hl⟩ := h'.same
  have h1 := h.low
  have h2 := h.high
  have h3 := h'.low
  have h4 := h'.high
  rw [pow_bits hb] at hk hl
  generalize (2 : Int) ^ (bits.toNat - 1) = m at *
  have hm : 0 < m := by omega
  have e : s - r = 2 * m * (k - l) := by rw [mul_sub, ← hk, ← hl]; ring
  have : k - l = 0 := by
    by_contra hne
    rcases lt_or_gt_of_ne hne with hlt | hgt
    · have : 2 * m * (k - l) ≤ 2 * m * (-1) := by apply mul_le_mul_of_nonneg_left <;> omega
      omega
    · have : 2 * m * 1 ≤ 2 * m * (k - l) := by apply mul_le_mul_of_nonneg_left <;> omega
      omega
  rw [this] at e
  omega

/-- **C163**, what holds: a number that fits in `bits` bits is read as the signed number it stands for.  Missing: other
numbers (`C163_wide_false`). -/
theorem C163_signed_partial (val bits : Int) (hb : 0 < bits) (h0 : 0 ≤ val) (h1 : val < 2 ^ bits.toNat) :
    ∃ r, twosComp val bits = .ok r ∧ SignedOf val bits r := by
  unfold twosComp
  rw [if_neg (by omega), show (bits - 1).toNat = bits.toNat - 1 by omega]
  have hp := pow_bits hb
  have hm : (0 : Int) < 2 ^ (bits.toNat - 1) := by positivity
  unfold bitSet
  rw [hp] at h1 ⊢
  have hq0 : 0 ≤ val / 2 ^ (bits.toNat - 1) := Int.ediv_nonneg h0 hm.le
  have hq1 : val / 2 ^ (bits.toNat - 1) < 2 := Int.ediv_lt_of_lt_mul hm h1
  have hd := Int.mul_ediv_add_emod val (2 ^ (bits.toNat - 1))
  have hr0 := Int.emod_nonneg val hm.ne'
  have hr1 := Int.emod_lt_of_pos val hm
  split
  · rename_i hbit
    rw [beq_iff_eq] at hbit
    have hq : val / 2 ^ (bits.toNat - 1) = 1 := by omega
    rw [hq, mul_one] at hd
    refine ⟨_, rfl, ⟨by omega, by omega, ?_⟩⟩
    rw [hp]
    exact ⟨1, by ring⟩
  · rename_i hbit
    rw [beq_iff_eq] at hbit
    have hq : val / 2 ^ (bits.toNat - 1) = 0 := by omega
    rw [hq, mul_zero] at hd
    exact ⟨_, rfl, ⟨by omega, by omega, by simp⟩⟩

example : (0 : Int) < 8 ∧ (0 : Int) ≤ 200 ∧ (200 : Int) < 2 ^ (8 : Int).toNat ∧ twosComp 200 8 = .ok (-56) := by decide

/-- **C163**: every signed number of that many bits is read back from its two's complement. -/
theorem C163_back (r bits : Int) (hb : 0 < bits) (h0 : -2 ^ (bits.toNat - 1) ≤ r) (h1 : r < 2 ^ (bits.toNat - 1)) :
    twosComp (r % 2 ^ bits.toNat) bits = .ok r := by
  have hm : (0 : Int) < 2 ^ bits.toNat := by positivity
  obtain ⟨s, e, hs⟩ := C163_signed_partial (r % 2 ^ bits.toNat) bits hb (Int.emod_nonneg r hm.ne') (Int.emod_lt_of_pos r hm)
  rw [e, signedOf_unique hb hs ⟨h0, h1, ?_⟩]
  have := Int.mul_ediv_add_emod r (2 ^ bits.toNat)
  exact ⟨-(r / 2 ^ bits.toNat), by linarith⟩

example : (-(2 : Int) ^ ((8 : Int).toNat - 1) ≤ -128) ∧ twosComp ((-128) % 2 ^ (8 : Int).toNat) 8 = .ok (-128) := by decide

/-- **C163**: a width of no bits raises `ValueError`, whatever the number. -/
theorem C163_width (val bits : Int) : twosComp val bits = .error .valueError ↔ bits ≤ 0 := by
  unfold twosComp
  constructor
  · intro h
    by_contra hb
    rw [if_neg (by omega)] at h
    split at h <;> cases h
  · intro h
    rw [if_pos (by omega)]

/-- **C163 is false of wider numbers**: they are not cut down to the width.  No number of at least one and a half times the
range is read as a signed number of that width. -/
theorem C163_wide_false (val bits : Int) (hb : 0 < bits) (h0 : 2 ^ bits.toNat + 2 ^ (bits.toNat - 1) ≤ val) :
    ∀ r, twosComp val bits = .ok r → ¬ SignedOf val bits r := by
  intro r h hs
  have h1 := hs.high
  have hm : (0 : Int) < 2 ^ (bits.toNat - 1) := by positivity
  unfold twosComp at h
  rw [if_neg (by omega)] at h
  split at h
  · cases h
    omega
  · cases h
    have : (0 : Int) < 2 ^ bits.toNat := by positivity
    omega

example : (2 : Int) ^ (8 : Int).toNat + 2 ^ ((8 : Int).toNat - 1) ≤ 456 ∧ twosComp 456 8 = .ok 200 := by decide

end NBC.Props
