import Verif.Proofs.Difficulty
import Verif.Model.Util

/-!
# C141: the difficulty of a block
-/

namespace NBC.Props
open NBC Spec Util Ecdsa

/-- The parts of compact bits as the code takes them. -/
theorem bits_parts (bits : Nat) : bits &&& 0x7fffff = bits % 2 ^ 23 ∧ bits >>> 24 = bits / 2 ^ 24 :=
  ⟨by rw [show 0x7fffff = 2 ^ 23 - 1 by norm_num, Nat.and_two_pow_sub_one_eq_mod], Nat.shiftRight_eq_div_pow _ _⟩

/-- The target as mantissa and power of two. -/
theorem compactTarget_eq (bits : Nat) :
    compactTarget bits = (bits % 2 ^ 23 : ℕ) * 2 ^ (8 * (((bits / 2 ^ 24 : ℕ) : ℤ) - 3)) := by
  rw [compactTarget, show (256 : ℚ) = 2 ^ (8 : ℤ) by norm_num, ← zpow_mul]

theorem compactTarget_nonneg (bits : Nat) : 0 ≤ compactTarget bits := by
  rw [compactTarget_eq]
  exact mul_nonneg (by positivity) (zpow_pos' _).le

theorem one_bits : difficultyOneTarget = 65535 * 2 ^ 208 := by decide +kernel

/-- What `get_difficulty` computes. -/
theorem getDifficulty_eq (bits : Nat) :
    (bits % 2 ^ 23 = 0 → getDifficulty bits = .error .zeroDivisionError) ∧
    (bits % 2 ^ 23 ≠ 0 → 2 ^ 1024 ≤ compactTarget bits → getDifficulty bits = .error .overflowError) ∧
    (bits % 2 ^ 23 ≠ 0 → compactTarget bits < 2 ^ 1024 → ∃ a b s : Nat, getDifficulty bits = .ok (fdiv a b) ∧
      a = 65535 * 2 ^ s ∧ 0 < b ∧ Nat.log2 b < 1024 ∧ s ≤ 232 ∧ (a : ℚ) / b = targetOne / compactTarget bits) := by
  rw [compactTarget_eq]
  unfold getDifficulty
  simp only
  rw [(bits_parts bits).1, (bits_parts bits).2]
  simp only [Nat.cast_ofNat]
  have hm : bits % 2 ^ 23 < 2 ^ 23 := Nat.mod_lt _ (by norm_num)
  generalize bits % 2 ^ 23 = m at *
  generalize bits / 2 ^ 24 = e at *
  by_cases he : (0 : Int) ≤ 8 * ((e : Int) - 3)
  · obtain ⟨x, hx⟩ : ∃ x : ℕ, 8 * ((e : Int) - 3) = x := ⟨_, (Int.toNat_of_nonneg he).symm⟩
    rw [if_pos he, hx, Int.toNat_natCast, zpow_natCast, round53_few m x (by omega)]
    refine ⟨?_, ?_, ?_⟩
    · rintro rfl
      rw [if_neg (by simp), if_pos (by simp)]
    · intro _ h
      rw [if_pos (by exact_mod_cast h)]
    · intro h0 h
      have h' : m * 2 ^ x < 2 ^ 1024 := by exact_mod_cast h
      have hpos : 0 < m * 2 ^ x := by positivity
      rw [if_neg (by omega), if_neg (by omega)]
      refine ⟨difficultyOneTarget, m * 2 ^ x, 208, rfl, one_bits, hpos, (Nat.log2_lt (by omega)).2 h', by omega, ?_⟩
      rw [one_bits, targetOne]
      push_cast
      norm_num
  · obtain ⟨x, hx⟩ : ∃ x : ℕ, 8 * ((e : Int) - 3) = -(x : ℤ) := ⟨(-(8 * ((e : Int) - 3))).toNat, by omega⟩
    have hx24 : x ≤ 24 := by omega
    rw [if_neg he, hx, neg_neg, Int.toNat_natCast, zpow_neg, zpow_natCast]
    have hlt : (m : ℚ) * (2 ^ x)⁻¹ < 2 ^ 1024 := by
      have h1 : (m : ℚ) < 2 ^ 23 := by exact_mod_cast hm
      have h2 : ((2 : ℚ) ^ x)⁻¹ ≤ 1 := inv_le_one_of_one_le₀ (one_le_pow₀ (by norm_num))
      calc (m : ℚ) * (2 ^ x)⁻¹ ≤ m * 1 := by gcongr
        _ < 2 ^ 23 := by linarith
        _ ≤ 2 ^ 1024 := pow_le_pow_right₀ (by norm_num) (by norm_num)
    refine ⟨?_, ?_, ?_⟩
    · rintro rfl; rfl
    · intro _ h; exact absurd hlt (not_lt.2 h)
    · intro h0 _
      rw [if_neg h0]
      refine ⟨_, m, 208 + x, rfl, by rw [one_bits, pow_add]; ring, by omega, ?_, by omega, ?_⟩
      · exact (Nat.log2_lt h0).2 (hm.trans_le (Nat.pow_le_pow_right (by norm_num) (by norm_num)))
      · have : (m : ℚ) ≠ 0 := by exact_mod_cast h0
        rw [one_bits, targetOne]
        push_cast
        field_simp
        norm_num

/-- C141: `get_difficulty` gives the double nearest to the target of difficulty one divided by the target of the
bits; no other double is as near. -/
theorem C141_nearest (bits : Nat) (h0 : compactTarget bits ≠ 0) (h : compactTarget bits < 2 ^ 1024) :
    ∃ d, getDifficulty bits = .ok d ∧ NearestDouble (targetOne / compactTarget bits) d ∧
      |d - targetOne / compactTarget bits| ≤ targetOne / compactTarget bits / 2 ^ 53 := by
  have hm : bits % 2 ^ 23 ≠ 0 := fun hm => h0 (by rw [compactTarget, hm]; simp)
  obtain ⟨a, b, s, hd, ha, hb, hl, hs, hq⟩ := (getDifficulty_eq bits).2.2 hm h
  have hapos : 0 < a := by rw [ha]; positivity
  have hla : Nat.log2 a = 15 + s := by
    rw [ha, Nat.log2_eq_iff (by positivity), show 65535 * 2 ^ s = 65535 * 2 ^ s from rfl, pow_add,
      show 15 + s + 1 = 16 + s by omega, pow_add]
    have : 0 < 2 ^ s := by positivity
    omega
  refine ⟨_, hd, ?_, ?_⟩
  · rw [← hq]
    exact fdiv_nearest a b 65535 s ha (by norm_num) hapos hb (by omega) (by omega)
  · rw [← hq]
    exact fdiv_err a b hapos hb

/-- Bits of a recent block of Bitcoin: a target neither zero nor too large, and not a power of two. -/
example : compactTarget 0x1703255b ≠ 0 ∧ compactTarget 0x1703255b < 2 ^ 1024 := by
  refine ⟨by norm_num [compactTarget], lt_of_lt_of_le (b := 2 ^ 200) (by norm_num [compactTarget]) ?_⟩
  exact pow_le_pow_right₀ (by norm_num) (by norm_num)

/-- C141: which bits have no difficulty: those with a target of zero, and those with a target beyond the floats. -/
theorem C141_refused (bits : Nat) :
    (getDifficulty bits = .error .zeroDivisionError ↔ compactTarget bits = 0) ∧
    (getDifficulty bits = .error .overflowError ↔ 2 ^ 1024 ≤ compactTarget bits) ∧
    (∀ e, getDifficulty bits = .error e → e = .zeroDivisionError ∨ e = .overflowError) := by
  have hz : compactTarget bits = 0 ↔ bits % 2 ^ 23 = 0 := by
    rw [compactTarget_eq, mul_eq_zero]
    have := (zpow_pos' (8 * (((bits / 2 ^ 24 : ℕ) : ℤ) - 3))).ne'
    constructor
    · rintro (h | h)
      · exact_mod_cast h
      · exact absurd h this
    · intro h; left; exact_mod_cast h
  obtain ⟨h1, h2, h3⟩ := getDifficulty_eq bits
  rw [hz]
  by_cases hm : bits % 2 ^ 23 = 0
  · have : compactTarget bits = 0 := hz.2 hm
    rw [h1 hm, this]
    refine ⟨⟨fun _ => hm, fun _ => rfl⟩, ⟨nofun, fun h => ?_⟩, ?_⟩
    · exact absurd h (not_le.2 (pow_pos (by norm_num) _))
    · rintro e ⟨⟩; exact .inl rfl
  · by_cases ht : compactTarget bits < 2 ^ 1024
    · obtain ⟨a, b, s, hd, -⟩ := h3 hm ht
      rw [hd]
      exact ⟨⟨nofun, fun h => absurd h hm⟩, ⟨nofun, fun h => absurd ht (not_lt.2 h)⟩, nofun⟩
    · rw [h2 hm (not_lt.1 ht)]
      refine ⟨⟨nofun, fun h => absurd h hm⟩, ⟨fun _ => not_lt.1 ht, fun _ => rfl⟩, ?_⟩
      rintro e ⟨⟩; exact .inr rfl

/-- All three kinds occur. -/
example : compactTarget 0x1d800000 = 0 ∧ 2 ^ 1024 ≤ compactTarget 0xff7fffff := by
  refine ⟨by norm_num [compactTarget], ?_⟩
  rw [compactTarget_eq, show (8 * (((0xff7fffff / 2 ^ 24 : ℕ) : ℤ) - 3)) = ((2016 : ℕ) : ℤ) by norm_num, zpow_natCast]
  refine (pow_le_pow_right₀ (by norm_num) (by norm_num : 1024 ≤ 2016)).trans (le_mul_of_one_le_left ?_ ?_)
  · positivity
  · norm_num

/-- Different targets differ by more than one part in `2 ^ 23`. -/
theorem target_gap (b b' : Nat) (h : compactTarget b < compactTarget b') :
    compactTarget b * (1 + 1 / 2 ^ 23) ≤ compactTarget b' := by
  rw [compactTarget_eq, compactTarget_eq] at *
  have hm : b % 2 ^ 23 < 2 ^ 23 := Nat.mod_lt _ (by norm_num)
  have hm' : b' % 2 ^ 23 < 2 ^ 23 := Nat.mod_lt _ (by norm_num)
  generalize b % 2 ^ 23 = m at *
  generalize b' % 2 ^ 23 = m' at *
  generalize 8 * (((b / 2 ^ 24 : ℕ) : ℤ) - 3) = e at *
  generalize 8 * (((b' / 2 ^ 24 : ℕ) : ℤ) - 3) = e' at *
  have hmq : (m : ℚ) < 2 ^ 23 := by exact_mod_cast hm
  have hmq' : (m' : ℚ) < 2 ^ 23 := by exact_mod_cast hm'
  by_cases he : e ≤ e'
  · obtain ⟨j, rfl⟩ : ∃ j : ℕ, e' = e + j := ⟨(e' - e).toNat, by omega⟩
    rw [zpow_add₀ (by norm_num), zpow_natCast] at *
    have hp := zpow_pos' e
    generalize (2 : ℚ) ^ e = w at *
    have h1 : (m : ℚ) < m' * 2 ^ j := by
      by_contra hc
      nlinarith
    have h2 : (m : ℚ) + 1 ≤ m' * 2 ^ j := by exact_mod_cast h1
    have h3 : (m : ℚ) * (1 / 2 ^ 23) ≤ 1 := by linarith
    nlinarith
  · obtain ⟨j, rfl⟩ : ∃ j : ℕ, e = e' + j := ⟨(e - e').toNat, by omega⟩
    rw [zpow_add₀ (by norm_num), zpow_natCast] at *
    have hp := zpow_pos' e'
    generalize (2 : ℚ) ^ e' = w at *
    have h1 : (m : ℚ) * 2 ^ j < m' := by
      by_contra hc
      nlinarith
    have h2 : (m : ℚ) * 2 ^ j + 1 ≤ m' := by exact_mod_cast h1
    have h3 : (m : ℚ) * 2 ^ j * (1 / 2 ^ 23) ≤ 1 := by linarith
    nlinarith

/-- C141: comparing two difficulties is comparing the targets the other way round, in spite of the rounding. -/
theorem C141_order (b b' : Nat) (d d' : ℚ) (h : getDifficulty b = .ok d) (h' : getDifficulty b' = .ok d') :
    (d < d' ↔ compactTarget b' < compactTarget b) ∧ (d = d' ↔ compactTarget b = compactTarget b') := by
  have key (b : Nat) (d : ℚ) (h : getDifficulty b = .ok d) : 0 < compactTarget b ∧
      NearestDouble (targetOne / compactTarget b) d ∧
      |d - targetOne / compactTarget b| ≤ targetOne / compactTarget b / 2 ^ 53 := by
    have hne : compactTarget b ≠ 0 := fun h0 => by
      have := (C141_refused b).1.2 h0
      rw [h] at this; exact absurd this nofun
    have hlt : compactTarget b < 2 ^ 1024 := by
      refine lt_of_not_ge fun hc => ?_
      have := (C141_refused b).2.1.2 hc
      rw [h] at this; exact absurd this nofun
    obtain ⟨x, hx, g1, g2⟩ := C141_nearest b hne hlt
    rw [h] at hx
    obtain rfl := Except.ok.inj hx
    exact ⟨lt_of_le_of_ne (compactTarget_nonneg b) hne.symm, g1, g2⟩
  have strict (b b' : Nat) (d d' : ℚ) (h : getDifficulty b = .ok d) (h' : getDifficulty b' = .ok d')
      (hl : compactTarget b' < compactTarget b) : d < d' := by
    obtain ⟨p1, -, e1⟩ := key b d h
    obtain ⟨p2, -, e2⟩ := key b' d' h'
    have hgap := target_gap b' b hl
    have hone : (0 : ℚ) < targetOne := by norm_num [targetOne]
    have hq : targetOne / compactTarget b * (1 + 1 / 2 ^ 23) ≤ targetOne / compactTarget b' := by
      rw [div_mul_eq_mul_div, div_le_div_iff₀ p1 p2]
      nlinarith
    have hqpos : 0 < targetOne / compactTarget b := div_pos hone p1
    rw [abs_le] at e1 e2
    generalize targetOne / compactTarget b = q at *
    generalize targetOne / compactTarget b' = q' at *
    norm_num at e1 e2 hq ⊢
    linarith [e1.2, e2.1]
  have same (hl : compactTarget b = compactTarget b') : d = d' := by
    have n1 := (key b d h).2.1
    have n2 := (key b' d' h').2.1
    rw [hl] at n1
    exact nearest_unique n1 n2
  rcases lt_trichotomy (compactTarget b) (compactTarget b') with hl | hl | hl
  · have := strict b' b d' d h' h hl
    exact ⟨⟨fun g => absurd g this.asymm, fun g => absurd g hl.asymm⟩, ⟨fun g => absurd g this.ne', fun g => absurd g hl.ne⟩⟩
  · have := same hl
    exact ⟨⟨fun g => absurd this g.ne, fun g => absurd hl g.ne'⟩, ⟨fun _ => hl, fun _ => this⟩⟩
  · have := strict b b' d d' h h' hl
    exact ⟨⟨fun _ => hl, fun _ => this⟩, ⟨fun g => absurd g this.ne, fun g => absurd g hl.ne'⟩⟩

/-- The bits of the first block have difficulty one, those of block 32256 the well-known 1.18. -/
theorem first_difficulty : getDifficulty 0x1d00ffff = .ok 1 := by decide +kernel

example : getDifficulty 0x1d00d86a = .ok (5327305901948043 / 2 ^ 52) := by decide +kernel

/-- C141: the difficulty is one exactly for the target of difficulty one, and never zero. -/
theorem C141_one (bits : Nat) (d : ℚ) (h : getDifficulty bits = .ok d) :
    (d = 1 ↔ compactTarget bits = targetOne) ∧ (d < 1 ↔ targetOne < compactTarget bits) ∧ 0 < d := by
  have hT : compactTarget 0x1d00ffff = targetOne := by norm_num [compactTarget, targetOne]
  obtain ⟨g1, g2⟩ := C141_order bits 0x1d00ffff d 1 h first_difficulty
  rw [hT] at g1 g2
  refine ⟨g2, g1, ?_⟩
  have hne : compactTarget bits ≠ 0 := fun h0 => by
    have := (C141_refused bits).1.2 h0
    rw [h] at this; cases this
  have hlt : compactTarget bits < 2 ^ 1024 := by
    refine lt_of_not_ge fun hc => ?_
    have := (C141_refused bits).2.1.2 hc
    rw [h] at this; exact absurd this nofun
  obtain ⟨x, hx, -, e⟩ := C141_nearest bits hne hlt
  rw [h] at hx
  obtain rfl := Except.ok.inj hx
  have hpos : 0 < targetOne / compactTarget bits := by
    apply div_pos (by norm_num [targetOne])
    exact lt_of_le_of_ne (compactTarget_nonneg bits) hne.symm
  rw [abs_le] at e
  generalize targetOne / compactTarget bits = q at *
  norm_num at e
  linarith [e.1]

/-- C141: the target that the difficulty is about is the one `get_target` writes, for exponents from 3 on. -/
theorem C141_target (bits : Nat) (h : 3 ≤ bits / 2 ^ 24) : (targetNat bits : ℚ) = compactTarget bits := by
  obtain ⟨e, he⟩ : ∃ e, bits / 2 ^ 24 = e + 3 := ⟨bits / 2 ^ 24 - 3, by omega⟩
  have h1 : ((bits : Int) / 0x1000000 - 3) = (e : Int) := by
    have : (bits : Int) / 0x1000000 = ((bits / 2 ^ 24 : Nat) : Int) := by norm_num
    rw [this, he]; push_cast; ring
  have h2 : ((bits : Int) % 0x800000).toNat = bits % 2 ^ 23 := by
    have : (bits : Int) % 0x800000 = ((bits % 2 ^ 23 : Nat) : Int) := by norm_num
    rw [this, Int.toNat_natCast]
  unfold targetNat
  simp only
  rw [h1, h2, if_pos (by positivity), Int.toNat_natCast, compactTarget, he]
  push_cast
  rw [show (e : ℤ) + 3 - 3 = (e : ℤ) by ring, zpow_natCast, pow_mul]
  norm_num

example : 3 ≤ 0x1d00ffff / 2 ^ 24 := by norm_num

end NBC.Props
