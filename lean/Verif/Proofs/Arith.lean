import Mathlib.Data.Int.GCD
import Mathlib.Data.Nat.ModEq
import Mathlib.Data.Int.ModEq
import Mathlib.Tactic.Ring
import Mathlib.Tactic.Linarith
import Mathlib.Tactic.LinearCombination
import Verif.Model.NumberTheory

/-! # Lemmas: modular powers, inverse, gcd -/

namespace NBC.NT
open NBC

theorem powLoop_eq : ∀ (fuel b e m acc : Nat), e ≤ fuel → acc < m ∨ m = 0 →
    powLoop fuel b e m acc = (acc * b ^ e) % m ∨ (m = 0)
  | 0, b, e, m, acc, h, ha => by
    rcases ha with ha | ha
    · have : e = 0 := by omega
      subst this
      left; simp [powLoop, Nat.mod_eq_of_lt ha]
    · right; exact ha
  | fuel + 1, b, e, m, acc, h, ha => by
    rcases ha with ha | ha
    swap; · right; exact ha
    left
    unfold powLoop
    by_cases he : e = 0
    · subst he; simp [Nat.mod_eq_of_lt ha]
    · rw [if_neg he]
      have hm : m ≠ 0 := by omega
      have hlt : (if e % 2 = 1 then acc * b % m else acc) < m := by
        split
        · exact Nat.mod_lt _ (by omega)
        · exact ha
      rcases powLoop_eq fuel (b * b % m) (e / 2) m _ (by omega) (Or.inl hlt) with h1 | h1
      swap; · exact absurd h1 hm
      rw [h1]
      have hb2 : (b * b) ^ (e / 2) = b ^ (2 * (e / 2)) := by rw [pow_mul, pow_two]
      have e1 : ∀ x : Nat, x * (b * b % m) ^ (e / 2) ≡ x * b ^ (2 * (e / 2)) [MOD m] := by
        intro x
        rw [← hb2]
        exact Nat.ModEq.mul_left _ (Nat.ModEq.pow _ (Nat.mod_modEq _ _))
      split
      · rename_i hodd
        have h3 : acc * b * b ^ (2 * (e / 2)) = acc * b ^ e := by
          conv_rhs => rw [show e = 1 + 2 * (e / 2) by omega, pow_add]
          ring
        have h2 : (acc * b % m) * (b * b % m) ^ (e / 2) ≡ acc * b ^ e [MOD m] := by
          rw [← h3]
          exact ((Nat.mod_modEq _ _).mul_right _).trans (e1 _)
        exact h2
      · rename_i hev
        have h2 := e1 acc
        rw [show 2 * (e / 2) = e by omega] at h2
        exact h2

/-- `powMod` is exponentiation modulo `m`. -/
theorem powMod_eq (b e m : Nat) (hm : 0 < m) : powMod b e m = b ^ e % m := by
  have h1 : 1 % m < m := Nat.mod_lt _ hm
  rcases powLoop_eq e (b % m) e m (1 % m) le_rfl (Or.inl h1) with h | h
  · rw [powMod, h]
    have : (1 % m) * (b % m) ^ e ≡ 1 * b ^ e [MOD m] :=
      (Nat.mod_modEq _ _).mul ((Nat.mod_modEq _ _).pow _)
    rw [one_mul] at this
    exact this
  · omega

theorem modularExp_eq (b e : Int) (m : Nat) (he : 0 ≤ e) (hm : 0 < m) :
    modularExp b e m = .ok ((b ^ e.toNat) % m) := by
  have hm' : (m : Int) ≠ 0 := by omega
  have hb : 0 ≤ b % m := Int.emod_nonneg _ hm'
  rw [modularExp, if_neg (by omega), if_neg (by omega), powMod_eq _ _ _ hm]
  congr 1
  push_cast
  rw [Int.toNat_of_nonneg hb]
  exact (Int.mod_modEq b m).pow _

theorem gcd2Loop_natAbs : ∀ (fuel : Nat) (a b : Int), a.natAbs ≤ fuel →
    (gcd2Loop fuel a b).natAbs = Int.gcd a b
  | 0, a, b, h => by
    have : a = 0 := by omega
    subst this; simp [gcd2Loop]
  | fuel + 1, a, b, h => by
    unfold gcd2Loop
    by_cases ha : a = 0
    · subst ha; simp
    · rw [if_pos ha]
      have hlt : (b.fmod a).natAbs < a.natAbs := by
        rcases lt_or_gt_of_ne ha with h0 | h0
        · have h1 := Int.fmod_nonneg_of_pos (-b) (b := -a) (by omega)
          have h2 := Int.fmod_lt_of_pos (-b) (b := -a) (by omega)
          rw [Int.neg_fmod_neg] at h1 h2
          omega
        · have h1 := Int.fmod_nonneg_of_pos b h0
          have h2 := Int.fmod_lt_of_pos b h0
          omega
      rw [gcd2Loop_natAbs fuel (b.fmod a) a (by omega)]
      have : b.fmod a = b - a * b.fdiv a := by
        have := Int.mul_fdiv_add_fmod b a; omega
      rw [this, sub_eq_add_neg, ← mul_neg, Int.gcd_add_mul_left_left, Int.gcd_comm]

theorem gcd2_natAbs (a b : Int) : (gcd2 a b).natAbs = Int.gcd a b :=
  gcd2Loop_natAbs _ a b le_rfl

theorem gcd2Loop_nonneg : ∀ (fuel : Nat) (a b : Int), 0 ≤ a → 0 ≤ b → 0 ≤ gcd2Loop fuel a b
  | 0, a, b, _, hb => hb
  | fuel + 1, a, b, ha, hb => by
    unfold gcd2Loop
    split
    · exact gcd2Loop_nonneg fuel _ _ (Int.fmod_nonneg_of_pos b (by omega)) ha
    · exact hb

theorem gcd2_eq (a b : Int) (ha : 0 ≤ a) (hb : 0 ≤ b) : gcd2 a b = Int.gcd a b := by
  have h1 := gcd2_natAbs a b
  have h2 := gcd2Loop_nonneg a.natAbs a b ha hb
  rw [← h1]
  change 0 ≤ gcd2 a b at h2
  omega

/-- Invariant of the loop of `inverse_mod`. -/
theorem invLoop_inv (a m : Int) (hm : 1 ≤ m) : ∀ (fuel : Nat) (c d uc vc ud vd s : Int),
    c.natAbs ≤ fuel → 0 ≤ c → c < d → s = 1 ∨ s = -1 →
    uc * a + vc * m = c → ud * a + vd * m = d → uc * d - ud * c = s * m →
    0 ≤ s * uc → s * ud ≤ 0 → |ud| < m → Int.gcd c d = Int.gcd a m →
    ∃ v', (invLoop fuel c d uc vc ud vd).2 * a + v' * m = (invLoop fuel c d uc vc ud vd).1 ∧
      (invLoop fuel c d uc vc ud vd).1 = Int.gcd a m ∧ |(invLoop fuel c d uc vc ud vd).2| < m
  | 0, c, d, uc, vc, ud, vd, s, hf, hc, hcd, hs, e1, e2, e3, s1, s2, hu, hg => by
    have h0 : c = 0 := by omega
    subst h0
    refine ⟨vd, e2, ?_, hu⟩
    rw [Int.gcd_zero_left] at hg
    simp only [invLoop]; omega
  | fuel + 1, c, d, uc, vc, ud, vd, s, hf, hc, hcd, hs, e1, e2, e3, s1, s2, hu, hg => by
    unfold invLoop
    by_cases h0 : c = 0
    · subst h0
      simp only [if_true]
      refine ⟨vd, e2, ?_, hu⟩
      rw [Int.gcd_zero_left] at hg
      omega
    · simp only [h0, if_false]
      have hcpos : 0 < c := by omega
      have hq := Int.mul_fdiv_add_fmod d c
      have hr0 := Int.fmod_nonneg_of_pos d hcpos
      have hr1 := Int.fmod_lt_of_pos d hcpos
      set q := d.fdiv c with hqdef
      set r := d.fmod c with hrdef
      have hq0 : 0 ≤ q := by
        rw [hqdef]
        exact Int.fdiv_nonneg (by omega) (by omega)
      have hd : d = c * q + r := hq.symm
      refine invLoop_inv a m hm fuel r c (ud - q * uc) (vd - q * vc) uc vc (-s)
        (by omega) hr0 hr1 (by rcases hs with h | h <;> [right; left] <;> omega) ?_ e1 ?_ ?_ ?_ ?_ ?_
      · linear_combination e2 - q * e1 - hq
      · linear_combination -e3 - uc * hq
      · nlinarith [mul_nonneg hq0 s1]
      · linarith
      · -- |uc| * d ≤ m and d ≥ 2
        have hd2 : 2 ≤ d := by omega
        have hs2 : s * s = 1 := by rcases hs with h | h <;> rw [h] <;> norm_num
        have h5 : s * uc * d = m + s * ud * c := by linear_combination s * e3 + m * hs2
        have h6 : s * ud * c ≤ 0 := by nlinarith
        have h7 : s * uc * 2 ≤ s * uc * d := by nlinarith
        have h8 : s * uc < m := by nlinarith
        have h9 : |uc| = s * uc := by
          rcases hs with h | h
          · subst h; rw [one_mul] at *; exact abs_of_nonneg s1
          · subst h
            have : uc ≤ 0 := by linarith
            rw [abs_of_nonpos this]; ring
        rw [h9]; exact h8
      · rw [← hg, hd, Int.gcd_comm r c, Int.gcd_comm c (c * q + r), Int.gcd_comm (c * q + r) c,
          add_comm, Int.gcd_add_mul_left_right]

/-- `inverse_mod` on a modulus at least 2: inverse of coprime arguments. -/
theorem inverseMod_spec (a m : Int) (hm : 2 ≤ m) :
    (Int.gcd a m = 1 → ∃ i, inverseMod a m = .ok i ∧ 1 ≤ i ∧ i < m ∧ (a * i) % m = 1) ∧
    (Int.gcd a m ≠ 1 → inverseMod a m = .error .assertionError) := by
  have hm0 : ¬ ((a < 0 ∨ m ≤ a) ∧ m = 0) := by omega
  set b : Int := if a < 0 ∨ m ≤ a then a.fmod m else a with hb
  have hb0 : 0 ≤ b ∧ b < m := by
    rw [hb]; split
    · exact ⟨Int.fmod_nonneg_of_pos a (by omega), Int.fmod_lt_of_pos a (by omega)⟩
    · omega
  have hbm : b % m = a % m := by
    rw [hb]; split
    · rw [Int.fmod_eq_emod_of_nonneg a (by omega)]; simp
    · rfl
  have hgcd : Int.gcd b m = Int.gcd a m := by
    obtain ⟨k, hk⟩ := Int.ModEq.dvd (show a ≡ b [ZMOD m] from hbm.symm)
    rw [show b = a + m * k by omega, Int.gcd_add_mul_left_left]
  obtain ⟨v, h1, h2, h3⟩ := invLoop_inv b m (by omega) b.natAbs b m 1 0 0 1 1 le_rfl hb0.1 hb0.2
    (Or.inl rfl) (by ring) (by ring) (by ring) (by norm_num) (by norm_num) (by simp; omega) rfl
  have key : inverseMod a m =
      if (invLoop b.natAbs b m 1 0 0 1).1 ≠ 1 then .error .assertionError
      else if (invLoop b.natAbs b m 1 0 0 1).2 > 0 then .ok (invLoop b.natAbs b m 1 0 0 1).2
      else .ok ((invLoop b.natAbs b m 1 0 0 1).2 + m) := by
    rw [inverseMod, if_neg hm0]
  rw [key]
  generalize (invLoop b.natAbs b m 1 0 0 1).1 = d at *
  generalize (invLoop b.natAbs b m 1 0 0 1).2 = u at *
  rw [hgcd] at h2
  constructor
  · intro hg
    rw [hg] at h2
    have hd1 : d = 1 := by simpa using h2
    subst hd1
    have hmod : ∀ k : Int, (a * (u + k * m)) % m = 1 := by
      intro k
      have h4 : (a * (u + k * m)) % m = (b * (u + k * m)) % m := by
        rw [Int.mul_emod, ← hbm, ← Int.mul_emod]
      have h5 : b * (u + k * m) = 1 + m * (b * k - v) := by linear_combination h1
      rw [h4, h5, Int.add_mul_emod_self_left]
      exact Int.emod_eq_of_lt (by omega) (by omega)
    have hu0 : u ≠ 0 := by
      rintro rfl
      have := hmod 0
      simp at this
    have habs := abs_lt.1 h3
    by_cases hu : u > 0
    · refine ⟨u, by simp [hu], by omega, by omega, by simpa using hmod 0⟩
    · refine ⟨u + m, by simp [hu], by omega, by omega, by simpa using hmod 1⟩
  · intro hg
    have : d ≠ 1 := by rw [h2]; exact_mod_cast hg
    simp [this]

end NBC.NT
