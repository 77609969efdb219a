import Mathlib.FieldTheory.Finite.Basic
import Mathlib.Data.Nat.Factorization.Basic
import Verif.Proofs.Arith

/-!
# Primality certificates

Pocklington's criterion, with a checker the kernel evaluates on literal numbers.
-/

namespace NBC.NT
open NBC

/-- A prime power dividing `m` divides the order `d`, if `d ∣ m` and `d ∤ m / q`. -/
theorem prime_pow_dvd_order {q k m d : Nat} (hq : q.Prime) (hk : q ^ k ∣ m) (hd : d ∣ m)
    (hn : ¬ d ∣ m / q) (hm : 0 < m) : q ^ k ∣ d := by
  obtain ⟨c, rfl⟩ := hd
  have hd0 : d ≠ 0 := by rintro rfl; simp at hm
  by_cases hqc : q ∣ c
  · exfalso
    obtain ⟨c', rfl⟩ := hqc
    apply hn
    rw [show d * (q * c') = q * (d * c') by ring, Nat.mul_div_cancel_left _ hq.pos]
    exact dvd_mul_right d c'
  · exact (Nat.Coprime.pow_left k ((Nat.Prime.coprime_iff_not_dvd hq).mpr hqc)).dvd_of_dvd_mul_right hk

/-- Pocklington's criterion. -/
theorem pocklington (N F : Nat) (hN : 1 < N) (hF : F ∣ N - 1) (hsq : N < (F + 1) * (F + 1))
    (h : ∀ q, q.Prime → q ∣ F → ∃ a : Nat, a ^ (N - 1) % N = 1 ∧
      Nat.gcd (a ^ ((N - 1) / q) % N + (N - 1)) N = 1) : N.Prime := by
  by_contra hcomp
  set r := N.minFac with hr
  have hrp : r.Prime := Nat.minFac_prime (by omega)
  have hrN : r ∣ N := Nat.minFac_dvd N
  have hr2 : r * r ≤ N := by
    have := Nat.minFac_sq_le_self (by omega : 0 < N) hcomp
    rw [← hr, sq] at this; exact this
  haveI : Fact r.Prime := ⟨hrp⟩
  have hdvd : F ∣ r - 1 := by
    rw [Nat.dvd_iff_prime_pow_dvd_dvd]
    intro q k hq hk
    rcases Nat.eq_zero_or_pos k with rfl | hk0
    · simp
    obtain ⟨a, ha1, ha2⟩ := h q hq (dvd_trans (dvd_pow_self q (by omega)) hk)
    have e1 : ((a : ZMod r)) ^ (N - 1) = 1 := by
      have : ((a ^ (N - 1) : Nat) : ZMod r) = ((1 : Nat) : ZMod r) := by
        rw [ZMod.natCast_eq_natCast_iff]
        have h1 : a ^ (N - 1) ≡ 1 [MOD N] := by
          unfold Nat.ModEq; rw [ha1, Nat.mod_eq_of_lt hN]
        exact h1.of_dvd hrN
      push_cast at this; exact this
    have e2 : ((a : ZMod r)) ^ ((N - 1) / q) ≠ 1 := by
      intro he
      have hmod : ((a ^ ((N - 1) / q) % N + (N - 1) : Nat) : ZMod r) = 0 := by
        have hc : ((a ^ ((N - 1) / q) % N : Nat) : ZMod r) = 1 := by
          rw [← he, ← Nat.cast_pow, ZMod.natCast_eq_natCast_iff]
          exact (Nat.mod_modEq _ _).of_dvd hrN
        rw [Nat.cast_add, hc, Nat.cast_sub (by omega)]
        have : ((N : Nat) : ZMod r) = 0 := (ZMod.natCast_eq_zero_iff N r).mpr hrN
        rw [this]; simp
      have hdv := (ZMod.natCast_eq_zero_iff _ r).mp hmod
      have := Nat.dvd_gcd hdv hrN
      rw [ha2] at this
      exact hrp.one_lt.ne' (Nat.dvd_one.mp this)
    have hd1 : orderOf (a : ZMod r) ∣ N - 1 := orderOf_dvd_of_pow_eq_one e1
    have hd2 : ¬ orderOf (a : ZMod r) ∣ (N - 1) / q := fun hh => e2 (orderOf_dvd_iff_pow_eq_one.mp hh)
    have hd3 : orderOf (a : ZMod r) ∣ r - 1 := by
      apply orderOf_dvd_of_pow_eq_one
      apply ZMod.pow_card_sub_one_eq_one
      intro h0
      rw [h0, zero_pow (by omega)] at e1
      exact zero_ne_one e1
    exact dvd_trans (prime_pow_dvd_order hq (dvd_trans hk hF) hd1 hd2 (by omega)) hd3
  have hle : F ≤ r - 1 := Nat.le_of_dvd (by have := hrp.two_le; omega) hdvd
  have : F + 1 ≤ r := by have := hrp.two_le; omega
  have := Nat.mul_le_mul this this
  omega

/-- The checker: `fs` lists prime factors (with repetition) and a base for each. -/
def pockCheck (N : Nat) (fs : List (Nat × Nat)) : Bool :=
  let F := (fs.map Prod.fst).prod
  decide (1 < N) && decide ((N - 1) % F = 0) && decide (N < (F + 1) * (F + 1)) &&
  fs.all fun qa => decide (powMod qa.2 (N - 1) N = 1) &&
    decide (Nat.gcd (powMod qa.2 ((N - 1) / qa.1) N + (N - 1)) N = 1)

theorem prime_of_pockCheck (N : Nat) (fs : List (Nat × Nat)) (hp : ∀ qa ∈ fs, qa.1.Prime)
    (h : pockCheck N fs = true) : N.Prime := by
  simp only [pockCheck, Bool.and_eq_true, decide_eq_true_eq, List.all_eq_true] at h
  obtain ⟨⟨⟨h1, h2⟩, h3⟩, h4⟩ := h
  refine pocklington N _ h1 (Nat.dvd_of_mod_eq_zero h2) h3 ?_
  intro q hq hqF
  obtain ⟨q', hq', hdiv⟩ := (hq.prime.dvd_prod_iff).mp hqF
  obtain ⟨qa, hqa, rfl⟩ := List.mem_map.mp hq'
  have hqq : q = qa.1 := (Nat.prime_dvd_prime_iff_eq hq (hp qa hqa)).mp hdiv
  subst hqq
  have := h4 qa hqa
  rw [powMod_eq _ _ _ (by omega), powMod_eq _ _ _ (by omega)] at this
  exact ⟨qa.2, this⟩

end NBC.NT
