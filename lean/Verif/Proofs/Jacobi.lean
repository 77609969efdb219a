import Mathlib.NumberTheory.LegendreSymbol.JacobiSymbol
import Verif.Proofs.Arith

/-! # The `jacobi` function computes the Jacobi symbol -/

namespace NBC.NT
open NBC
open scoped NumberTheorySymbols

theorem stripTwos_spec : ∀ (fuel a e : Nat), 0 < a → a ≤ fuel →
    (stripTwos fuel a e).1 % 2 = 1 ∧ e ≤ (stripTwos fuel a e).2 ∧
    a = 2 ^ ((stripTwos fuel a e).2 - e) * (stripTwos fuel a e).1
  | 0, a, e, h, hf => by omega
  | fuel + 1, a, e, h, hf => by
    unfold stripTwos
    by_cases h2 : a % 2 = 0
    · rw [if_pos h2]
      obtain ⟨h1, h3, h4⟩ := stripTwos_spec fuel (a / 2) (e + 1) (by omega) (by omega)
      refine ⟨h1, by omega, ?_⟩
      generalize stripTwos fuel (a / 2) (e + 1) = r at *
      have : r.2 - e = (r.2 - (e + 1)) + 1 := by omega
      rw [this, pow_succ]
      calc a = 2 * (a / 2) := by omega
        _ = 2 * (2 ^ (r.2 - (e + 1)) * r.1) := by rw [← h4]
        _ = _ := by ring
    · rw [if_neg h2]
      exact ⟨by simp; omega, le_rfl, by simp⟩

theorem jacobi_two_pow (n e : Nat) (hn : n % 2 = 1) :
    J(((2 ^ e : Nat) : ℤ) | n) = if e % 2 = 0 ∨ n % 8 = 1 ∨ n % 8 = 7 then 1 else -1 := by
  have hodd : Odd n := Nat.odd_iff.2 hn
  push_cast
  rw [jacobiSym.pow_left, jacobiSym.at_two hodd, ZMod.χ₈_nat_eq_if_mod_eight]
  have h0 : ¬ n % 2 = 0 := by omega
  rw [if_neg h0]
  by_cases h8 : n % 8 = 1 ∨ n % 8 = 7
  · rw [if_pos h8, one_pow, if_pos (Or.inr h8)]
  · rw [if_neg h8]
    by_cases he : e % 2 = 0
    · rw [if_pos (Or.inl he)]
      exact Even.neg_one_pow (Nat.even_iff.2 he)
    · rw [if_neg (by tauto)]
      exact Odd.neg_one_pow (Nat.odd_iff.2 (by omega))

theorem jacobiAux_eq : ∀ (fuel a n : Nat), n ≤ fuel → 3 ≤ n → n % 2 = 1 →
    jacobiAux fuel a n = .ok J(a | n)
  | 0, a, n, h, h3, _ => by omega
  | fuel + 1, a, n, h, h3, hodd => by
    have hmod : J((a : ℤ) | n) = J(((a % n : Nat) : ℤ) | n) := by
      rw [jacobiSym.mod_left]; push_cast; rfl
    rw [hmod]
    have hlt : a % n < n := Nat.mod_lt _ (by omega)
    unfold jacobiAux
    rw [if_neg (by omega), if_neg (by omega)]
    simp only
    generalize a % n = b at hlt
    by_cases hb0 : b = 0
    · subst hb0
      rw [if_pos rfl]
      have := jacobiSym.zero_left (b := n) (by omega)
      simp [this]
    rw [if_neg hb0]
    by_cases hb1 : b = 1
    · subst hb1
      simp
    rw [if_neg hb1]
    obtain ⟨ho, _, hab⟩ := stripTwos_spec b b 0 (by omega) le_rfl
    generalize hst : stripTwos b b 0 = r at *
    obtain ⟨a1, e⟩ := r
    simp only [Nat.sub_zero] at ho hab
    have hJ : J((b : ℤ) | n) = J(((2 ^ e : Nat) : ℤ) | n) * J((a1 : ℤ) | n) := by
      rw [← jacobiSym.mul_left, ← Nat.cast_mul, ← hab]
    rw [hJ, jacobi_two_pow n e hodd]
    by_cases ha1 : a1 = 1
    · subst ha1
      simp
    simp only [ha1, if_false]
    have hle : a1 ≤ b := by
      have : 0 < 2 ^ e := Nat.two_pow_pos e
      calc a1 = 1 * a1 := by ring
        _ ≤ 2 ^ e * a1 := Nat.mul_le_mul_right _ this
        _ = b := hab.symm
    rw [jacobiAux_eq fuel (n % a1) a1 (by omega) (by omega) ho]
    simp only
    have hmod2 : J(((n % a1 : Nat) : ℤ) | a1) = J((n : ℤ) | a1) := by
      rw [jacobiSym.mod_left (n : ℤ)]; push_cast; rfl
    rw [hmod2]
    have hrec : J((a1 : ℤ) | n) = (if n % 4 = 3 ∧ a1 % 4 = 3 then -1 else 1) * J((n : ℤ) | a1) := by
      by_cases h4 : n % 4 = 3 ∧ a1 % 4 = 3
      · rw [if_pos h4, jacobiSym.quadratic_reciprocity_three_mod_four h4.2 h4.1]; ring
      · rw [if_neg h4, one_mul]
        by_cases h1 : a1 % 4 = 1
        · exact jacobiSym.quadratic_reciprocity_one_mod_four h1 (Nat.odd_iff.2 hodd)
        · exact (jacobiSym.quadratic_reciprocity_one_mod_four (by omega) (Nat.odd_iff.2 ho)).symm
    rw [hrec]
    congr 1
    split <;> ring

/-- `jacobi` on valid arguments. -/
theorem jacobi_eq (a : Int) (n : Nat) (h3 : 3 ≤ n) (hodd : n % 2 = 1) :
    jacobi a n = .ok J(a | n) := by
  have hnn : 0 ≤ a % (n : Int) := Int.emod_nonneg _ (by omega)
  rw [jacobi, if_neg (by omega), Int.toNat_natCast, jacobiAux_eq n _ n le_rfl h3 hodd,
    Int.toNat_of_nonneg hnn, ← jacobiSym.mod_left]

theorem jacobi_small (a n : Int) (h : n < 3) : jacobi a n = .error .assertionError := by
  rw [jacobi, if_pos (by omega)]

theorem jacobi_even (a n : Int) (h : n % 2 = 0) : jacobi a n = .error .assertionError := by
  rw [jacobi]
  split
  · rfl
  · have : n.toNat ≠ 0 := by omega
    obtain ⟨k, hk⟩ := Nat.exists_eq_succ_of_ne_zero this
    rw [hk, jacobiAux, if_neg (by omega), if_pos (by omega)]

end NBC.NT
