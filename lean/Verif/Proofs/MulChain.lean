import Verif.Model.Ecdsa
import Verif.Proofs.PyBind

/-!
# Evaluating `Point.__mul__` in pieces

The order of each generator is checked by running the code's own multiplication.  The loop is cut
into short runs so that no single kernel computation is large.
-/

namespace NBC.EC
open NBC

theorem mulLoop_small (C : CurveFp) (P N : Pt) (e3 e f i : Nat) (r : Pt) (h : i ≤ 1) :
    mulLoop C P N e3 e f i r = .ok r := by
  cases f with
  | zero => rfl
  | succ f => rw [mulLoop, if_neg (by omega)]

theorem mulLoop_run {C : CurveFp} {P N : Pt} {e3 e : Nat} (k m : Nat) : ∀ {i : Nat} {r r' : Pt},
    mulLoop C P N e3 e k i r = .ok r' →
    mulLoop C P N e3 e (k + m) i r = mulLoop C P N e3 e m (i / 2 ^ k) r' := by
  induction k with
  | zero =>
    intro i r r' h
    simp only [mulLoop, Except.ok.injEq] at h
    subst h
    simp
  | succ k ih =>
    intro i r r' h
    rw [show k + 1 + m = (k + m) + 1 by omega]
    by_cases hi : i > 1
    · rw [mulLoop, if_pos hi] at h ⊢
      obtain ⟨r1, h1, h⟩ := bind_ok_iff.1 h
      rw [h1, ok_bind]
      by_cases hA : e3 &&& i ≠ 0 ∧ e &&& i = 0 <;> by_cases hB : e3 &&& i = 0 ∧ e &&& i ≠ 0
      · exact absurd hB.1 hA.1
      · simp only [if_pos hA, if_neg hB] at h ⊢
        obtain ⟨r2, h2, h⟩ := bind_ok_iff.1 h
        rw [h2, ok_bind]
        exact (ih h).trans (by rw [Nat.div_div_eq_div_mul, Nat.pow_succ, Nat.mul_comm 2])
      · simp only [if_neg hA, if_pos hB] at h ⊢
        obtain ⟨r2, h2, h⟩ := bind_ok_iff.1 h
        simp only [Except.ok.injEq] at h2
        subst h2
        obtain ⟨r3, h3, h⟩ := bind_ok_iff.1 h
        rw [ok_bind, h3, ok_bind]
        exact (ih h).trans (by rw [Nat.div_div_eq_div_mul, Nat.pow_succ, Nat.mul_comm 2])
      · simp only [if_neg hA, if_neg hB, ok_bind] at h ⊢
        exact (ih h).trans (by rw [Nat.div_div_eq_div_mul, Nat.pow_succ, Nat.mul_comm 2])
    · rw [mulLoop_small _ _ _ _ _ _ _ _ (by omega)] at h ⊢
      injection h with h
      subst h
      rw [mulLoop_small]
      exact Nat.le_trans (Nat.div_le_self _ _) (by omega)

theorem mulLoop_cut {C : CurveFp} {P N : Pt} {e3 e : Nat} (k m : Nat) {f i j : Nat} {r r' : Pt}
    (h : mulLoop C P N e3 e k i r = .ok r') (hf : f = k + m) (hj : i / 2 ^ k = j) :
    mulLoop C P N e3 e f i r = mulLoop C P N e3 e m j r' := by
  rw [hf, mulLoop_run k m h, hj]

theorem mul_start {C : CurveFp} {x y : Int} {e i : Nat} (he : 0 < e)
    (hc : C.containsPoint x (-y) = true) (hi : leftmostBit (3 * e) / 2 = i) :
    EC.mul C (.aff x y none) (e : Int) =
      mulLoop C (.aff x y none) (.aff x (-y) none) (3 * e) e i i (.aff x y none) := by
  show (if (e : Int) = 0 then .ok .inf else (do
    pyAssert (decide ((e : Int) > 0))
    let negSelf ← mkPointWith (mulD C 1) C x (-y) none
    mulLoop C (.aff x y none) negSelf (3 * (e : Int).toNat) (e : Int).toNat
      (leftmostBit (3 * (e : Int).toNat) / 2) (leftmostBit (3 * (e : Int).toNat) / 2)
      (.aff x y none))) = _
  rw [if_neg (by omega), show decide ((e : Int) > 0) = true by simpa using he, Int.toNat_natCast, hi]
  simp only [mkPointWith, hc]
  rfl

end NBC.EC
