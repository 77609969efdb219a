import Verif.Proofs.Curve

/-!
# `Point.__mul__` computes scalar multiples
-/

namespace NBC.EC
open NBC NT Spec WeierstrassCurve.Affine

theorem leftmostLoop_spec (x : Nat) : ∀ fuel k, 2 ^ k ≤ 2 * x → x < 2 ^ (k + fuel) →
    ∃ j, leftmostLoop x fuel (2 ^ k) = 2 ^ j ∧ 2 ^ j ≤ 2 * x ∧ x < 2 ^ j
  | 0, k, h1, h2 => ⟨k, rfl, h1, h2⟩
  | fuel + 1, k, h1, h2 => by
    unfold leftmostLoop
    split
    · rw [show 2 * 2 ^ k = 2 ^ (k + 1) by ring]
      exact leftmostLoop_spec x fuel (k + 1) (by rw [pow_succ]; omega)
        (by rw [show k + 1 + fuel = k + (fuel + 1) by omega]; exact h2)
    · exact ⟨k, rfl, h1, by omega⟩

/-- `leftmost_bit(x)` is the highest power of two not above `x`. -/
theorem leftmostBit_spec (x : Nat) (hx : 0 < x) :
    ∃ j, leftmostBit x = 2 ^ j ∧ 2 ^ j ≤ x ∧ x < 2 ^ (j + 1) := by
  obtain ⟨j, h1, h2, h3⟩ := leftmostLoop_spec x (x + 1) 0 (by omega)
    (by rw [zero_add]; exact lt_trans (Nat.lt_succ_self x) Nat.lt_two_pow_self)
  cases j with
  | zero => simp at h3; omega
  | succ j =>
    refine ⟨j, ?_, ?_, h3⟩
    · unfold leftmostBit
      rw [pow_zero] at h1
      rw [h1, pow_succ, Nat.mul_div_cancel _ (by norm_num)]
    · rw [pow_succ] at h2; omega

theorem and_two_pow_ne (x k : Nat) : x &&& 2 ^ k ≠ 0 ↔ x / 2 ^ k % 2 = 1 := by
  have hb : (x.testBit k) = decide (x / 2 ^ k % 2 = 1) := Nat.testBit_eq_decide_div_mod_eq
  constructor
  · intro h
    by_contra hc
    apply h
    apply Nat.eq_of_testBit_eq
    intro i
    rw [Nat.testBit_and, Nat.testBit_two_pow, Nat.zero_testBit]
    by_cases hi : k = i
    · subst hi; simp [hb, hc]
    · simp [hi]
  · intro h h0
    have : (x &&& 2 ^ k).testBit k = false := by rw [h0, Nat.zero_testBit]
    rw [Nat.testBit_and, Nat.testBit_two_pow, hb] at this
    simp [h] at this

/-- The running scalar of the `3e`/`e` method. -/
def pre (e j : Nat) : Int := ((3 * e / 2 ^ j : Nat) : Int) - ((e / 2 ^ j : Nat) : Int)

theorem div_step (x k : Nat) : x / 2 ^ k = 2 * (x / 2 ^ (k + 1)) + x / 2 ^ k % 2 := by
  rw [pow_succ, ← Nat.div_div_eq_div_mul]; omega

theorem pre_step (e k : Nat) :
    pre e k = 2 * pre e (k + 1) + ((3 * e / 2 ^ k % 2 : Nat) : Int) - ((e / 2 ^ k % 2 : Nat) : Int) := by
  have h1 := div_step (3 * e) k
  have h2 := div_step e k
  unfold pre
  omega

theorem pre_one (e : Nat) : pre e 1 = e := by unfold pre; omega

section group
variable {C : CurveFp} [Fact C.p.Prime]

theorem mulLoop_spec (hC : Good C) {P N : Pt} {Q : (W C).Point} (hP : Rep C P Q) (hN : Rep C N (-Q))
    (e : Nat) : ∀ k fuel R, k ≤ fuel → Rep C R (pre e (k + 1) • Q) →
    (∃ R', mulLoop C P N (3 * e) e fuel (2 ^ k) R = .ok R' ∧ Rep C R' ((e : Int) • Q) ∧
      ((∀ j, 2 ≤ j → j ≤ k + 1 → pre e j • Q ≠ 0) → Reduced C P → Reduced C R → Reduced C R')) ∨
    (mulLoop C P N (3 * e) e fuel (2 ^ k) R = .error .assertionError ∧
      ∃ m : Int, m • Q ≠ 0 ∧ m • Q + m • Q = 0)
  | 0, fuel, R, _, hR => by
    left
    refine ⟨R, ?_, by rwa [zero_add, pre_one] at hR, fun _ _ h => h⟩
    cases fuel <;> simp [mulLoop]
  | k + 1, 0, R, hf, _ => by omega
  | k + 1, fuel + 1, R, hf, hR => by
    have hi : 2 ^ (k + 1) > 1 := Nat.one_lt_two_pow (by omega)
    have hi2 : 2 ^ (k + 1) / 2 = 2 ^ k := by rw [pow_succ]; omega
    unfold mulLoop
    rw [if_pos hi, hi2]
    by_cases htor : pre e (k + 2) • Q = 0 ∨ pre e (k + 2) • Q + pre e (k + 2) • Q ≠ 0
    swap
    · push Not at htor
      right
      refine ⟨?_, _, htor⟩
      rw [(double_spec hC hR).2 htor.1 htor.2]; rfl
    obtain ⟨R1, h1, hr1, hred1, hinf1⟩ := (double_spec hC hR).1 htor
    simp only [h1, Bind.bind, Except.bind]
    have hstep := pre_step e (k + 1)
    rw [show k + 1 + 1 = k + 2 by rfl] at hstep
    have hdbl : pre e (k + 2) • Q + pre e (k + 2) • Q = (2 * pre e (k + 2)) • Q := by
      rw [two_mul, add_zsmul]
    rw [hdbl] at hr1
    have hb3 := and_two_pow_ne (3 * e) (k + 1)
    have hb1 := and_two_pow_ne e (k + 1)
    have m3 : 3 * e / 2 ^ (k + 1) % 2 = 0 ∨ 3 * e / 2 ^ (k + 1) % 2 = 1 := by omega
    have m1 : e / 2 ^ (k + 1) % 2 = 0 ∨ e / 2 ^ (k + 1) % 2 = 1 := by omega
    -- finishing step: given the new result, recurse
    have fin : ∀ R2, Rep C R2 (pre e (k + 1) • Q) →
        ((∀ j, 2 ≤ j → j ≤ k + 2 → pre e j • Q ≠ 0) → Reduced C P → Reduced C R2) →
        (∃ R', mulLoop C P N (3 * e) e fuel (2 ^ k) R2 = .ok R' ∧ Rep C R' ((e : Int) • Q) ∧
          ((∀ j, 2 ≤ j → j ≤ k + 1 + 1 → pre e j • Q ≠ 0) → Reduced C P → Reduced C R →
            Reduced C R')) ∨
        (mulLoop C P N (3 * e) e fuel (2 ^ k) R2 = .error .assertionError ∧
          ∃ m : Int, m • Q ≠ 0 ∧ m • Q + m • Q = 0) := by
      intro R2 hr2 hred2
      rcases mulLoop_spec hC hP hN e k fuel R2 (by omega) hr2 with ⟨R', a, b, c⟩ | h
      · left
        exact ⟨R', a, b, fun hj hp _ => c (fun j h1 h2 => hj j h1 (by omega)) hp (hred2 hj hp)⟩
      · exact Or.inr h
    rcases m3 with m3 | m3 <;> rcases m1 with m1 | m1
    · have c3 : ¬ (3 * e &&& 2 ^ (k + 1) ≠ 0) := fun h => by have := hb3.mp h; omega
      have c1 : ¬ (e &&& 2 ^ (k + 1) ≠ 0) := fun h => by have := hb1.mp h; omega
      rw [if_neg (fun h => c3 h.1)]; try simp only
      rw [if_neg (fun h => c1 h.2)]; try simp only
      apply fin
      · rw [hstep, m3, m1]; simpa using hr1
      · intro _ _; exact hred1
    · have c3 : ¬ (3 * e &&& 2 ^ (k + 1) ≠ 0) := fun h => by have := hb3.mp h; omega
      have c1 : (e &&& 2 ^ (k + 1) ≠ 0) := hb1.mpr m1
      rw [if_neg (fun h => c3 h.1)]; try simp only
      rw [if_pos ⟨not_not.mp c3, c1⟩]
      obtain ⟨R2, h2, hr2, -, hred2⟩ := add_spec hC hr1 hN
      simp only [h2]
      apply fin
      · rw [hstep, m3, m1, sub_zsmul, add_zsmul]
        simpa [sub_eq_add_neg] using hr2
      · intro hj hp
        have h0 := hj (k + 2) (by omega) (by omega)
        apply hred2
        · rw [← hdbl]; exact htor.resolve_left h0
        · intro hq; apply h0; rw [neg_eq_zero.mp hq, zsmul_zero]
    · have c3 : (3 * e &&& 2 ^ (k + 1) ≠ 0) := hb3.mpr m3
      have c1 : ¬ (e &&& 2 ^ (k + 1) ≠ 0) := fun h => by have := hb1.mp h; omega
      rw [if_pos ⟨c3, not_not.mp c1⟩]
      obtain ⟨R2, h2, hr2, -, hred2⟩ := add_spec hC hr1 hP
      simp only [h2]
      rw [if_neg (fun h => c1 h.2)]; try simp only
      apply fin
      · rw [hstep, m3, m1, sub_zsmul, add_zsmul]
        simpa using hr2
      · intro hj hp
        have h0 := hj (k + 2) (by omega) (by omega)
        apply hred2
        · rw [← hdbl]; exact htor.resolve_left h0
        · intro hq; apply h0; rw [hq, zsmul_zero]
    · have c3 : (3 * e &&& 2 ^ (k + 1) ≠ 0) := hb3.mpr m3
      have c1 : (e &&& 2 ^ (k + 1) ≠ 0) := hb1.mpr m1
      rw [if_neg (fun h => c1 h.2)]; try simp only
      rw [if_neg (fun h => c3 h.1)]; try simp only
      apply fin
      · rw [hstep, m3, m1]; simpa using hr1
      · intro _ _; exact hred1

theorem rep_neg {x y : Int} {o : Option Nat} {Q : (W C).Point} (h : Rep C (.aff x y o) Q) :
    Rep C (.aff x (-y) o) (-Q) := by
  obtain ⟨h0, h1, hns, rfl⟩ := h
  refine ⟨h0, h1, ?_, ?_⟩
  · have := (nonsingular_neg _ _).mpr hns
    rw [negY_eq] at this; push_cast; exact this
  · rw [Point.neg_some]
    simp only [negY_eq]; push_cast; rfl

omit [Fact C.p.Prime] in
theorem contains_of_rep {x y : Int} {o : Option Nat} {Q : (W C).Point} (h : Rep C (.aff x y o) Q) :
    C.containsPoint x y = true := by
  obtain ⟨-, -, hns, rfl⟩ := h
  rw [containsPoint_iff]; exact hns.1

omit [Fact C.p.Prime] in
theorem contains_neg {x y : Int} : C.containsPoint x (-y) = C.containsPoint x y := by
  simp [CurveFp.containsPoint]

omit [Fact C.p.Prime] in
/-- The order assertion of the constructor never fires: `order % order = 0`. -/
theorem mkPointWith_eq (depth : Nat) {x y : Int} (o : Option Nat) (h : C.containsPoint x y = true) :
    mkPointWith (mulD C (depth + 1)) C x y o = .ok (.aff x y o) := by
  unfold mkPointWith
  simp only [pyAssert, h, if_true, Bind.bind, Except.bind, Pure.pure, Except.pure]
  cases o with
  | none => rfl
  | some n =>
    simp only
    split
    · rfl
    · rename_i hn
      have : mulD C (depth + 1) (.aff x y (some n)) (n : Int) = .ok .inf := by
        simp [mulD, Pt.order, hn]
      rw [this]; rfl

omit [Fact C.p.Prime] in
theorem mkPoint_eq {x y : Int} (o : Option Nat) :
    mkPoint C x y o = if C.containsPoint x y then .ok (.aff x y o) else .error .assertionError := by
  split
  · rename_i h; exact mkPointWith_eq 0 o h
  · rename_i h
    simp [mkPoint, mkPointWith, pyAssert, h, Bind.bind, Except.bind]

/-- The scalar actually used. -/
def effScalar (P : Pt) (e : Int) : Int :=
  match P.order with
  | some n => if n = 0 then e else e % (n : Int)
  | none => e

theorem pre_pos (e : Nat) (J : Nat) (hJ : 2 ^ J ≤ 3 * e) (hJ2 : 3 * e < 2 ^ (J + 1)) :
    ∀ d, d ≤ J → 1 ≤ pre e (J - d)
  | 0, _ => by
    have h1 : 3 * e / 2 ^ J = 1 := by
      rw [Nat.div_eq_iff (by positivity)]; rw [pow_succ] at hJ2; omega
    have h2 : e / 2 ^ J = 0 := Nat.div_eq_of_lt (by rw [pow_succ] at hJ2; omega)
    simp [pre, h1, h2]
  | d + 1, h => by
    have ih := pre_pos e J hJ hJ2 d (by omega)
    have hs := pre_step e (J - (d + 1))
    rw [show J - (d + 1) + 1 = J - d by omega] at hs
    have : e / 2 ^ (J - (d + 1)) % 2 < 2 := Nat.mod_lt _ (by norm_num)
    omega

theorem pre_le (e j : Nat) (hj : 2 ≤ j) : 2 * pre e j < e + 2 := by
  have h4 : 4 ≤ 2 ^ j := by
    calc 4 = 2 ^ 2 := by norm_num
      _ ≤ 2 ^ j := Nat.pow_le_pow_right (by norm_num) hj
  unfold pre
  have h1 := Nat.div_mul_le_self (3 * e) (2 ^ j)
  have h2 := Nat.lt_div_mul_add (a := e) (show 0 < 2 ^ j by omega)
  set A := 3 * e / 2 ^ j
  set B := e / 2 ^ j
  set K := 2 ^ j
  have h3 : (A * K : Int) ≤ 3 * e := by exact_mod_cast h1
  have h5 : (e : Int) < B * K + K := by exact_mod_cast h2
  have h4' : (4 : Int) ≤ K := by exact_mod_cast h4
  by_contra hc
  push Not at hc
  have h6 : ((e : Int) + 2) * K ≤ (2 * ((A : Int) - B)) * K := by
    apply mul_le_mul_of_nonneg_right hc (by omega)
  have he : (0 : Int) ≤ e := by omega
  nlinarith

/-- `Point.__mul__`: the exact behaviour. -/
theorem mulD_spec (hC : Good C) (d : Nat) {P : Pt} {Q : (W C).Point} (hP : Rep C P Q) (e : Int) :
    (0 ≤ effScalar P e →
      (∃ R, mulD C (d + 2) P e = .ok R ∧ Rep C R (effScalar P e • Q) ∧
        (effScalar P e < addOrderOf Q → Reduced C P → Reduced C R)) ∨
      (mulD C (d + 2) P e = .error .assertionError ∧ ∃ m : Int, m • Q ≠ 0 ∧ m • Q + m • Q = 0)) ∧
    (effScalar P e < 0 → Q ≠ 0 → mulD C (d + 2) P e = .error .assertionError) := by
  have unf : mulD C (d + 2) P e = (if effScalar P e = 0 then .ok .inf
    else match P with
      | .inf => .ok .inf
      | .aff x y order => do
        pyAssert (decide (effScalar P e > 0))
        let negSelf ← mkPointWith (mulD C (d + 1)) C x (-y) order
        mulLoop C P negSelf (3 * (effScalar P e).toNat) (effScalar P e).toNat
          (leftmostBit (3 * (effScalar P e).toNat) / 2)
          (leftmostBit (3 * (effScalar P e).toNat) / 2) P) := by
    cases P <;> rfl
  rw [unf]
  constructor
  · intro h0
    split
    · rename_i hz
      left
      refine ⟨.inf, rfl, ?_, fun _ _ => trivial⟩
      show _ = (0 : (W C).Point)
      rw [hz, zero_zsmul]
    · rename_i hz
      cases P with
      | inf =>
        left
        have hq : Q = 0 := hP
        refine ⟨.inf, rfl, ?_, fun _ _ => trivial⟩
        show _ = (0 : (W C).Point)
        rw [hq, zsmul_zero]
      | aff x y o =>
        set f : Int := effScalar (.aff x y o) e with hf
        have hpos : 0 < f := lt_of_le_of_ne h0 (Ne.symm hz)
        have hc := contains_of_rep hP
        simp only
        rw [mkPointWith_eq d o (by rw [contains_neg]; exact hc)]
        simp only [pyAssert, gt_iff_lt, hpos, decide_true, if_true, Bind.bind, Except.bind]
        have hn0 : 0 < f.toNat := by omega
        obtain ⟨j, hj1, hj2, hj3⟩ := leftmostBit_spec (3 * f.toNat) (by omega)
        have hj0 : 1 ≤ j := by
          by_contra hlt
          have : j = 0 := by omega
          subst this; omega
        have hhalf : leftmostBit (3 * f.toNat) / 2 = 2 ^ (j - 1) := by
          rw [hj1]
          conv_lhs => rw [show j = j - 1 + 1 by omega, pow_succ]
          exact Nat.mul_div_cancel _ (by norm_num)
        rw [hhalf]
        have hstart : pre f.toNat (j - 1 + 1) = 1 := by
          rw [show j - 1 + 1 = j by omega]
          have h1 : 3 * f.toNat / 2 ^ j = 1 := by
            rw [Nat.div_eq_iff (by positivity)]; rw [pow_succ] at hj3; omega
          have h2 : f.toNat / 2 ^ j = 0 := Nat.div_eq_of_lt (by rw [pow_succ] at hj3; omega)
          simp [pre, h1, h2]
        have := mulLoop_spec hC hP (rep_neg hP) f.toNat (j - 1) (2 ^ (j - 1)) (.aff x y o)
          (le_of_lt Nat.lt_two_pow_self) (by rw [hstart, one_zsmul]; exact hP)
        have hcast : ((f.toNat : Nat) : Int) = f := Int.toNat_of_nonneg h0
        rw [hcast] at this
        rcases this with ⟨R, a, b, c⟩ | h
        · left
          refine ⟨R, a, b, fun hlt hred => c ?_ hred hred⟩
          intro i hi1 hi2 h00
          have hp1 := pre_pos f.toNat j hj2 hj3 (j - i) (by omega)
          rw [show j - (j - i) = i by omega] at hp1
          have hp2 := pre_le f.toNat i hi1
          have hdvd := addOrderOf_dvd_iff_zsmul_eq_zero.mpr h00
          have := Int.le_of_dvd (by omega) hdvd
          omega
        · exact Or.inr h
  · intro hlt hq
    have hz : effScalar P e ≠ 0 := by omega
    rw [if_neg hz]
    cases P with
    | inf => exact absurd hP hq
    | aff x y o =>
      have : ¬ (0 < effScalar (.aff x y o) e) := by omega
      simp [pyAssert, this, Bind.bind, Except.bind]

/-- Points of odd order have no multiple of order two. -/
theorem no_two_torsion {G : Type*} [AddCommGroup G] {Q : G} (h : Odd (addOrderOf Q)) :
    ¬ ∃ m : Int, m • Q ≠ 0 ∧ m • Q + m • Q = 0 := by
  rintro ⟨m, h1, h2⟩
  apply h1
  rw [← add_zsmul, ← two_mul] at h2
  rw [← addOrderOf_dvd_iff_zsmul_eq_zero] at h2 ⊢
  have hc : IsCoprime ((addOrderOf Q : Nat) : Int) 2 := by
    have := Nat.isCoprime_iff_coprime.mpr (Nat.coprime_two_right.mpr h)
    exact_mod_cast this
  exact hc.dvd_of_dvd_mul_left h2

/-- `Point.__mul__` on points of odd order. -/
theorem mul_ok (hC : Good C) {P : Pt} {Q : (W C).Point}
    (h : Rep C P Q) (hodd : Odd (addOrderOf Q)) (e : Int)
    (ho : P.order = none ∧ 0 ≤ e ∨ ∃ n : Nat, 0 < n ∧ P.order = some n ∧ n • Q = 0) :
    ∃ R, mul C P e = .ok R ∧ Rep C R (e • Q) ∧
      (0 ≤ e → e < addOrderOf Q → Reduced C P → Reduced C R) := by
  have hs := (mulD_spec hC 0 h e).1
  rcases ho with ⟨ho, he⟩ | ⟨n, hn, ho, hnq⟩
  · have heff : effScalar P e = e := by simp [effScalar, ho]
    rw [heff] at hs
    rcases hs he with ⟨R, a, b, c⟩ | ⟨-, ht⟩
    · exact ⟨R, a, b, fun _ => c⟩
    · exact absurd ht (no_two_torsion hodd)
  · have heff : effScalar P e = e % n := by
      have : n ≠ 0 := by omega
      simp [effScalar, ho, this]
    have hn' : (0 : Int) < n := by exact_mod_cast hn
    have hmod : (e % (n : Int)) • Q = e • Q := by
      conv_rhs => rw [← Int.emod_add_mul_ediv e n, add_zsmul, mul_comm, mul_zsmul,
        natCast_zsmul, hnq, zsmul_zero, add_zero]
    rw [heff, hmod] at hs
    rcases hs (Int.emod_nonneg _ hn'.ne') with ⟨R, a, b, c⟩ | ⟨-, ht⟩
    · refine ⟨R, a, b, fun h0 h1 h2 => c ?_ h2⟩
      have : (0 : Int) ≤ e / n := Int.ediv_nonneg h0 hn'.le
      have hle : e % (n : Int) ≤ e := by
        rw [Int.emod_def]; nlinarith
      exact lt_of_le_of_lt hle h1
    · exact absurd ht (no_two_torsion hodd)

end group
end NBC.EC
