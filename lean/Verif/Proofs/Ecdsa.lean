import Verif.Proofs.CurveMul
import Verif.Spec.Ecdsa
import Verif.Model.Ecdsa

/-!
# ECDSA over a generator of prime order
-/

namespace NBC.Ecdsa
open NBC NT EC Spec WeierstrassCurve.Affine

variable {C : CurveFp} [Fact C.p.Prime] {G P : Pt} {n : Nat} {g q : (W C).Point}

theorem _root_.NBC.Spec.GenOk.odd_order (h : GenOk C G n g) : Odd (addOrderOf g) := by
  rw [h.addOrder]; exact h.prime.odd_of_ne_two h.odd

theorem _root_.NBC.Spec.GenOk.pos (h : GenOk C G n g) : 0 < n := h.prime.pos

theorem _root_.NBC.Spec.GenOk.torsion (h : GenOk C G n g) : n • g = 0 := by
  rw [← h.addOrder]; exact addOrderOf_nsmul_eq_zero g

theorem _root_.NBC.Spec.GenOk.key (h : GenOk C G n g) : KeyOk C n G g := ⟨h.rep, Or.inr h.order, h.torsion⟩

theorem odd_addOrderOf (hn : n.Prime) (h2 : n ≠ 2) (h : n • q = 0) : Odd (addOrderOf q) := by
  have hd := addOrderOf_dvd_of_nsmul_eq_zero h
  exact Odd.of_dvd_nat (hn.odd_of_ne_two h2) hd

/-- Multiplication of a key point by a non-negative scalar. -/
theorem _root_.NBC.Spec.KeyOk.mul (h : KeyOk C n P q) (hC : Good C) (hn : n.Prime) (h2 : n ≠ 2) (e : Int)
    (he : 0 ≤ e) : ∃ R, EC.mul C P e = .ok R ∧ Rep C R (e • q) ∧
      (e < addOrderOf q → Reduced C P → Reduced C R) := by
  obtain ⟨R, h1, h2, h3⟩ := mul_ok hC h.rep (odd_addOrderOf hn h2 h.torsion) e (by
    rcases h.order with ho | ho
    · exact Or.inl ⟨ho, he⟩
    · exact Or.inr ⟨n, hn.pos, ho, h.torsion⟩)
  exact ⟨R, h1, h2, h3 he⟩

theorem _root_.NBC.Spec.GenOk.mul (h : GenOk C G n g) (e : Int) (he : 0 ≤ e) :
    ∃ R, EC.mul C G e = .ok R ∧ Rep C R (e • g) ∧
      (e < n → Reduced C G → Reduced C R) := by
  have := h.key.mul h.good h.prime h.odd e he
  rwa [h.addOrder] at this

theorem zsmul_emod (h : n • q = 0) (e : Int) : (e % (n : Int)) • q = e • q := by
  conv_rhs => rw [← Int.emod_add_mul_ediv e n, add_zsmul, mul_comm, mul_zsmul,
    natCast_zsmul, h, zsmul_zero, add_zero]

theorem zsmul_congr (h : n • q = 0) {a b : Int} (hab : a % (n : Int) = b % (n : Int)) :
    a • q = b • q := by
  rw [← zsmul_emod h a, ← zsmul_emod h b, hab]

theorem inverseMod_prime (hn : n.Prime) (s : Int) (hs : ¬ (n : Int) ∣ s) :
    ∃ c, inverseMod s n = .ok c ∧ 1 ≤ c ∧ c < n ∧ (s * c) % (n : Int) = 1 := by
  have h2 : (2 : Int) ≤ n := by exact_mod_cast hn.two_le
  apply (inverseMod_spec s n h2).1
  rw [Int.gcd_comm]
  apply (Int.isCoprime_iff_gcd_eq_one).mp
  rw [Prime.coprime_iff_not_dvd (Nat.prime_iff_prime_int.mp hn)]
  exact hs

theorem inverseMod_zero (hn : n.Prime) (s : Int) (hs : (n : Int) ∣ s) :
    inverseMod s n = .error .assertionError := by
  have h2 : (2 : Int) ≤ n := by exact_mod_cast hn.two_le
  apply (inverseMod_spec s n h2).2
  intro hg
  have : (n : Int) ∣ (Int.gcd s n : Int) := Int.dvd_coe_gcd hs dvd_rfl
  rw [hg] at this
  have := Int.le_of_dvd (by norm_num) this
  omega

theorem not_dvd_of_range {s : Int} (h1 : 1 ≤ s) (h2 : s < n) : ¬ (n : Int) ∣ s := by
  intro h
  have := Int.le_of_dvd (by omega) h
  omega

/-- A denoted affine point has the canonical `x`. -/
theorem rep_some {R : Pt} {x y : ZMod C.p} {h : (W C).Nonsingular x y}
    (hr : Rep C R (.some x y h)) : R.x = some (x.val : Int) := by
  cases R with
  | inf => exact absurd hr (Point.some_ne_zero _)
  | aff X Y o =>
    obtain ⟨h0, h1, hns, he⟩ := hr
    simp only [Point.some.injEq] at he
    have : ((x.val : Int) : ZMod C.p) = (X : ZMod C.p) := by
      rw [← he.1]; simp
    have hx := EC.cast_inj (C := C) (x := (x.val : Int)) (x' := X) (by omega)
      (by exact_mod_cast ZMod.val_lt x) h0 h1 this
    simp [Pt.x, hx]

theorem rep_zero {R : Pt} (hr : Rep C R 0) : R = .inf := by
  cases R with
  | inf => rfl
  | aff X Y o =>
    obtain ⟨-, -, hns, he⟩ := hr
    exact absurd he.symm (Point.some_ne_zero _)

theorem verifies_range (hG : G.order = some n) (hash r s : Int)
    (h : ¬ (1 ≤ r ∧ r < n ∧ 1 ≤ s ∧ s < n)) :
    PublicKey.verifies ⟨C, G, P⟩ hash r s = .ok false := by
  simp only [PublicKey.verifies, hG]
  split
  · rfl
  · rw [if_pos (by omega)]

theorem emod_one_unique (hn : n.Prime) {s c w : Int} (hc : (s * c) % (n : Int) = 1)
    (hw : (s * w) % (n : Int) = 1) : c % (n : Int) = w % (n : Int) := by
  have hd : (n : Int) ∣ s * (c - w) := by
    rw [mul_sub]; exact Int.dvd_of_emod_eq_zero (Int.emod_eq_emod_iff_emod_sub_eq_zero.mp (by rw [hc, hw]))
  rcases (Nat.prime_iff_prime_int.mp hn).dvd_mul.mp hd with h | h
  · exfalso
    obtain ⟨t, rfl⟩ := h
    rw [mul_assoc, Int.mul_emod_right] at hc
    omega
  · exact Int.emod_eq_emod_iff_emod_sub_eq_zero.mpr (Int.emod_eq_zero_of_dvd h)

theorem verifies_spec (hG : GenOk C G n g) (hP : KeyOk C n P q) (hash r s w : Int)
    (h : 1 ≤ r ∧ r < n ∧ 1 ≤ s ∧ s < n) (hw : (s * w) % (n : Int) = 1) :
    ((hash * w) • g + (r * w) • q = 0 →
      PublicKey.verifies ⟨C, G, P⟩ hash r s = .error .typeError) ∧
    (∀ x y hxy, (hash * w) • g + (r * w) • q = .some x y hxy →
      PublicKey.verifies ⟨C, G, P⟩ hash r s = .ok (decide ((x.val : Int) % (n : Int) = r))) := by
  obtain ⟨h1, h2, h3, h4⟩ := h
  obtain ⟨c, hc, hc1, hc2, hc3⟩ := inverseMod_prime hG.prime s (not_dvd_of_range h3 h4)
  have hn0 : (n : Int) ≠ 0 := by have := hG.pos; omega
  have hcw := emod_one_unique hG.prime hc3 hw
  have e1 : ((hash * c) % (n : Int)) • g = (hash * w) • g := by
    rw [zsmul_emod hG.torsion]
    apply zsmul_congr hG.torsion
    rw [Int.mul_emod, hcw, ← Int.mul_emod]
  have e2 : ((r * c) % (n : Int)) • q = (r * w) • q := by
    rw [zsmul_emod hP.torsion]
    apply zsmul_congr hP.torsion
    rw [Int.mul_emod, hcw, ← Int.mul_emod]
  obtain ⟨R1, m1, r1, -⟩ := hG.mul ((hash * c) % (n : Int)) (Int.emod_nonneg _ hn0)
  obtain ⟨R2, m2, r2, -⟩ := hP.mul hG.good hG.prime hG.odd ((r * c) % (n : Int)) (Int.emod_nonneg _ hn0)
  rw [e1] at r1; rw [e2] at r2
  obtain ⟨R, ha, hr, -⟩ := add_spec hG.good r1 r2
  have unf : PublicKey.verifies ⟨C, G, P⟩ hash r s = (match R.x with
      | none => .error .typeError
      | some x => .ok (x % (n : Int) == r)) := by
    simp only [PublicKey.verifies, hG.order]
    rw [if_neg (by omega), if_neg (by omega)]
    simp only [hc, m1, m2, ha, Bind.bind, Except.bind, Pure.pure, Except.pure]
    cases R.x <;> rfl
  rw [unf]
  constructor
  · intro h0
    rw [h0] at hr
    rw [rep_zero hr]; rfl
  · intro x y hxy he
    rw [he] at hr
    rw [rep_some hr]
    simp only
    congr 1

/-- What `sign` computes. -/
theorem sign_spec (hG : GenOk C G n g) (d hash k : Int) :
    (k % (n : Int) = 0 → sign ⟨C, G, P⟩ d hash k = .error .assertionError) ∧
    (k % (n : Int) ≠ 0 → ∃ x y hxy kinv, k • g = .some x y hxy ∧ (k * kinv) % (n : Int) = 1 ∧
      let s := (kinv * (hash + d * (x.val : Int))) % (n : Int)
      sign ⟨C, G, P⟩ d hash k =
        if x = 0 ∨ s = 0 then .error .runtimeError else .ok ((x.val : Int), s)) := by
  have hn0 : (n : Int) ≠ 0 := by have := hG.pos; omega
  have hnpos : (0 : Int) < n := by have := hG.pos; omega
  obtain ⟨R, hm, hr, -⟩ := hG.mul (k % (n : Int)) (Int.emod_nonneg _ hn0)
  constructor
  · intro hk
    rw [hk, zero_zsmul] at hr
    rw [hk] at hm
    have : R = .inf := rep_zero hr
    subst this
    have hi := inverseMod_zero (n := n) hG.prime 0 (dvd_zero _)
    simp only [sign, hG.order, hk, hm, Bind.bind, Except.bind, Pt.x, hi]
  · intro hk
    have hkg : k • g ≠ 0 := by
      intro h0
      apply hk
      rw [← addOrderOf_dvd_iff_zsmul_eq_zero, hG.addOrder] at h0
      exact Int.emod_eq_zero_of_dvd h0
    have hkd : ¬ (n : Int) ∣ k % (n : Int) := by
      apply not_dvd_of_range
      · have := Int.emod_nonneg k hn0; omega
      · exact Int.emod_lt_of_pos _ hnpos
    obtain ⟨kinv, hi, -, -, hki⟩ := inverseMod_prime hG.prime _ hkd
    rw [zsmul_emod hG.torsion] at hr
    cases hkg' : k • g with
    | zero => exact absurd hkg' hkg
    | some x y hxy =>
      rw [hkg'] at hr
      refine ⟨x, y, hxy, kinv, rfl, ?_, ?_⟩
      · rw [Int.mul_emod, Int.emod_emod_of_dvd _ dvd_rfl, ← Int.mul_emod] at hki
        exact hki
      · simp only [sign, hG.order, hm, hi, Bind.bind, Except.bind, rep_some hr, Pure.pure, Except.pure]
        have hx0 : ((x.val : Int) = 0) ↔ x = 0 := by
          rw [Int.natCast_eq_zero, ZMod.val_eq_zero]
        have hs : (kinv * (hash + d * (x.val : Int) % (n : Int))) % (n : Int)
            = (kinv * (hash + d * (x.val : Int))) % (n : Int) := by
          rw [Int.mul_emod, Int.add_emod, Int.emod_emod_of_dvd _ dvd_rfl, ← Int.add_emod, ← Int.mul_emod]
        rw [hs]
        by_cases h0 : x = 0
        · rw [if_pos (hx0.mpr h0), if_pos (Or.inl h0)]
        · rw [if_neg (fun h => h0 (hx0.mp h))]
          by_cases hs0 : (kinv * (hash + d * (x.val : Int))) % (n : Int) = 0
          · rw [if_pos hs0, if_pos (Or.inr hs0)]
          · rw [if_neg hs0, if_neg (by tauto)]

theorem sign_verifies (hG : GenOk C G n g) {d : Int} (hP : KeyOk C n P (d • g))
    {hash k r s : Int} (hs : sign ⟨C, G, P⟩ d hash k = .ok (r, s)) :
    1 ≤ r ∧ r < C.p ∧ 1 ≤ s ∧ s < n ∧
    PublicKey.verifies ⟨C, G, P⟩ hash r s = .ok (decide (r < n)) := by
  have hn0 : (n : Int) ≠ 0 := by have := hG.pos; omega
  have hnpos : (0 : Int) < n := by have := hG.pos; omega
  have hn2 : (2 : Int) ≤ n := by exact_mod_cast hG.prime.two_le
  by_cases hk : k % (n : Int) = 0
  · rw [(sign_spec hG d hash k).1 hk] at hs; cases hs
  obtain ⟨x, y, hxy, kinv, hkg, hkinv, heq⟩ := (sign_spec (P := P) hG d hash k).2 hk
  simp only at heq
  rw [heq] at hs
  split at hs
  · cases hs
  rename_i hne
  injection hs with hs
  injection hs with hr hs
  push Not at hne
  have hr0 : r ≠ 0 := by
    rw [← hr, Ne, Int.natCast_eq_zero, ZMod.val_eq_zero]; exact hne.1
  have hr1 : 1 ≤ r := by
    have : 0 ≤ r := by rw [← hr]; omega
    omega
  have hrp : r < C.p := by rw [← hr]; exact_mod_cast ZMod.val_lt x
  have hs1 : 1 ≤ s := by
    have : 0 ≤ s := by rw [← hs]; exact Int.emod_nonneg _ hn0
    have : s ≠ 0 := by rw [← hs]; exact hne.2
    omega
  have hsn : s < n := by rw [← hs]; exact Int.emod_lt_of_pos _ hnpos
  refine ⟨hr1, hrp, hs1, hsn, ?_⟩
  by_cases hrn : r < n
  swap
  · rw [verifies_range hG.order _ _ _ (by omega)]; simp [hrn]
  obtain ⟨w, -, -, -, hw⟩ := inverseMod_prime hG.prime s (not_dvd_of_range hs1 hsn)
  -- the scalar identity in ZMod n
  have hscal : (hash * w + r * w * d) % (n : Int) = k % (n : Int) := by
    have z1 : ((k * kinv : Int) : ZMod n) = 1 := by
      have : ((k * kinv : Int) : ZMod n) = ((1 : Int) : ZMod n) := by
        rw [ZMod.intCast_eq_intCast_iff', hkinv, Int.emod_eq_of_lt (by norm_num) (by omega)]
      simpa using this
    have z2 : ((s * w : Int) : ZMod n) = 1 := by
      have : ((s * w : Int) : ZMod n) = ((1 : Int) : ZMod n) := by
        rw [ZMod.intCast_eq_intCast_iff', hw, Int.emod_eq_of_lt (by norm_num) (by omega)]
      simpa using this
    have z3 : (s : ZMod n) = (kinv * (hash + d * r) : Int) := by
      rw [← hs, ← hr, ZMod.intCast_eq_intCast_iff']
      exact Int.emod_emod_of_dvd _ dvd_rfl
    rw [← ZMod.intCast_eq_intCast_iff']
    push_cast at z1 z2 z3 ⊢
    have e : (hash : ZMod n) * w + r * w * d
        = (k * kinv) * ((hash : ZMod n) + d * r) * w + (1 - k * kinv) * (hash + d * r) * w := by ring
    rw [e, z1, sub_self, zero_mul, zero_mul, add_zero, one_mul]
    calc ((hash : ZMod n) + d * r) * w = (k * kinv) * ((hash : ZMod n) + d * r) * w := by rw [z1, one_mul]
      _ = k * (kinv * (hash + d * r)) * w := by ring
      _ = k * s * w := by rw [← z3]
      _ = k * (s * w) := by ring
      _ = k := by rw [z2, mul_one]
  have hS : (hash * w) • g + (r * w) • (d • g) = .some x y hxy := by
    rw [← mul_zsmul', mul_comm d (r * w), ← add_zsmul, zsmul_congr hG.torsion hscal, hkg]
  rw [(verifies_spec hG hP hash r s w ⟨hr1, hrn, hs1, hsn⟩ hw).2 x y hxy hS, hr,
    Int.emod_eq_of_lt (by omega) hrn]
  simp [hrn]

end NBC.Ecdsa
