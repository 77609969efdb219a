import Verif.Proofs.Secp256k1
import Verif.Props.Curve

/-!
# C20-C23: domain parameters and ECDSA
-/

namespace NBC.Props
open NBC EC Ecdsa Spec

/-- C20.  The constants of SECP256k1: both moduli are primes, the curve is non-singular, the
generator object is accepted by the constructor, lies on the curve, and its order is the declared
one; moreover the whole curve has exactly that many points. -/
theorem C20_secp256k1 :
    Nat.Prime secp256k1.curve.p ∧ Nat.Prime secp256k1.order ∧ Good secp256k1.curve ∧
    OnCurve secp256k1.curve secp256k1.gx secp256k1.gy ∧
    (∃ g : (W secp256k1.curve).Point, Rep secp256k1.curve secp256k1.generator g ∧
      addOrderOf g = secp256k1.order) ∧
    Nat.card (W secp256k1.curve).Point = secp256k1.order := by
  refine ⟨Secp.prime_p, Secp.prime_n, Secp.good, ?_, ⟨Secp.g, Secp.rep_g _, Secp.addOrderOf_g⟩, ?_⟩
  · exact (onCurve_iff _ _ _).mpr Secp.gen_contains
  · rw [Nat.card_eq_fintype_card]; exact Secp.card_eq

/-- C20.  Minimality, in terms of the code: multiplying the generator (with or without its order)
by a scalar in `[1, n-1]` never gives `INFINITY`. -/
theorem C20_generator_order (k : Int) (h1 : 1 ≤ k) (h2 : k < secp256k1.order) :
    (∃ R, mul secp256k1.curve secp256k1.generator k = .ok R ∧ R ≠ .inf) ∧
    (∃ R, mul secp256k1.curve (.aff secp256k1.gx secp256k1.gy none) k = .ok R ∧ R ≠ .inf) := by
  have hne : k • Secp.g ≠ 0 := by
    intro h0
    rw [← addOrderOf_dvd_iff_zsmul_eq_zero, Secp.addOrderOf_g] at h0
    exact not_dvd_of_range h1 h2 h0
  constructor
  · obtain ⟨R, a, b, -⟩ := Secp.genOk.mul k (by omega)
    exact ⟨R, a, fun h => hne (by subst h; exact b)⟩
  · obtain ⟨R, a, b, -⟩ := mul_ok Secp.good (Secp.rep_g none) (Secp.odd_order _) k
      (Or.inl ⟨rfl, by omega⟩)
    exact ⟨R, a, fun h => hne (by subst h; exact b)⟩

/-- C21.  A signature whose `r` is below the group order verifies, and one whose `r` is not is
rejected: `verifies` answers exactly whether `r < n`.  (Missing from the full claim: `sign` takes
`r` as the `x` coordinate itself, not reduced modulo `n`, so `r ≥ n` can happen when `n < p`.) -/
theorem C21_sign_verify_partial {C : CurveFp} [Fact C.p.Prime] {G P : Pt} {n : Nat}
    {g : (W C).Point} (hG : GenOk C G n g) {d : Int} (hP : KeyOk C n P (d • g))
    {hash k r s : Int} (hs : sign ⟨C, G, P⟩ d hash k = .ok (r, s)) :
    PublicKey.verifies ⟨C, G, P⟩ hash r s = .ok (decide (r < n)) :=
  (sign_verifies hG hP hs).2.2.2.2

/-- C21.  On a curve whose field is not larger than the group, the claim holds in full. -/
theorem C21_sign_verify_small_field_partial {C : CurveFp} [Fact C.p.Prime] {G P : Pt} {n : Nat}
    {g : (W C).Point} (hG : GenOk C G n g) (hpn : C.p ≤ n) {d : Int} (hP : KeyOk C n P (d • g))
    {hash k r s : Int} (hs : sign ⟨C, G, P⟩ d hash k = .ok (r, s)) :
    PublicKey.verifies ⟨C, G, P⟩ hash r s = .ok true := by
  obtain ⟨-, h, -, -, hv⟩ := sign_verifies hG hP hs
  rw [hv]
  have : r < n := lt_of_lt_of_le h (by exact_mod_cast hpn)
  simp [this]

/-- C21.  When `sign` returns: it fails only for `k ≡ 0 (mod n)`, or when `r` or `s` comes out as
zero; otherwise `(r, s)` is the textbook pair except that `r` is not reduced. -/
theorem C21_sign_total_partial {C : CurveFp} [Fact C.p.Prime] {G P : Pt} {n : Nat}
    {g : (W C).Point} (hG : GenOk C G n g) (d hash k : Int) :
    (k % (n : Int) = 0 → sign ⟨C, G, P⟩ d hash k = .error .assertionError) ∧
    (k % (n : Int) ≠ 0 → ∃ x y hxy kinv, k • g = .some x y hxy ∧ (k * kinv) % (n : Int) = 1 ∧
      let s := (kinv * (hash + d * (x.val : Int))) % (n : Int)
      sign ⟨C, G, P⟩ d hash k =
        if x = 0 ∨ s = 0 then .error .runtimeError else .ok ((x.val : Int), s)) :=
  sign_spec hG d hash k

/-- C21 is false on SECP256k1: there is a nonce whose point has `x = n + 2`, and the signature
that `sign` returns for it is rejected by `verifies`. -/
theorem C21_sign_verify_false :
    ¬ ∀ (d hash k r s : Int) (P : Pt), KeyOk secp256k1.curve secp256k1.order P (d • Secp.g) →
      sign ⟨secp256k1.curve, secp256k1.generator, P⟩ d hash k = .ok (r, s) →
      PublicKey.verifies ⟨secp256k1.curve, secp256k1.generator, P⟩ hash r s = .ok true := by
  intro hall
  have hc : Secp.K.containsPoint ((Secp.n + 2 : Nat) : Int)
      0x36b1aa62eb77c1973025cbcbea9740eed8eacdab8772268b395064453269d1d3 = true := by decide +kernel
  set Q : (W Secp.K).Point := .some _ _ (nonsingular_of_equation Secp.good ((containsPoint_iff _ _ _).mp hc))
    with hQ
  obtain ⟨k, hk, hQk⟩ := Secp.exists_smul Q
  have hkey : KeyOk secp256k1.curve secp256k1.order secp256k1.generator ((1 : Int) • Secp.g) := by
    rw [one_zsmul]; exact Secp.genOk.key
  have hQ0 : Q ≠ 0 := WeierstrassCurve.Affine.Point.some_ne_zero _
  have hk0 : (k : Int) % (Secp.n : Int) ≠ 0 := by
    intro h
    have : k = 0 := by
      have h1 : (k : Int) % (Secp.n : Int) = k := Int.emod_eq_of_lt (by omega) (by exact_mod_cast hk)
      omega
    subst this
    exact hQ0 (by rw [hQk, zero_nsmul])
  obtain ⟨x, y, hxy, kinv, h1, h2, h3⟩ :=
    (sign_spec (P := secp256k1.generator) Secp.genOk 1 0 (k : Int)).2 hk0
  rw [natCast_zsmul, ← hQk, hQ, WeierstrassCurve.Affine.Point.some.injEq] at h1
  have hxv : (x.val : Int) = ((Secp.n + 2 : Nat) : Int) := by
    rw [← h1.1]
    have : (((Secp.n + 2 : Nat) : Int) : ZMod Secp.K.p) = ((Secp.n + 2 : Nat) : ZMod Secp.K.p) := by
      push_cast; rfl
    rw [this, ZMod.val_natCast_of_lt (by decide)]
  have hx0 : x ≠ 0 := by
    rintro rfl
    rw [ZMod.val_zero] at hxv
    revert hxv; decide
  have hs0 : (kinv * (0 + 1 * (x.val : Int))) % (Secp.n : Int) ≠ 0 := by
    intro h0
    have hd := Int.dvd_of_emod_eq_zero h0
    rcases (Nat.prime_iff_prime_int.mp Secp.prime_n).dvd_mul.mp hd with h | h
    · obtain ⟨t, rfl⟩ := h
      rw [show (k : Int) * ((Secp.n : Int) * t) = (Secp.n : Int) * (k * t) by ring,
        Int.mul_emod_right] at h2
      omega
    · rw [hxv] at h
      revert h; decide
  simp only at h3
  rw [if_neg (by tauto)] at h3
  have hbad := hall 1 0 k _ _ _ hkey h3
  rw [C21_sign_verify_partial Secp.genOk hkey h3, hxv] at hbad
  revert hbad; decide

/-- C22.  Signatures out of range are rejected, for any key. -/
theorem C22_out_of_range (C : CurveFp) (G P : Pt) (n : Nat) (hG : G.order = some n)
    (hash r s : Int) (h : r < 1 ∨ (n : Int) - 1 < r ∨ s < 1 ∨ (n : Int) - 1 < s) :
    PublicKey.verifies ⟨C, G, P⟩ hash r s = .ok false := by
  simp only [PublicKey.verifies, hG]
  split
  · rfl
  · rw [if_pos (by omega)]

/-- C23.  `verifies` evaluates the ECDSA equation: with `w` the inverse of `s` modulo `n` and
`S = (hash*w) g + (r*w) q`, it answers whether `x(S) ≡ r (mod n)` and raises `TypeError` when
`S` is the point at infinity. -/
theorem C23_equation {C : CurveFp} [Fact C.p.Prime] {G P : Pt} {n : Nat} {g q : (W C).Point}
    (hG : GenOk C G n g) (hP : KeyOk C n P q) (hash r s : Int) :
    (¬ (1 ≤ r ∧ r < n ∧ 1 ≤ s ∧ s < n) → PublicKey.verifies ⟨C, G, P⟩ hash r s = .ok false) ∧
    (1 ≤ r ∧ r < n ∧ 1 ≤ s ∧ s < n → ∃ w : Int, (s * w) % (n : Int) = 1 ∧
      ((hash * w) • g + (r * w) • q = 0 →
        PublicKey.verifies ⟨C, G, P⟩ hash r s = .error .typeError) ∧
      (∀ x y hxy, (hash * w) • g + (r * w) • q = .some x y hxy →
        PublicKey.verifies ⟨C, G, P⟩ hash r s = .ok (decide ((x.val : Int) % (n : Int) = r)))) := by
  constructor
  · intro h
    exact C22_out_of_range C G P n hG.order hash r s (by omega)
  · intro h
    obtain ⟨w, -, -, -, hw⟩ := inverseMod_prime hG.prime s (not_dvd_of_range h.2.2.1 h.2.2.2)
    exact ⟨w, hw, verifies_spec hG hP hash r s w h hw⟩

/-! ### Concrete cases: the group of 7 points inside y^2 = x^3 + x + 1 mod 23 -/

theorem genOk7 {Q : (W c23).Point} (h : Rep c23 (.aff 13 7 none) Q) :
    GenOk c23 (.aff 13 7 (some 7)) 7 Q where
  good := good_c23
  rep := h
  order := rfl
  prime := by decide
  odd := by decide
  addOrder := c23_order7 h

/-- `(17,3)` is three times the generator. -/
theorem keyOk7 {Q : (W c23).Point} (h : Rep c23 (.aff 13 7 none) Q) :
    KeyOk c23 7 (.aff 17 3 none) ((3 : Int) • Q) where
  rep := C17_mul_sound good_c23 h rfl 3 (by decide +kernel)
  order := Or.inl rfl
  torsion := by
    have h7 := addOrderOf_nsmul_eq_zero Q
    rw [c23_order7 h] at h7
    rw [← natCast_zsmul, ← mul_zsmul', mul_comm, mul_zsmul', natCast_zsmul, h7, zsmul_zero]

/-- The hypotheses of C21 and C23 hold of this generator and key. -/
example : ∃ Q, GenOk c23 (.aff 13 7 (some 7)) 7 Q ∧ KeyOk c23 7 (.aff 17 3 none) ((3 : Int) • Q) := by
  obtain ⟨Q, hQ⟩ := rep_c23 none (x := 13) (y := 7) (by norm_num) (by norm_num) (by decide)
  exact ⟨Q, genOk7 hQ, keyOk7 hQ⟩

/-- A signature with `r = 5 < 7` verifies; one with `r = 17 ≥ 7` does not; another hash is refused;
and a triple for which the sum is `INFINITY` raises. -/
example :
    sign ⟨c23, .aff 13 7 (some 7), .aff 17 3 none⟩ 3 4 2 = .ok (5, 6) ∧
    PublicKey.verifies ⟨c23, .aff 13 7 (some 7), .aff 17 3 none⟩ 4 5 6 = .ok true ∧
    PublicKey.verifies ⟨c23, .aff 13 7 (some 7), .aff 17 3 none⟩ 5 5 6 = .ok false ∧
    sign ⟨c23, .aff 13 7 (some 7), .aff 17 3 none⟩ 3 4 3 = .ok (17, 2) ∧
    PublicKey.verifies ⟨c23, .aff 13 7 (some 7), .aff 17 3 none⟩ 4 17 2 = .ok false ∧
    PublicKey.verifies ⟨c23, .aff 13 7 (some 7), .aff 17 3 none⟩ 6 5 6 = .error .typeError := by
  decide +kernel

end NBC.Props
