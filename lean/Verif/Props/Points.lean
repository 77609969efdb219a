import Verif.Proofs.CofactorCerts
import Verif.Props.Sign

/-!
# Property C132: every point of a curve of the table belongs to exactly one private key
-/

namespace NBC.Props
open NBC NT EC Ecdsa Spec Key Der

/-- The group of each curve: it has as many points as the declared order says. -/
theorem points_of_mem {c : Curve} (hc : c ∈ curves) [Fact c.curve.p.Prime] :
    ∃ g, GenOk c.curve c.generator c.order g ∧ Finite (W c.curve).Point ∧ Nat.card (W c.curve).Point = c.order ∧
      ∀ Q : (W c.curve).Point, c.order • Q = 0 ∧ ∃ k : Nat, k < c.order ∧ Q = k • g := by
  have hok := curveOk_of_mem hc
  obtain ⟨g, hg⟩ := hok.genOk (prime_order_of_mem hc)
  obtain ⟨hf, hcard⟩ := card_points hok.good hg.addOrder (small_of_mem hc).2 (no_y_zero_of_mem hc)
  exact ⟨g, hg, hf, hcard, fun Q => exists_multiple hg.addOrder hok.order_pos hf hcard Q⟩

section
variable {c : Curve} [Fact c.curve.p.Prime]

/-- The point with given coordinates. -/
theorem rep_of_on (hok : CurveOk c) {x y : Nat} (hx : x < c.curve.p) (h : OnCurve c.curve x y) :
    ∃ Q : (W c.curve).Point, Q ≠ 0 ∧ ∀ o, Rep c.curve (.aff x y o) Q :=
  ⟨.some _ _ (nonsingular_of_equation hok.good ((containsPoint_iff c.curve _ _).mp ((onCurve_iff _ _ _).1 h))),
    WeierstrassCurve.Affine.Point.some_ne_zero _, fun _ => ⟨by omega, by exact_mod_cast hx, _, rfl⟩⟩

omit [Fact c.curve.p.Prime] in
/-- Two reduced coordinate pairs of one group element are equal. -/
theorem rep_coords {x y x' y' : Int} {o o' : Option Nat} {Q : (W c.curve).Point} (h : Rep c.curve (.aff x y o) Q)
    (h' : Rep c.curve (.aff x' y' o') Q) (hy : 0 ≤ y ∧ y < c.curve.p) (hy' : 0 ≤ y' ∧ y' < c.curve.p) :
    x = x' ∧ y = y' := by
  obtain ⟨h1, h2, h3, rfl⟩ := h
  obtain ⟨h1', h2', h3', he⟩ := h'
  rw [WeierstrassCurve.Affine.Point.some.injEq] at he
  have e1 := (ZMod.intCast_eq_intCast_iff' _ _ _).1 he.1
  have e2 := (ZMod.intCast_eq_intCast_iff' _ _ _).1 he.2
  rw [Int.emod_eq_of_lt h1 h2, Int.emod_eq_of_lt h1' h2'] at e1
  rw [Int.emod_eq_of_lt hy.1 hy.2, Int.emod_eq_of_lt hy'.1 hy'.2] at e2
  exact ⟨e1, e2⟩

/-- The point object for a secret exponent. -/
theorem gen_mul_curve (hok : CurveOk c) {g : (W c.curve).Point} (hg : GenOk c.curve c.generator c.order g) {d : Nat}
    (h1 : 1 ≤ d) (h2 : d < c.order) :
    ∃ (x y : Nat) (o : Option Nat), (o = none ∨ o = some c.order) ∧ x < c.curve.p ∧ y < c.curve.p ∧
      Rep c.curve (.aff x y o) (d • g) ∧ mul c.curve c.generator d = .ok (.aff x y o) := by
  obtain ⟨R, hm, hr, hred⟩ := hg.mul (d : Int) (by omega)
  have ho := mul_order hm
  rw [natCast_zsmul] at hr
  cases R with
  | inf =>
    have hz : d • g = 0 := hr
    have := addOrderOf_dvd_of_nsmul_eq_zero hz
    rw [hg.addOrder] at this
    exact absurd (Nat.le_of_dvd (by omega) this) (by omega)
  | aff x y o =>
    obtain ⟨hy0, hyp⟩ := hred (by exact_mod_cast h2) hok.gy_range
    have hr' := hr
    obtain ⟨hx0, hxp, -⟩ := hr
    obtain ⟨x, rfl⟩ := Int.eq_ofNat_of_zero_le hx0
    obtain ⟨y, rfl⟩ := Int.eq_ofNat_of_zero_le hy0
    exact ⟨x, y, o, ho, by exact_mod_cast hxp, by exact_mod_cast hyp, hr', hm⟩

end

/-- C132.  On each of the six curves: the number of points, counting infinity, is the declared order; every point
other than infinity is `d` times the generator for exactly one `d` in `[1, n-1]`; and `point_is_valid` accepts exactly
the coordinates below `n` that satisfy the equation — its test of the order never rejects anything. -/
theorem C132_points (c : Curve) (hc : c ∈ curves) :
    Nat.card (W c.curve).Point = c.order ∧
    (∀ x y : Nat, x < c.curve.p → y < c.curve.p → OnCurve c.curve x y →
      ∃! d : Nat, (1 ≤ d ∧ d < c.order) ∧ ∃ o, mul c.curve c.generator d = .ok (.aff x y o)) ∧
    (∀ x y : Int, ∃ b, pointIsValid c.curve c.order x y = .ok b ∧
      (b = true ↔ (0 ≤ x ∧ x < c.order) ∧ (0 ≤ y ∧ y < c.order) ∧ OnCurve c.curve x y)) := by
  have hok := curveOk_of_mem hc
  have : Fact c.curve.p.Prime := ⟨hok.prime_p⟩
  obtain ⟨g, hg, -, hcard, hall⟩ := points_of_mem hc
  refine ⟨hcard, fun x y hx hy hon => ?_, fun x y => ?_⟩
  · obtain ⟨Q, hQ0, hQ⟩ := rep_of_on hok hx hon
    obtain ⟨-, d, hd, rfl⟩ := hall Q
    have hd1 : 1 ≤ d := by
      rcases Nat.eq_zero_or_pos d with rfl | h
      · exact absurd (zero_nsmul g) hQ0
      · exact h
    obtain ⟨x', y', o, -, hx', hy', hr, hm⟩ := gen_mul_curve hok hg hd1 hd
    obtain ⟨ex, ey⟩ := rep_coords (hQ none) hr (by omega) (by omega)
    refine ⟨d, ⟨⟨hd1, hd⟩, o, by rw [hm, ex, ey]⟩, ?_⟩
    rintro e ⟨⟨he1, he⟩, o', hm'⟩
    obtain ⟨x2, y2, o2, -, -, -, hr2, hm2⟩ := gen_mul_curve hok hg he1 he
    rw [hm2] at hm'
    cases hm'
    have : d • g = e • g := rep_unique (hQ o') hr2
    have hmod := (nsmul_eq_nsmul_iff_modEq).1 this
    rw [hg.addOrder] at hmod
    exact (Nat.ModEq.eq_of_lt_of_lt hmod hd he).symm
  · by_cases h : 0 ≤ x ∧ x < c.order ∧ 0 ≤ y ∧ y < c.order ∧ OnCurve c.curve x y
    · obtain ⟨h1, h2, h3, h4, h5⟩ := h
      have hcp := (onCurve_iff _ _ _).1 h5
      obtain ⟨x, rfl⟩ := Int.eq_ofNat_of_zero_le h1
      obtain ⟨y, rfl⟩ := Int.eq_ofNat_of_zero_le h3
      obtain ⟨hp1, hp2, hnp⟩ := pOrder_of_mem hc
      obtain ⟨Q, hQ0, hQ⟩ := rep_of_on hok (x := x) (by omega) h5
      obtain ⟨ht, -⟩ := hall Q
      obtain ⟨R, a', b', -⟩ := mul_ok hok.good (hQ none) (hok.odd_of_torsion ht) (c.order : Int)
        (Or.inl ⟨rfl, by omega⟩)
      rw [natCast_zsmul, ht] at b'
      have hR := rep_zero b'
      subst hR
      exact ⟨true, (pointIsValid_unfold c.curve c.order x y).2 ⟨h1, h2, h3, h4, hcp⟩ a',
        iff_of_true rfl ⟨⟨h1, h2⟩, ⟨h3, h4⟩, h5⟩⟩
    · refine ⟨false, (pointIsValid_unfold c.curve c.order x y).1 ?_, ?_⟩
      · rintro ⟨h1, h2, h3, h4, h5⟩
        exact h ⟨h1, h2, h3, h4, (onCurve_iff _ _ _).2 h5⟩
      · constructor
        · intro h'; cases h'
        · rintro ⟨⟨h1, h2⟩, ⟨h3, h4⟩, h5⟩
          exact absurd ⟨h1, h2, h3, h4, h5⟩ h

/-- C132.  `VerifyingKey.from_string` accepts exactly the strings of two coordinates below `n` of a point of the
curve, and every accepted string is the public key of exactly one private key. -/
theorem C132_keys (c : Curve) (hc : c ∈ curves) (s : Bytes) :
    ((∃ vk, VerifyingKey.fromString s c = .ok vk) ↔ s.length = 2 * c.baselen ∧
      bytesVal (s.take c.baselen) < c.order ∧ bytesVal (s.drop c.baselen) < c.order ∧
      OnCurve c.curve (bytesVal (s.take c.baselen)) (bytesVal (s.drop c.baselen))) ∧
    ((∃ vk, VerifyingKey.fromString s c = .ok vk) →
      ∃! d : Int, ∃ sk, SigningKey.fromSecretExponent d c = .ok sk ∧ sk.verifyingKey.toStr = .ok s) := by
  have hok := curveOk_of_mem hc
  have : Fact c.curve.p.Prime := ⟨hok.prime_p⟩
  have hn0 : c.order ≠ 0 := hok.order_pos.ne'
  obtain ⟨-, huniq, hval⟩ := C132_points c hc
  obtain ⟨hp1, hp2, hnp⟩ := pOrder_of_mem hc
  have hiff : (∃ vk, VerifyingKey.fromString s c = .ok vk) ↔ s.length = 2 * c.baselen ∧
      bytesVal (s.take c.baselen) < c.order ∧ bytesVal (s.drop c.baselen) < c.order ∧
      OnCurve c.curve (bytesVal (s.take c.baselen)) (bytesVal (s.drop c.baselen)) := by
    by_cases hl : s.length = 2 * c.baselen
    · have hs : s = beBytes c.baselen (bytesVal (s.take c.baselen)) ++ beBytes c.baselen (bytesVal (s.drop c.baselen)) := by
        rw [beBytes_bytesVal' (by rw [List.length_take]; omega),
          beBytes_bytesVal' (by rw [List.length_drop]; omega), List.take_append_drop]
      obtain ⟨b, hb, hiff⟩ := hval (bytesVal (s.take c.baselen)) (bytesVal (s.drop c.baselen))
      have hx : bytesVal (s.take c.baselen) < 256 ^ c.baselen := by
        have := bytesVal_lt (s.take c.baselen)
        rwa [List.length_take, Nat.min_eq_left (by omega)] at this
      have hy : bytesVal (s.drop c.baselen) < 256 ^ c.baselen := by
        have := bytesVal_lt (s.drop c.baselen)
        rwa [List.length_drop, hl, show 2 * c.baselen - c.baselen = c.baselen by omega] at this
      cases b
      · have hno := fromString_invalid c hx hy hb
        rw [← hs] at hno
        rw [hno]
        constructor
        · rintro ⟨_, h⟩; cases h
        · rintro ⟨-, h1, h2, h3⟩
          have := hiff.2 ⟨⟨by omega, by exact_mod_cast h1⟩, ⟨by omega, by exact_mod_cast h2⟩, h3⟩
          cases this
      · obtain ⟨h1, h2, h3⟩ := hiff.1 rfl
        have hx' : bytesVal (s.take c.baselen) < c.order := by exact_mod_cast h1.2
        have hy' : bytesVal (s.drop c.baselen) < c.order := by exact_mod_cast h2.2
        have hyes := fromString_ok c hn0 hx' hy' hb ((onCurve_iff _ _ _).1 h3)
        rw [← hs] at hyes
        exact iff_of_true ⟨_, hyes⟩ ⟨hl, hx', hy', h3⟩
    · constructor
      · rintro ⟨vk, h⟩
        unfold VerifyingKey.fromString at h
        obtain ⟨_, h, -⟩ := bind_ok_iff.1 h
        rw [pyAssert_ok_iff] at h
        exact absurd (by simpa using h) hl
      · exact fun h => absurd h.1 hl
  refine ⟨hiff, fun h => ?_⟩
  obtain ⟨hl, hx, hy, hon⟩ := hiff.1 h
  have hs : beBytes c.baselen (bytesVal (s.take c.baselen)) ++ beBytes c.baselen (bytesVal (s.drop c.baselen)) = s := by
    rw [beBytes_bytesVal' (by rw [List.length_take]; omega),
      beBytes_bytesVal' (by rw [List.length_drop]; omega), List.take_append_drop]
  generalize hX : bytesVal (s.take c.baselen) = X at *
  generalize hY : bytesVal (s.drop c.baselen) = Y at *
  obtain ⟨d, ⟨⟨hd1, hd2⟩, o, hm⟩, hu⟩ := huniq X Y (by omega) (by omega) hon
  obtain ⟨g, hg, -, -, hall⟩ := points_of_mem hc
  obtain ⟨x', y', o', ho', -, -, hr, hm'⟩ := gen_mul_curve hok hg hd1 hd2
  rw [hm] at hm'
  simp only [Except.ok.injEq, Pt.aff.injEq] at hm'
  obtain ⟨e1, e2, rfl⟩ := hm'
  have hmi : mul c.curve (.aff X Y o) c.order = .ok .inf := by
    rcases ho' with rfl | rfl
    · rw [e1, e2]
      obtain ⟨ht, -⟩ := hall (d • g)
      obtain ⟨R, a', b', -⟩ := mul_ok hok.good hr (hok.odd_of_torsion ht) (c.order : Int) (Or.inl ⟨rfl, by omega⟩)
      rw [natCast_zsmul, ht] at b'
      have hR := rep_zero b'
      subst hR
      exact a'
    · exact mul_self_order hn0
  refine ⟨(d : Int), ⟨_, fromSecretExponent_ok c hn0 (by omega) (by omega) hm ⟨by omega, by omega⟩ ⟨by omega, by omega⟩ hmi, ?_⟩, ?_⟩
  · rw [toStr_eq (x := X) (y := Y) (o := o) rfl hx hy]
    exact congrArg _ hs
  · rintro e ⟨sk, he, hse⟩
    obtain ⟨he1, he2, x, y, oe, hme, hxe, hye, -, rfl⟩ := fromSecretExponent_sound he
    obtain ⟨e, rfl⟩ := Int.eq_ofNat_of_zero_le (by omega : 0 ≤ e)
    obtain ⟨x, rfl⟩ := Int.eq_ofNat_of_zero_le hxe.1
    obtain ⟨y, rfl⟩ := Int.eq_ofNat_of_zero_le hye.1
    rw [toStr_eq (x := x) (y := y) (o := oe) rfl (by exact_mod_cast hxe.2) (by exact_mod_cast hye.2)] at hse
    have hse := Except.ok.inj hse
    have hx2 : bytesVal (s.take c.baselen) = x := by
      rw [← hse, List.take_left' (by simp)]
      exact bytesVal_beBytes_of_lt (lt_trans (by exact_mod_cast hxe.2) (lt_256_pow_orderlen _))
    have hy2 : bytesVal (s.drop c.baselen) = y := by
      rw [← hse, List.drop_left' (by simp)]
      exact bytesVal_beBytes_of_lt (lt_trans (by exact_mod_cast hye.2) (lt_256_pow_orderlen _))
    rw [hX] at hx2
    rw [hY] at hy2
    subst hx2 hy2
    exact congrArg _ (hu e ⟨⟨by exact_mod_cast he1, by exact_mod_cast he2⟩, oe, hme⟩)

/-- The generator of NIST192p meets the hypotheses; its private key is 1. -/
example : nist192p ∈ curves ∧ OnCurve nist192p.curve nist192p.gx nist192p.gy ∧
    nist192p.gx < nist192p.order ∧ nist192p.gy < nist192p.order := by
  refine ⟨by simp [curves], ?_, by decide, by decide⟩
  exact (onCurve_iff _ _ _).2 (by decide +kernel)

end NBC.Props
