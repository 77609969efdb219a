import Verif.Proofs.Nist192
import Verif.Proofs.Nist224
import Verif.Proofs.Nist256
import Verif.Proofs.Nist384
import Verif.Proofs.Nist521
import Verif.Proofs.Secp256k1
import Verif.Proofs.Keys

/-! # The six curves of the table -/

namespace NBC.Ecdsa
open NBC NT EC Spec

/-- What is checked of each curve. -/
structure CurveOk (c : Curve) : Prop where
  prime_p : Nat.Prime c.curve.p
  good : Good c.curve
  contains : c.curve.containsPoint c.gx c.gy = true
  gx_range : 0 ≤ c.gx ∧ c.gx < c.curve.p
  gy_range : 0 ≤ c.gy ∧ c.gy < c.curve.p
  mul_order : EC.mul c.curve (.aff c.gx c.gy none) (c.order : Int) = .ok .inf
  odd : Odd c.order

theorem odd_of_mod {n : Nat} (h : n % 2 = 1) : Odd n := Nat.odd_iff.2 h

theorem curveOk_192 : CurveOk nist192p where
  prime_p := prime_6277101735386680763835789423207666416083908700390324961279
  good := ⟨by decide +kernel, by decide +kernel⟩
  contains := by decide +kernel
  gx_range := by decide
  gy_range := by decide
  mul_order := nist192p_mul_order
  odd := odd_of_mod (by decide)

theorem curveOk_224 : CurveOk nist224p where
  prime_p := prime_26959946667150639794667015087019630673557916260026308143510066298881
  good := ⟨by decide +kernel, by decide +kernel⟩
  contains := by decide +kernel
  gx_range := by decide
  gy_range := by decide
  mul_order := nist224p_mul_order
  odd := odd_of_mod (by decide)

theorem curveOk_256 : CurveOk nist256p where
  prime_p := prime_115792089210356248762697446949407573530086143415290314195533631308867097853951
  good := ⟨by decide +kernel, by decide +kernel⟩
  contains := by decide +kernel
  gx_range := by decide
  gy_range := by decide
  mul_order := nist256p_mul_order
  odd := odd_of_mod (by decide)

theorem curveOk_384 : CurveOk nist384p where
  prime_p := prime_39402006196394479212279040100143613805079739270465446667948293404245721771496870329047266088258938001861606973112319
  good := ⟨by decide +kernel, by decide +kernel⟩
  contains := by decide +kernel
  gx_range := by decide
  gy_range := by decide
  mul_order := nist384p_mul_order
  odd := odd_of_mod (by decide)

theorem curveOk_521 : CurveOk nist521p where
  prime_p := prime_6864797660130609714981900799081393217269435300143305409394463459185543183397656052122559640661454554977296311391480858037121987999716643812574028291115057151
  good := ⟨by decide +kernel, by decide +kernel⟩
  contains := by decide +kernel
  gx_range := by decide
  gy_range := by decide
  mul_order := nist521p_mul_order
  odd := odd_of_mod (by decide)

theorem curveOk_secp : CurveOk secp256k1 where
  prime_p := Secp.prime_p
  good := Secp.good
  contains := Secp.gen_contains
  gx_range := by decide
  gy_range := by decide
  mul_order := Secp.n_mul_gen
  odd := odd_of_mod (by decide)

theorem curveOk_of_mem {c : Curve} (h : c ∈ curves) : CurveOk c := by
  simp only [curves, List.mem_cons, List.not_mem_nil, or_false] at h
  rcases h with rfl | rfl | rfl | rfl | rfl | rfl
  exacts [curveOk_192, curveOk_224, curveOk_256, curveOk_384, curveOk_521, curveOk_secp]

section
variable {c : Curve} [Fact c.curve.p.Prime]

theorem CurveOk.rep (h : CurveOk c) : ∃ g : (W c.curve).Point, g ≠ 0 ∧
    ∀ o, Rep c.curve (.aff c.gx c.gy o) g :=
  ⟨.some _ _ (nonsingular_of_equation h.good ((containsPoint_iff c.curve _ _).mp h.contains)),
    WeierstrassCurve.Affine.Point.some_ne_zero _, fun _ => ⟨h.gx_range.1, h.gx_range.2, _, rfl⟩⟩

theorem CurveOk.order_pos (h : CurveOk c) : 0 < c.order := h.odd.pos

theorem CurveOk.torsion (h : CurveOk c) {g : (W c.curve).Point}
    (hg : Rep c.curve (.aff c.gx c.gy none) g) : c.order • g = 0 := by
  have heff : effScalar (.aff c.gx c.gy none) (c.order : Int) = (c.order : Int) := rfl
  have hs := (mulD_spec h.good 0 hg (c.order : Int)).1
  rw [heff] at hs
  have hm := h.mul_order
  unfold EC.mul at hm
  rcases hs (by omega) with ⟨R, a, b, -⟩ | ⟨a, -⟩
  · have : R = .inf := by rw [a] at hm; injection hm
    subst this
    have : (c.order : Int) • g = 0 := b
    rwa [natCast_zsmul] at this
  · rw [a] at hm; cases hm

theorem CurveOk.odd_of_torsion (h : CurveOk c) {q : (W c.curve).Point} (hq : c.order • q = 0) :
    Odd (addOrderOf q) :=
  Odd.of_dvd_nat h.odd (addOrderOf_dvd_of_nsmul_eq_zero hq)

/-- The generator object of a curve with prime order. -/
theorem CurveOk.genOk (h : CurveOk c) (hn : c.order.Prime) :
    ∃ g, GenOk c.curve c.generator c.order g := by
  obtain ⟨g, hg0, hg⟩ := h.rep
  haveI : Fact c.order.Prime := ⟨hn⟩
  exact ⟨g, h.good, hg _, rfl, hn, fun h2 => by have := h.odd; rw [h2] at this; revert this; decide,
    addOrderOf_eq_prime (h.torsion (hg none)) hg0⟩

/-- The public point of any key that `from_secret_exponent` builds passes `point_is_valid`. -/
theorem CurveOk.valid (h : CurveOk c) {d : Int} {sk : SigningKey}
    (hsk : SigningKey.fromSecretExponent d c = .ok sk) :
    ∃ (x y : Nat) (o : Option Nat), x < c.order ∧ y < c.order ∧
      sk = ⟨c, ⟨c, ⟨c.curve, c.generator, .aff x y o⟩⟩, ⟨c.curve, c.generator, .aff x y o⟩, d⟩ ∧
      c.curve.containsPoint x y = true ∧ pointIsValid c.curve c.order x y = .ok true := by
  obtain ⟨h1, h2, x, y, o, hm, hx, hy, -, rfl⟩ := fromSecretExponent_sound hsk
  obtain ⟨x, rfl⟩ := Int.eq_ofNat_of_zero_le hx.1
  obtain ⟨y, rfl⟩ := Int.eq_ofNat_of_zero_le hy.1
  obtain ⟨g, -, hg⟩ := h.rep
  have ht := h.torsion (hg none)
  obtain ⟨R, a, b, -⟩ := mul_ok (P := c.generator) h.good (hg (some c.order)) (h.odd_of_torsion ht) d
    (Or.inr ⟨c.order, h.order_pos, rfl, ht⟩)
  rw [hm] at a
  cases a
  have hb := b
  obtain ⟨b1, b2, b3, b4⟩ := b
  have hrep : Rep c.curve (.aff (x : Int) (y : Int) none) (d • g) := ⟨b1, b2, b3, b4⟩
  have hcp : c.curve.containsPoint x y = true := (containsPoint_iff _ _ _).mpr b3.1
  have ht2 : c.order • (d • g) = 0 := by rw [smul_comm, ht, zsmul_zero]
  obtain ⟨R, a', b', -⟩ := mul_ok h.good hrep (h.odd_of_torsion ht2) (c.order : Int)
    (Or.inl ⟨rfl, by omega⟩)
  rw [natCast_zsmul, ht2] at b'
  have hR := rep_zero b'
  subst hR
  refine ⟨x, y, o, by exact_mod_cast hx.2, by exact_mod_cast hy.2, rfl, hcp, ?_⟩
  exact (Key.pointIsValid_unfold c.curve c.order x y).2 ⟨by omega, hx.2, by omega, hy.2, hcp⟩ a'

end

end NBC.Ecdsa
