import Verif.Model.KeysSign
import Verif.Proofs.Rfc6979
import Verif.Proofs.KeysDer
import Verif.Proofs.Ecc

/-! # Signing data with a key object -/

namespace NBC.Ecdsa
open NBC NT EC Spec Der Key

theorem stringToNumberFixedlen_eq {s : Bytes} {order : Nat} (h : s.length = orderlen order) :
    stringToNumberFixedlen s order = .ok (bytesVal s) := by
  have hs := stringToNumber_of_length h (orderlen_pos order)
  rw [stringToNumber] at hs
  have ha : pyAssert (s.length == orderlen order) = .ok () := by rw [pyAssert_ok_iff]; simpa using h
  simp only [stringToNumberFixedlen, ha, ok_bind, hs]

theorem stringToNumberFixedlen_bad {s : Bytes} {order : Nat} (h : s.length ≠ orderlen order) :
    stringToNumberFixedlen s order = .error .assertionError := by
  have ha : pyAssert (s.length == orderlen order) = .error .assertionError := by
    rw [show (s.length == orderlen order) = false by simpa using h]; rfl
  simp only [stringToNumberFixedlen, ha, error_bind]

theorem pOrder_of_mem {c : Curve} (h : c ∈ curves) :
    c.curve.p < 256 ^ orderlen c.order ∧ c.curve.p < 2 ^ 1015 ∧ c.order < c.curve.p := by
  simp only [curves, List.mem_cons, List.not_mem_nil, or_false] at h
  rcases h with rfl | rfl | rfl | rfl | rfl | rfl <;> exact ⟨by decide +kernel, by decide +kernel, by decide +kernel⟩

/-- The key of a signing key. -/
theorem CurveOk.keyOk {c : Curve} [Fact c.curve.p.Prime] (h : CurveOk c) {g : (W c.curve).Point}
    (hG : GenOk c.curve c.generator c.order g) {d : Int} {sk : SigningKey}
    (hsk : SigningKey.fromSecretExponent d c = .ok sk) :
    ∃ P, sk = ⟨c, ⟨c, ⟨c.curve, c.generator, P⟩⟩, ⟨c.curve, c.generator, P⟩, d⟩ ∧
      KeyOk c.curve c.order P (d • g) := by
  obtain ⟨h1, h2, x, y, o, hm, hx, hy, -, rfl⟩ := fromSecretExponent_sound hsk
  obtain ⟨R, a, b, ho⟩ := hG.mul d (by omega)
  rw [hm] at a
  cases a
  refine ⟨_, rfl, b, ?_, ?_⟩
  · exact NBC.EC.mul_order hm
  · rw [smul_comm, hG.torsion, zsmul_zero]

end NBC.Ecdsa
