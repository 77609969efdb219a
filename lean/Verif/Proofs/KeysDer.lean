import Verif.Proofs.Curves
import Verif.Proofs.PyBind

/-! # DER forms of keys -/

namespace NBC.Ecdsa
open NBC NT EC Spec Der Key

/-- What is checked of the object identifiers. -/
structure OidOk (c : Curve) (pk e : Bytes) : Prop where
  enc : c.encodedOid = .ok e
  encPk : encodedOidEcPublicKey = .ok pk
  dec : removeObject e = .ok (c.oid, [])
  decPk : removeObject (pk ++ e) = .ok (oidEcPublicKey, e)
  find : findCurve c.oid = .ok c
  elen : e.length < 100
  pklen : pk.length < 100
  baselen : c.baselen < 100

/-- The encoded `oid_ecPublicKey`. -/
def pkOid : Bytes := [6, 7, 42, 134, 72, 206, 61, 2, 1]

theorem oidOk_of_mem {c : Curve} (h : c ∈ curves) : ∃ e, OidOk c pkOid e := by
  simp only [curves, List.mem_cons, List.not_mem_nil, or_false] at h
  rcases h with rfl | rfl | rfl | rfl | rfl | rfl
  · exact ⟨[6, 8, 42, 134, 72, 206, 61, 3, 1, 1], by decide +kernel, by decide +kernel, by decide +kernel,
      by decide +kernel, by decide +kernel, by decide, by decide, by decide +kernel⟩
  · exact ⟨[6, 5, 43, 129, 4, 0, 33], by decide +kernel, by decide +kernel, by decide +kernel,
      by decide +kernel, by decide +kernel, by decide, by decide, by decide +kernel⟩
  · exact ⟨[6, 8, 42, 134, 72, 206, 61, 3, 1, 7], by decide +kernel, by decide +kernel, by decide +kernel,
      by decide +kernel, by decide +kernel, by decide, by decide, by decide +kernel⟩
  · exact ⟨[6, 5, 43, 129, 4, 0, 34], by decide +kernel, by decide +kernel, by decide +kernel,
      by decide +kernel, by decide +kernel, by decide, by decide, by decide +kernel⟩
  · exact ⟨[6, 5, 43, 129, 4, 0, 35], by decide +kernel, by decide +kernel, by decide +kernel,
      by decide +kernel, by decide +kernel, by decide, by decide, by decide +kernel⟩
  · exact ⟨[6, 5, 43, 129, 4, 0, 10], by decide +kernel, by decide +kernel, by decide +kernel,
      by decide +kernel, by decide +kernel, by decide, by decide, by decide +kernel⟩

theorem big_len {l : Nat} (h : l < 100000) : l < 256 ^ 127 :=
  lt_trans h (by decide +kernel)

theorem tlv_length_le (t : UInt8) {b : Bytes} (h : b.length < 10000) :
    (tlv t b).length ≤ b.length + 4 := by
  have h2 : (lenBytes b.length).length ≤ 3 := by
    unfold lenBytes
    split
    · simp
    · have : orderlen b.length ≤ 2 := (orderlen_le_iff _ 2 (by omega)).2 (by omega)
      simp; omega
  simp [tlv]; omega

theorem tlv_append_nil (t : UInt8) (b : Bytes) : tlv t b = tlv t b ++ [] := by simp

theorem vkDer {vk : VerifyingKey} {pk e s : Bytes} (ho : OidOk vk.curve pk e) (hs : vk.toStr = .ok s)
    (hl : s.length < 1000) :
    ∃ der, vk.toDer = .ok der ∧ VerifyingKey.fromDer der = VerifyingKey.fromString s vk.curve := by
  have hpe : (pk ++ e).length < 200 := by have := ho.elen; have := ho.pklen; simp; omega
  have hb : ([0, 4] ++ s).length < 1100 := by simp; omega
  have hi : (tlv 0x30 (pk ++ e)).length < 300 := lt_of_le_of_lt (tlv_length_le _ (by omega)) (by omega)
  have hbt : (tlv 3 ([0, 4] ++ s)).length < 1200 := lt_of_le_of_lt (tlv_length_le _ (by omega)) (by omega)
  have hseq : (tlv 0x30 (pk ++ e) ++ tlv 3 ([0, 4] ++ s)).length < 2000 := by simp at hi hbt ⊢; omega
  have e1 : encodeSequence [pk, e] = .ok (tlv 0x30 (pk ++ e)) := by
    have := encodeSequence_eq (ps := [pk, e]) (by simpa using big_len (by simpa using lt_trans hpe (by omega)))
    simpa using this
  have e2 := encodeBitstring_eq (s := [0, 4] ++ s) (big_len (by omega))
  have e3 : encodeSequence [tlv 0x30 (pk ++ e), tlv 3 ([0, 4] ++ s)] =
      .ok (tlv 0x30 (tlv 0x30 (pk ++ e) ++ tlv 3 ([0, 4] ++ s))) := by
    have hf : [tlv 0x30 (pk ++ e), tlv 3 ([0, 4] ++ s)].flatten
        = tlv 0x30 (pk ++ e) ++ tlv 3 ([0, 4] ++ s) := by simp
    rw [encodeSequence_eq (by rw [hf]; exact big_len (by omega)), hf]
  refine ⟨tlv 0x30 (tlv 0x30 (pk ++ e) ++ tlv 3 ([0, 4] ++ s)), ?_, ?_⟩
  · simp only [VerifyingKey.toDer, hs, ho.enc, ho.encPk, ok_bind, e1, e2]
    exact e3
  · have r1 := removeSequence_tlv (tlv 0x30 (pk ++ e) ++ tlv 3 ([0, 4] ++ s)) [] (big_len (by omega))
    rw [List.append_nil] at r1
    have r2 := removeSequence_tlv (pk ++ e) (tlv 3 ([0, 4] ++ s)) (big_len (by omega))
    have r3 := removeBitstring_tlv ([0, 4] ++ s) [] (big_len (by omega))
    rw [List.append_nil] at r3
    simp only [VerifyingKey.fromDer, r1, ok_bind, ne_eq, not_true, if_false, r2, ho.decPk, ho.dec,
      ho.find, r3]
    rfl

theorem skDer {sk : SigningKey} {pk e s v : Bytes} (ho : OidOk sk.curve pk e) (hs : sk.toStr = .ok s)
    (hl : s.length = sk.curve.baselen) (hv : sk.verifyingKey.toStr = .ok v) (hvl : v.length < 1000) :
    ∃ der, sk.toDer = .ok der ∧ SigningKey.fromDer der = SigningKey.fromString s sk.curve := by
  have hbl := ho.baselen
  have hel := ho.elen
  have hb : ([0, 4] ++ v).length < 1100 := by simp; omega
  have h1 : (tlv 2 (intBody 1)).length < 10 := by decide +kernel
  have h2 : (tlv 4 s).length < 200 := lt_of_le_of_lt (tlv_length_le _ (by omega)) (by omega)
  have h3 : (tlv 0xa0 e).length < 200 := lt_of_le_of_lt (tlv_length_le _ (by omega)) (by omega)
  have h4 : (tlv 3 ([0, 4] ++ v)).length < 1200 := lt_of_le_of_lt (tlv_length_le _ (by omega)) (by omega)
  have h5 : (tlv 0xa1 (tlv 3 ([0, 4] ++ v))).length < 1300 :=
    lt_of_le_of_lt (tlv_length_le _ (by omega)) (by omega)
  have e1 := encodeInteger_eq (n := 1) (by decide +kernel)
  have e2 := encodeOctetString_eq (s := s) (big_len (by omega))
  have e3 := encodeConstructed_eq (tag := 0) (by omega) (s := e) (big_len (by omega))
  have e4 := encodeBitstring_eq (s := [0, 4] ++ v) (big_len (by omega))
  have e5 := encodeConstructed_eq (tag := 1) (by omega) (s := tlv 3 ([0, 4] ++ v)) (big_len (by omega))
  set t5 := tlv 0xa1 (tlv 3 ([0, 4] ++ v)) with ht5
  have hlen : (tlv 2 (intBody 1) ++ (tlv 4 s ++ (tlv 0xa0 e ++ t5))).length < 5000 := by
    simp only [List.length_append]; omega
  have hf : [tlv 2 (intBody 1), tlv 4 s, tlv 0xa0 e, t5].flatten
      = tlv 2 (intBody 1) ++ (tlv 4 s ++ (tlv 0xa0 e ++ t5)) := by simp
  have e6 : encodeSequence [tlv 2 (intBody 1), tlv 4 s, tlv 0xa0 e, t5] =
      .ok (tlv 0x30 (tlv 2 (intBody 1) ++ (tlv 4 s ++ (tlv 0xa0 e ++ t5)))) := by
    rw [encodeSequence_eq (by rw [hf]; exact big_len (by omega)), hf]
  refine ⟨tlv 0x30 (tlv 2 (intBody 1) ++ (tlv 4 s ++ (tlv 0xa0 e ++ t5))), ?_, ?_⟩
  · simp only [SigningKey.toDer, hv, ok_bind, hs, ho.enc, e2, e4]
    rw [show encodeInteger 1 = _ from e1, ok_bind, show encodeConstructed 0 e = _ from e3, ok_bind,
      show encodeConstructed 1 (tlv 3 ([0, 4] ++ v)) = _ from e5, ok_bind]
    exact e6
  · have r1 := removeSequence_tlv (tlv 2 (intBody 1) ++ (tlv 4 s ++ (tlv 0xa0 e ++ t5))) []
      (big_len (by omega))
    rw [List.append_nil] at r1
    have r2 := removeInteger_tlv 1 (tlv 4 s ++ (tlv 0xa0 e ++ t5)) (big_len (by decide +kernel))
    have r3 := removeOctetString_tlv s (tlv 0xa0 e ++ t5) (big_len (by omega))
    have r4 := removeConstructed_tlv (tag := 0) (by omega) e t5 (big_len (by omega))
    have r4' : removeConstructed (tlv 0xa0 e ++ t5) = .ok (0, e, t5) := r4
    simp only [SigningKey.fromDer, r1, ok_bind, ne_eq, not_true, if_false, r2, r3, r4', ho.dec,
      ho.find]
    rw [if_neg (by omega)]

/-- What `from_string` has established. -/
theorem fromString_sound {c : Curve} {s : Bytes} {vk : VerifyingKey}
    (h : VerifyingKey.fromString s c = .ok vk) :
    ∃ x y : Nat, x < c.order ∧ y < c.order ∧ s = beBytes c.baselen x ++ beBytes c.baselen y ∧
      c.curve.containsPoint x y = true ∧ pointIsValid c.curve c.order x y = .ok true ∧
      vk = ⟨c, ⟨c.curve, c.generator, .aff x y (some c.order)⟩⟩ := by
  have hpos : 0 < c.baselen := orderlen_pos _
  simp only [VerifyingKey.fromString, bind_ok_iff, pyAssert_ok_iff, beq_iff_eq] at h
  obtain ⟨_, h1, _, h2, _, h3, x, h4, y, h5, v, h6, _, h7, P, h8, h9⟩ := h
  subst h7
  rw [stringToNumber_of_length h2 hpos] at h4
  rw [stringToNumber_of_length h3 hpos] at h5
  cases h4
  cases h5
  rw [mkPoint_eq] at h8
  split at h8
  · rename_i hc
    cases h8
    simp only [VerifyingKey.fromPublicPoint, bind_ok_iff] at h9
    obtain ⟨K, hK, h9⟩ := h9
    obtain ⟨rfl, -, x, y, o, hxy, a1, a2, a3, a4, -⟩ := mkPublicKey_sound rfl hK
    cases hxy
    cases h9
    refine ⟨_, _, by exact_mod_cast a2, by exact_mod_cast a4, ?_, hc, h6, rfl⟩
    rw [beBytes_bytesVal' h2, beBytes_bytesVal' h3, List.take_append_drop]
  · cases h8

theorem sk_toStr {c : Curve} {d : Int} {sk : SigningKey}
    (h : SigningKey.fromSecretExponent d c = .ok sk) :
    ∃ s, sk.toStr = .ok s ∧ s.length = c.baselen ∧ SigningKey.fromString s c = .ok sk := by
  obtain ⟨h1, h2, x, y, o, hm, hx, hy, hn, rfl⟩ := fromSecretExponent_sound h
  obtain ⟨d, rfl⟩ := Int.eq_ofNat_of_zero_le (by omega : 0 ≤ d)
  have hd : d < 256 ^ c.baselen := lt_trans (by exact_mod_cast h2) (lt_256_pow_orderlen _)
  have e := numberToString_eq hd
  refine ⟨beBytes c.baselen d, e, beBytes_length _ _, ?_⟩
  have e2 := stringToNumber_of_length (beBytes_length c.baselen d) (orderlen_pos _)
  rw [bytesVal_beBytes_of_lt hd] at e2
  have ha : pyAssert ((beBytes c.baselen d).length == c.baselen) = .ok () := by
    rw [pyAssert_ok_iff, beq_iff_eq, beBytes_length]
  simp only [SigningKey.fromString, ha, ok_bind, e2]
  exact h

end NBC.Ecdsa
