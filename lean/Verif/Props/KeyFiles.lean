import Verif.Props.Pem
import Verif.Props.Seeds

/-!
C179: keys read from the files of others.
-/

namespace NBC.Props

open NBC NT EC Ecdsa Spec Key Der

theorem findCurve_mem {oid : List Nat} {c : Curve} (h : findCurve oid = .ok c) : c ∈ curves := by
  unfold findCurve at h
  split at h
  · rename_i d hd
    cases h
    exact List.mem_of_find?_eq_some hd
  · cases h

/-- C179: a public key read from any DER text whatever is a point, with coordinates below the order, on one of the
six curves of the library, and it is written to a text that is read as the same key. -/
theorem C179_public_partial (der : Bytes) (vk : VerifyingKey) (h : VerifyingKey.fromDer der = .ok vk) :
    vk.curve ∈ curves ∧ (∃ x y : Nat, x < vk.curve.order ∧ y < vk.curve.order ∧ OnCurve vk.curve.curve x y ∧
      vk.pubkey = ⟨vk.curve.curve, vk.curve.generator, .aff x y (some vk.curve.order)⟩) ∧
    ∃ own, vk.toDer = .ok own ∧ VerifyingKey.fromDer own = .ok vk := by
  have key : ∃ c s, c ∈ curves ∧ VerifyingKey.fromString s c = .ok vk := by
    unfold VerifyingKey.fromDer at h
    obtain ⟨⟨s1, e1⟩, -, h⟩ := bind_ok_iff.1 h
    dsimp only at h
    split at h
    · cases h
    obtain ⟨⟨s2, p⟩, -, h⟩ := bind_ok_iff.1 h
    obtain ⟨⟨o1, r⟩, -, h⟩ := bind_ok_iff.1 h
    obtain ⟨⟨o2, e2⟩, -, h⟩ := bind_ok_iff.1 h
    dsimp only at h
    split at h
    · cases h
    obtain ⟨_, -, h⟩ := bind_ok_iff.1 h
    obtain ⟨c, hc, h⟩ := bind_ok_iff.1 h
    obtain ⟨⟨ps, e3⟩, -, h⟩ := bind_ok_iff.1 h
    dsimp only at h
    split at h
    · cases h
    obtain ⟨_, -, h⟩ := bind_ok_iff.1 h
    exact ⟨c, _, findCurve_mem hc, h⟩
  obtain ⟨c, s, hc, hs⟩ := key
  obtain ⟨-, own, h1, h2⟩ := C35_verifying_key_string c hc s vk hs
  obtain ⟨x, y, hx, hy, -, hon, -, rfl⟩ := fromString_sound hs
  exact ⟨hc, ⟨x, y, hx, hy, (onCurve_iff _ _ _).2 hon, rfl⟩, own, h1, h2⟩

theorem sk_of_der {der : Bytes} {sk : SigningKey} (h : SigningKey.fromDer der = .ok sk) :
    ∃ c d, c ∈ curves ∧ SigningKey.fromSecretExponent d c = .ok sk := by
  unfold SigningKey.fromDer at h
  obtain ⟨⟨s1, e1⟩, -, h⟩ := bind_ok_iff.1 h
  dsimp only at h
  split at h
  · cases h
  obtain ⟨⟨one, s2⟩, -, h⟩ := bind_ok_iff.1 h
  dsimp only at h
  split at h
  · cases h
  obtain ⟨⟨ps, s3⟩, -, h⟩ := bind_ok_iff.1 h
  obtain ⟨⟨tag, cs, r⟩, -, h⟩ := bind_ok_iff.1 h
  dsimp only at h
  split at h
  · cases h
  obtain ⟨⟨o, e2⟩, -, h⟩ := bind_ok_iff.1 h
  dsimp only at h
  split at h
  · cases h
  obtain ⟨c, hc, h⟩ := bind_ok_iff.1 h
  unfold SigningKey.fromString at h
  obtain ⟨_, -, h⟩ := bind_ok_iff.1 h
  obtain ⟨d, -, h⟩ := bind_ok_iff.1 h
  exact ⟨c, d, findCurve_mem hc, h⟩

/-- C179: a private key read from any DER text is in range on one of the six curves, with the public key that belongs
to it (whatever public key the text has), and it is written to a text that is read as the same key. -/
theorem C179_private_partial (der : Bytes) (sk : SigningKey) (h : SigningKey.fromDer der = .ok sk) :
    sk.curve ∈ curves ∧ 1 ≤ sk.secretMultiplier ∧ sk.secretMultiplier < sk.curve.order ∧
    mul sk.curve.curve sk.curve.generator sk.secretMultiplier = .ok sk.pubkey.point ∧
    sk.verifyingKey.pubkey = sk.pubkey ∧ ∃ own, sk.toDer = .ok own ∧ SigningKey.fromDer own = .ok sk := by
  obtain ⟨c, d, hc, hd⟩ := sk_of_der h
  have hown := (C35_signing_key c hc d sk hd).1
  obtain ⟨h1, h2, x, y, o, hm, -, -, -, rfl⟩ := fromSecretExponent_sound hd
  exact ⟨hc, h1, h2, hm, rfl, hown⟩

theorem read_short : ∀ l < 128, (UInt8.ofNat l).toNat &&& 0x80 = 0 ∧ (UInt8.ofNat l).toNat &&& 0x7f = l := by decide +kernel

theorem removeSequence_claimed (body : Bytes) (l : Nat) (h1 : body.length ≤ l) (h2 : l < 128) :
    removeSequence (0x30 :: UInt8.ofNat l :: body) = .ok (body, []) := by
  obtain ⟨e1, e2⟩ := read_short l h2
  have hr : readLength (UInt8.ofNat l :: body) = .ok (l, 1) := by
    unfold readLength
    show (if (UInt8.ofNat l).toNat &&& 0x80 = 0 then (pure ((UInt8.ofNat l).toNat &&& 0x7f, 1) : Py (Nat × Nat)) else _) = _
    rw [if_pos e1, e2]
    rfl
  unfold removeSequence cutBody
  show (do let (length, llen) ← readLength (UInt8.ofNat l :: body); _) = _
  rw [hr, ok_bind]
  show Except.ok (body.take l, (0x30 :: UInt8.ofNat l :: body).drop (1 + 1 + l)) = _
  rw [List.take_of_length_le h1, List.drop_eq_nil_of_le (by simp; omega)]

/-- C179 fails for the form: a text may claim to be longer than it is.  Up to 127, whatever length is written in front
of what there is, the text is read alike. -/
theorem C179_length_false (body : Bytes) (l l' : Nat) (hl : body.length ≤ l) (h1 : l < 128) (hl' : body.length ≤ l')
    (h2 : l' < 128) :
    VerifyingKey.fromDer (0x30 :: UInt8.ofNat l :: body) = VerifyingKey.fromDer (0x30 :: UInt8.ofNat l' :: body) ∧
    SigningKey.fromDer (0x30 :: UInt8.ofNat l :: body) = SigningKey.fromDer (0x30 :: UInt8.ofNat l' :: body) := by
  unfold VerifyingKey.fromDer SigningKey.fromDer
  rw [removeSequence_claimed body l hl h1, removeSequence_claimed body l' hl' h2]
  exact ⟨rfl, rfl⟩

/-- The DER text of a public key on SECP256k1 before the length of the whole. -/
def secpBody (s : Bytes) : Bytes :=
  [0x30, 16, 6, 7, 42, 134, 72, 206, 61, 2, 1, 6, 5, 43, 129, 4, 0, 10, 3, 66, 0, 4] ++ s

theorem secp_toDer {vk : VerifyingKey} {s : Bytes} (hc : vk.curve = secp256k1) (hs : vk.toStr = .ok s) (hl : s.length = 64) :
    vk.toDer = .ok (0x30 :: 86 :: secpBody s) := by
  have e1 : secp256k1.encodedOid = .ok [6, 5, 43, 129, 4, 0, 10] := by decide +kernel
  have e2 : encodedOidEcPublicKey = .ok [6, 7, 42, 134, 72, 206, 61, 2, 1] := by decide +kernel
  have e3 : encodeSequence [[6, 7, 42, 134, 72, 206, 61, 2, 1], [6, 5, 43, 129, 4, 0, 10]] =
      .ok [0x30, 16, 6, 7, 42, 134, 72, 206, 61, 2, 1, 6, 5, 43, 129, 4, 0, 10] := by decide +kernel
  have e4 : encodeBitstring ([0, 4] ++ s) = .ok ([3, 66, 0, 4] ++ s) := by
    unfold encodeBitstring
    rw [show ([0, 4] ++ s : Bytes).length = 66 by simp [hl], show encodeLength 66 = .ok [66] by decide]
    rfl
  unfold VerifyingKey.toDer
  rw [hc, hs, ok_bind]
  simp only [e1, e2, e3, e4, ok_bind]
  unfold encodeSequence
  simp only [List.map_cons, List.map_nil, List.sum_cons, List.sum_nil, List.length_cons, List.length_append, List.length_nil, hl]
  rw [show encodeLength (0 + 1 + 1 + 1 + 1 + 1 + 1 + 1 + 1 + 1 + 1 + 1 + 1 + 1 + 1 + 1 + 1 + 1 + 1 + (0 + 1 + 1 + 1 + 1 + 64 + 0)) = .ok [86]
    by decide]
  simp [secpBody, pure, Except.pure, Bind.bind, Except.bind]

/-- C179 fails for every public key on SECP256k1: at least 42 different texts are read as that key. -/
theorem C179_forms_false (s : Bytes) (vk : VerifyingKey) (h : VerifyingKey.fromString s secp256k1 = .ok vk) :
    ∃ body, vk.toDer = .ok (0x30 :: 86 :: body) ∧
      ∀ l, 86 ≤ l → l < 128 → VerifyingKey.fromDer (0x30 :: UInt8.ofNat l :: body) = .ok vk := by
  have hm : secp256k1 ∈ curves := by simp [curves]
  obtain ⟨hs, own, h1, h2⟩ := C35_verifying_key_string secp256k1 hm s vk h
  obtain ⟨x, y, -, -, he, -, -, hvk⟩ := fromString_sound h
  have hl : s.length = 64 := by
    rw [he, List.length_append, beBytes_length, beBytes_length]
    decide +kernel
  have hd := secp_toDer (by rw [hvk]) hs hl
  rw [hd] at h1
  cases h1
  refine ⟨_, hd, fun l a b => ?_⟩
  have hb : (secpBody s).length = 86 := by simp [secpBody, hl]
  rw [← h2]
  exact (C179_length_false (secpBody s) l 86 (by omega) b (by omega) (by omega)).1

/-- The texts differ. -/
example (body : Bytes) : (0x30 :: UInt8.ofNat 87 :: body : Bytes) ≠ 0x30 :: UInt8.ofNat 86 :: body := by
  intro h
  injection h with _ h
  injection h with h
  exact absurd h (by decide)

/-- There are such keys: whatever signing key of SECP256k1 there is, its public key is read from its own text. -/
example : ∃ der vk, VerifyingKey.fromDer der = .ok vk ∧ vk.curve = secp256k1 := by
  have hm : secp256k1 ∈ curves := by simp [curves]
  obtain ⟨x, y, o, -, hp, hok, -⟩ := Secp.fromSecretExponent_secp (d := 1) (by decide) (by decide)
  obtain ⟨sk, hsk⟩ : ∃ sk, SigningKey.fromSecretExponent 1 secp256k1 = .ok sk := by
    by_cases h : x < Secp.n ∧ y < Secp.n
    · exact ⟨_, hok h⟩
    · have hg : Secp.PubPoint 1 0x79be667ef9dcbbac55a06295ce870b07029bfcdb2dce28d959f2815b16f81798
          0x483ada7726a3c4655da4fbfc0e1108a8fd17b448a68554199c47d08ffb10d4b8 :=
        ⟨by decide, by decide, nonsingular_of_equation Secp.good
          ((containsPoint_iff Secp.K _ _).mp Secp.gen_contains), by rw [one_zsmul]; rfl⟩
      obtain ⟨rfl, rfl⟩ := hp.unique hg
      exact absurd ⟨by decide, by decide⟩ h
  obtain ⟨der, vk, -, h2, h3, -⟩ := C35_verifying_key secp256k1 hm 1 sk hsk
  exact ⟨der, vk, h2, h3⟩

/-- C179: a text that is as long as it claims, followed by anything, is refused. -/
theorem C179_trailing_partial (ps : List Bytes) (t junk : Bytes) (hp : ps.flatten.length < 256 ^ 127)
    (ht : encodeSequence ps = .ok t) (hj : junk ≠ []) :
    VerifyingKey.fromDer (t ++ junk) = .error .unexpectedDER ∧ SigningKey.fromDer (t ++ junk) = .error .unexpectedDER := by
  rw [encodeSequence_eq hp] at ht
  cases ht
  unfold VerifyingKey.fromDer SigningKey.fromDer
  rw [removeSequence_tlv _ junk hp, ok_bind, ok_bind]
  exact ⟨if_pos hj, if_pos hj⟩

/-- C179 fails for private keys: what follows the curve is not read, so that the public key may be missing, of another
key, or no public key at all. -/
theorem C179_tail_false (priv oid tail tail' one octets con t t' : Bytes)
    (h1 : encodeInteger 1 = .ok one) (h2 : encodeOctetString priv = .ok octets) (h3 : encodeConstructed 0 oid = .ok con)
    (hl : (one ++ octets ++ con ++ tail).length < 256 ^ 127) (hl' : (one ++ octets ++ con ++ tail').length < 256 ^ 127)
    (ht : encodeSequence [one, octets, con, tail] = .ok t) (ht' : encodeSequence [one, octets, con, tail'] = .ok t') :
    SigningKey.fromDer t = SigningKey.fromDer t' := by
  have key : ∀ tl u : Bytes, (one ++ octets ++ con ++ tl).length < 256 ^ 127 →
      encodeSequence [one, octets, con, tl] = .ok u → SigningKey.fromDer u = (do
        let (curveOid, empty) ← removeObject oid
        if empty ≠ [] then .error .unexpectedDER
        else
          let curve ← findCurve curveOid
          let privkeyStr := if priv.length < curve.baselen then
            List.replicate (curve.baselen - priv.length) 0 ++ priv else priv
          SigningKey.fromString privkeyStr curve) := by
    intro tl u hu hs
    have hf : [one, octets, con, tl].flatten = one ++ (octets ++ (con ++ tl)) := by simp
    have hlen : (one ++ (octets ++ (con ++ tl))).length < 256 ^ 127 := by
      simpa [List.length_append, Nat.add_assoc] using hu
    rw [encodeSequence_eq (by rw [hf]; exact hlen), hf] at hs
    cases hs
    have hpl : priv.length ≤ octets.length := by
      unfold encodeOctetString at h2
      obtain ⟨lb, -, h2⟩ := bind_ok_iff.1 h2
      cases h2
      simp
      omega
    have hol : oid.length ≤ con.length := by
      unfold encodeConstructed at h3
      obtain ⟨a, -, h3⟩ := bind_ok_iff.1 h3
      obtain ⟨b, -, h3⟩ := bind_ok_iff.1 h3
      cases h3
      simp
      omega
    simp only [List.length_append] at hlen
    have hp : priv.length < 256 ^ 127 := by omega
    have ho : oid.length < 256 ^ 127 := by omega
    rw [show encodeInteger 1 = _ from encodeInteger_eq (n := 1) (by decide +kernel)] at h1
    rw [encodeOctetString_eq hp] at h2
    rw [encodeConstructed_eq (by omega) ho] at h3
    cases h1
    cases h2
    cases h3
    have r1 := removeSequence_tlv (tlv 2 (intBody 1) ++ (tlv 4 priv ++ (tlv (UInt8.ofNat (0xa0 + 0)) oid ++ tl))) []
      (by simp only [List.length_append]; exact hlen)
    rw [List.append_nil] at r1
    have r2 := removeInteger_tlv 1 (tlv 4 priv ++ (tlv (UInt8.ofNat (0xa0 + 0)) oid ++ tl)) (by decide +kernel)
    have r3 := removeOctetString_tlv priv (tlv (UInt8.ofNat (0xa0 + 0)) oid ++ tl) hp
    have r4 := removeConstructed_tlv (tag := 0) (by omega) oid tl ho
    simp only [SigningKey.fromDer, r1, ok_bind, ne_eq, not_true, if_false, r2, r3, r4]
  rw [key _ _ hl ht, key _ _ hl' ht']

/-- The pieces of a private key of SECP256k1 with and without something after the curve. -/
example : (∃ one octets con t t', encodeInteger 1 = .ok one ∧ encodeOctetString (List.replicate 31 0 ++ [7]) = .ok octets ∧
    encodeConstructed 0 [6, 5, 43, 129, 4, 0, 10] = .ok con ∧ encodeSequence [one, octets, con, []] = .ok t ∧
    encodeSequence [one, octets, con, [1, 2, 3]] = .ok t' ∧ t ≠ t') := by
  refine ⟨_, _, _, _, _, rfl, rfl, rfl, rfl, rfl, ?_⟩
  decide +kernel

/-- C179 for PEM files: whatever file is accepted, the key is valid and is written to a file that is read as the same
key. -/
theorem C179_pem_partial (t : Bytes) :
    (∀ vk, VerifyingKey.fromPem t = .ok vk → vk.curve ∈ curves ∧
      (∃ x y : Nat, OnCurve vk.curve.curve x y ∧ vk.pubkey.point = .aff x y (some vk.curve.order)) ∧
      ∃ own, vk.toPem = .ok own ∧ VerifyingKey.fromPem own = .ok vk) ∧
    (∀ sk, SigningKey.fromPem t = .ok sk → sk.curve ∈ curves ∧ 1 ≤ sk.secretMultiplier ∧ sk.secretMultiplier < sk.curve.order ∧
      mul sk.curve.curve sk.curve.generator sk.secretMultiplier = .ok sk.pubkey.point ∧
      ∃ own, sk.toPem = .ok own ∧ SigningKey.fromPem own = .ok sk) := by
  constructor
  · intro vk h
    unfold VerifyingKey.fromPem at h
    obtain ⟨der, -, h⟩ := bind_ok_iff.1 h
    obtain ⟨h1, ⟨x, y, -, -, hon, he⟩, own, h3, h4⟩ := C179_public_partial der vk h
    refine ⟨h1, ⟨x, y, hon, by rw [he]⟩, topem own sPublicKey, ?_, ?_⟩
    · simp only [VerifyingKey.toPem, h3, ok_bind]; rfl
    · simp only [VerifyingKey.fromPem, C92_bytes own sPublicKey (by decide), ok_bind, h4]
  · intro sk h
    unfold SigningKey.fromPem at h
    obtain ⟨_, -, h⟩ := bind_ok_iff.1 h
    obtain ⟨der, -, h⟩ := bind_ok_iff.1 h
    obtain ⟨h1, h2, h3, h4, -⟩ := C179_private_partial der sk h
    obtain ⟨c, d, hc, hd⟩ := sk_of_der h
    obtain ⟨⟨own, a, b, -⟩, -⟩ := C92_signing_key c hc d sk hd
    exact ⟨h1, h2, h3, h4, own, a, b⟩

theorem cutBody_infix {s b r : Bytes} (h : cutBody s = .ok (b, r)) : b <:+: s ∧ r <:+ s := by
  unfold cutBody at h
  obtain ⟨⟨l, k⟩, -, h⟩ := bind_ok_iff.1 h
  cases h
  exact ⟨(List.take_prefix _ _).isInfix.trans (List.drop_suffix _ _).isInfix, List.drop_suffix _ _⟩

theorem removeSequence_infix {s b r : Bytes} (h : removeSequence s = .ok (b, r)) : b <:+: s ∧ r <:+ s := by
  unfold removeSequence at h
  obtain ⟨_, -, h⟩ := bind_ok_iff.1 h
  exact cutBody_infix h

/-- C179: the key that is read is the one in the text: the coordinates of a public key, and the scalar of a private
key, stand in it big-endian (the scalar with zeros in front or without). -/
theorem C179_read_partial (der : Bytes) :
    (∀ vk, VerifyingKey.fromDer der = .ok vk → ∃ x y : Nat, vk.pubkey.point = .aff x y (some vk.curve.order) ∧
      beBytes vk.curve.baselen x ++ beBytes vk.curve.baselen y <:+: der) ∧
    (∀ sk, SigningKey.fromDer der = .ok sk → ∃ priv : Bytes, priv <:+: der ∧ priv.length ≤ sk.curve.baselen ∧
      sk.secretMultiplier = bytesVal priv) := by
  constructor
  · intro vk h
    unfold VerifyingKey.fromDer at h
    obtain ⟨⟨s1, e1⟩, q1, h⟩ := bind_ok_iff.1 h
    dsimp only at h
    split at h
    · cases h
    obtain ⟨⟨s2, p⟩, q2, h⟩ := bind_ok_iff.1 h
    obtain ⟨⟨o1, r⟩, -, h⟩ := bind_ok_iff.1 h
    obtain ⟨⟨o2, e2⟩, -, h⟩ := bind_ok_iff.1 h
    dsimp only at h
    split at h
    · cases h
    obtain ⟨_, -, h⟩ := bind_ok_iff.1 h
    obtain ⟨c, hc, h⟩ := bind_ok_iff.1 h
    obtain ⟨⟨ps, e3⟩, q3, h⟩ := bind_ok_iff.1 h
    dsimp only at h
    split at h
    · cases h
    obtain ⟨_, -, h⟩ := bind_ok_iff.1 h
    unfold removeBitstring at q3
    obtain ⟨_, -, q3⟩ := bind_ok_iff.1 q3
    have inside : ps.drop 2 <:+: der := (List.drop_suffix _ _).isInfix.trans
      ((cutBody_infix q3).1.trans ((removeSequence_infix q2).2.isInfix.trans (removeSequence_infix q1).1))
    obtain ⟨x, y, -, -, he, -, -, rfl⟩ := fromString_sound h
    rw [he] at inside
    exact ⟨x, y, rfl, inside⟩
  · intro sk h
    unfold SigningKey.fromDer at h
    obtain ⟨⟨s1, e1⟩, q1, h⟩ := bind_ok_iff.1 h
    dsimp only at h
    split at h
    · cases h
    obtain ⟨⟨one, s2⟩, q2, h⟩ := bind_ok_iff.1 h
    dsimp only at h
    split at h
    · cases h
    obtain ⟨⟨ps, s3⟩, q3, h⟩ := bind_ok_iff.1 h
    obtain ⟨⟨tag, cs, r⟩, -, h⟩ := bind_ok_iff.1 h
    dsimp only at h
    split at h
    · cases h
    obtain ⟨⟨o, e2⟩, -, h⟩ := bind_ok_iff.1 h
    dsimp only at h
    split at h
    · cases h
    obtain ⟨c, hc, h⟩ := bind_ok_iff.1 h
    unfold SigningKey.fromString at h
    obtain ⟨_, hlen, h⟩ := bind_ok_iff.1 h
    obtain ⟨d, hd, h⟩ := bind_ok_iff.1 h
    unfold removeInteger at q2
    obtain ⟨_, -, q2⟩ := bind_ok_iff.1 q2
    obtain ⟨⟨nb, r2⟩, q2', q2⟩ := bind_ok_iff.1 q2
    obtain ⟨_, -, q2⟩ := bind_ok_iff.1 q2
    obtain ⟨_, -, q2⟩ := bind_ok_iff.1 q2
    obtain ⟨_, -, q2⟩ := bind_ok_iff.1 q2
    cases q2
    unfold removeOctetString at q3
    obtain ⟨_, -, q3⟩ := bind_ok_iff.1 q3
    have inside : ps <:+: der :=
      (cutBody_infix q3).1.trans ((cutBody_infix q2').2.isInfix.trans (removeSequence_infix q1).1)
    rw [pyAssert_ok_iff, beq_iff_eq] at hlen
    rw [stringToNumber_of_length hlen (orderlen_pos _)] at hd
    cases hd
    obtain ⟨-, -, x, y, o, -, -, -, -, rfl⟩ := fromSecretExponent_sound h
    refine ⟨ps, inside, ?_, ?_⟩
    · show ps.length ≤ c.baselen
      split at hlen <;> omega
    · show ((bytesVal _ : Nat) : Int) = _
      split
      · rw [bytesVal_zeros]
      · rfl

end NBC.Props
