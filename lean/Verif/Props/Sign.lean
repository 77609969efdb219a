import Verif.Proofs.KeysSign
import Verif.Props.Pem
import Verif.Props.Scalars

/-!
# C94-C97: signature formats, signing data with a key object, deterministic nonces, default hashes

(and the part of C35 about private keys written by other programs)
-/

namespace NBC.Props
open NBC NT EC Ecdsa Spec Der Key

/-! ### C35 -/

theorem bytesVal_replicate_zero (k : Nat) (s : Bytes) : bytesVal (List.replicate k 0 ++ s) = bytesVal s := by
  induction k with
  | zero => rfl
  | succ k ih => rw [List.replicate_succ, List.cons_append, bytesVal_cons, ih]; simp

/-- C35.  A private key in the same DER form written by another program, with leading zero bytes of
the octet string left out and with anything (or nothing) after the curve, is read as the key with
that big-endian value. -/
theorem C35_foreign_private_key (c : Curve) (hc : c ∈ curves) (oct rest : Bytes)
    (hl : oct.length ≤ c.baselen) (hr : rest.length < 1000) :
    ∃ one octs oid ctx der, encodeInteger 1 = .ok one ∧ encodeOctetString oct = .ok octs ∧
      c.encodedOid = .ok oid ∧ encodeConstructed 0 oid = .ok ctx ∧
      encodeSequence [one, octs, ctx, rest] = .ok der ∧
      SigningKey.fromDer der = SigningKey.fromSecretExponent (bytesVal oct) c := by
  obtain ⟨e, ho⟩ := oidOk_of_mem hc
  have hbl := ho.baselen
  have hel := ho.elen
  have h1 : (tlv 2 (intBody 1)).length < 10 := by decide +kernel
  have h2 : (tlv 4 oct).length < 200 := lt_of_le_of_lt (tlv_length_le _ (by omega)) (by omega)
  have h3 : (tlv 0xa0 e).length < 200 := lt_of_le_of_lt (tlv_length_le _ (by omega)) (by omega)
  have e1 := encodeInteger_eq (n := 1) (by decide +kernel)
  have e2 := encodeOctetString_eq (s := oct) (big_len (by omega))
  have e3 := encodeConstructed_eq (tag := 0) (by omega) (s := e) (big_len (by omega))
  have hlen : (tlv 2 (intBody 1) ++ (tlv 4 oct ++ (tlv 0xa0 e ++ rest))).length < 5000 := by
    simp only [List.length_append]; omega
  have hf : [tlv 2 (intBody 1), tlv 4 oct, tlv 0xa0 e, rest].flatten
      = tlv 2 (intBody 1) ++ (tlv 4 oct ++ (tlv 0xa0 e ++ rest)) := by simp
  have e6 : encodeSequence [tlv 2 (intBody 1), tlv 4 oct, tlv 0xa0 e, rest] =
      .ok (tlv 0x30 (tlv 2 (intBody 1) ++ (tlv 4 oct ++ (tlv 0xa0 e ++ rest)))) := by
    rw [encodeSequence_eq (by rw [hf]; exact big_len (by omega)), hf]
  refine ⟨_, _, e, _, _, e1, e2, ho.enc, e3, e6, ?_⟩
  have r1 := removeSequence_tlv (tlv 2 (intBody 1) ++ (tlv 4 oct ++ (tlv 0xa0 e ++ rest))) []
    (big_len (by omega))
  rw [List.append_nil] at r1
  have r2 := removeInteger_tlv 1 (tlv 4 oct ++ (tlv 0xa0 e ++ rest)) (big_len (by decide +kernel))
  have r3 := removeOctetString_tlv oct (tlv 0xa0 e ++ rest) (big_len (by omega))
  have r4 := removeConstructed_tlv (tag := 0) (by omega) e rest (big_len (by omega))
  have r4' : removeConstructed (tlv 0xa0 e ++ rest) = .ok (0, e, rest) := r4
  have hpad : (if oct.length < c.baselen then List.replicate (c.baselen - oct.length) 0 ++ oct else oct)
      = List.replicate (c.baselen - oct.length) 0 ++ oct := by
    split
    · rfl
    · rw [show c.baselen - oct.length = 0 by omega]; rfl
  have hpl : (List.replicate (c.baselen - oct.length) 0 ++ oct : Bytes).length = c.baselen := by
    simp; omega
  have hv := stringToNumber_of_length hpl (orderlen_pos _)
  rw [bytesVal_replicate_zero] at hv
  have ha : pyAssert ((List.replicate (c.baselen - oct.length) 0 ++ oct : Bytes).length == c.baselen)
      = .ok () := by rw [pyAssert_ok_iff]; simpa using hpl
  simp only [SigningKey.fromDer, r1, ok_bind, ne_eq, not_true, if_false, r2, r3, r4', ho.dec,
    ho.find, hpad, SigningKey.fromString, ha, hv]

/-- The key 5 on SECP256k1 written with a single byte and nothing after the curve. -/
example : ∃ der, encodeSequence [[2, 1, 1], [4, 1, 5], [0xa0, 7, 6, 5, 43, 129, 4, 0, 10], []] = .ok der ∧
    SigningKey.fromDer der = SigningKey.fromSecretExponent 5 secp256k1 := by
  obtain ⟨one, octs, oid, ctx, der, h1, h2, h3, h4, h5, h6⟩ := C35_foreign_private_key secp256k1
    (by decide +kernel) [5] [] (by decide +kernel) (by decide)
  have a1 : encodeInteger 1 = .ok [2, 1, 1] := by decide +kernel
  have a2 : encodeOctetString [5] = .ok [4, 1, 5] := by decide +kernel
  have a3 : secp256k1.encodedOid = .ok [6, 5, 43, 129, 4, 0, 10] := by decide +kernel
  rw [a1] at h1; rw [a2] at h2; rw [a3] at h3
  cases h1; cases h2; cases h3
  have a4 : encodeConstructed 0 [6, 5, 43, 129, 4, 0, 10] = .ok [0xa0, 7, 6, 5, 43, 129, 4, 0, 10] := by
    decide +kernel
  rw [a4] at h4
  cases h4
  exact ⟨der, h5, h6⟩

/-- The object identifiers of the six curves, from RFC 5480, section 2.1.1.1, and SEC 2, section 2.4.1: which name of the
code stands for which registered curve. -/
def registered : List (String × List Nat) :=
  [("NIST192p", [1, 2, 840, 10045, 3, 1, 1]), ("NIST224p", [1, 3, 132, 0, 33]),
   ("NIST256p", [1, 2, 840, 10045, 3, 1, 7]), ("NIST384p", [1, 3, 132, 0, 34]), ("NIST521p", [1, 3, 132, 0, 35]),
   ("SECP256k1", [1, 3, 132, 0, 10])]

/-- C35.  What other programs see: each curve is written with its registered identifier, `id-ecPublicKey` is that of RFC
5480, an identifier finds the curve with its name, and no other identifier is taken. -/
theorem C35_registered :
    curves.map (fun c => (c.name, c.oid)) = registered ∧
    (∀ c ∈ curves, c.encodedOid = .ok (match c.name with
      | "NIST192p" => [6, 8, 0x2a, 0x86, 0x48, 0xce, 0x3d, 3, 1, 1]
      | "NIST224p" => [6, 5, 0x2b, 0x81, 4, 0, 0x21]
      | "NIST256p" => [6, 8, 0x2a, 0x86, 0x48, 0xce, 0x3d, 3, 1, 7]
      | "NIST384p" => [6, 5, 0x2b, 0x81, 4, 0, 0x22]
      | "NIST521p" => [6, 5, 0x2b, 0x81, 4, 0, 0x23]
      | _ => [6, 5, 0x2b, 0x81, 4, 0, 10])) ∧
    encodedOidEcPublicKey = .ok [6, 7, 0x2a, 0x86, 0x48, 0xce, 0x3d, 2, 1] ∧
    ∀ oid c, findCurve oid = .ok c ↔ c ∈ curves ∧ (c.name, oid) ∈ registered := by
  refine ⟨by decide +kernel, by decide +kernel, by decide +kernel, fun oid c => ?_⟩
  have hnd : ∀ c ∈ curves, (c.name, c.oid) ∈ registered ∧ findCurve c.oid = .ok c ∧
      ∀ p ∈ registered, p.1 = c.name → p.2 = c.oid := by decide +kernel
  constructor
  · intro h
    unfold findCurve at h
    split at h
    · rename_i c' hf
      cases h
      have hm := List.mem_of_find?_eq_some hf
      have := List.find?_some hf
      simp only [beq_iff_eq] at this
      subst this
      exact ⟨hm, (hnd _ hm).1⟩
    · cases h
  · rintro ⟨hm, hr⟩
    have := (hnd c hm).2.2 _ hr rfl
    simp only at this
    rw [this]
    exact (hnd c hm).2.1

/-! ### C94 -/

/-- C94.  The fixed-width formats: for numbers that fit the order's width the halves are their
big-endian bytes of exactly that width, and decoding gives the numbers back. -/
theorem C94_fixed_width (r s order : Nat) (hr : r < 256 ^ orderlen order) (hs : s < 256 ^ orderlen order) :
    sigencodeString r s order = .ok (beBytes (orderlen order) r ++ beBytes (orderlen order) s) ∧
    sigencodeStrings r s order = .ok (beBytes (orderlen order) r, beBytes (orderlen order) s) ∧
    sigdecodeString (beBytes (orderlen order) r ++ beBytes (orderlen order) s) order = .ok (r, s) ∧
    sigdecodeStrings (beBytes (orderlen order) r) (beBytes (orderlen order) s) order = .ok (r, s) := by
  have er := numberToString_eq hr
  have es := numberToString_eq hs
  have dr := stringToNumberFixedlen_eq (beBytes_length (orderlen order) r)
  have ds := stringToNumberFixedlen_eq (beBytes_length (orderlen order) s)
  rw [bytesVal_beBytes_of_lt hr] at dr
  rw [bytesVal_beBytes_of_lt hs] at ds
  have ha : ∀ t, pyAssert ((beBytes (orderlen order) t).length == orderlen order) = .ok () := by
    intro t; rw [pyAssert_ok_iff]; simp
  have hb : pyAssert ((beBytes (orderlen order) r ++ beBytes (orderlen order) s).length
      == 2 * orderlen order) = .ok () := by rw [pyAssert_ok_iff]; simp; omega
  have t1 : (beBytes (orderlen order) r ++ beBytes (orderlen order) s).take (orderlen order)
      = beBytes (orderlen order) r := by
    rw [List.take_append_of_le_length (by simp), List.take_of_length_le (by simp)]
  have t2 : (beBytes (orderlen order) r ++ beBytes (orderlen order) s).drop (orderlen order)
      = beBytes (orderlen order) s := by
    rw [List.drop_append_of_le_length (by simp), List.drop_of_length_le (by simp)]; rfl
  refine ⟨?_, ?_, ?_, ?_⟩
  · simp only [sigencodeString, er, es, ok_bind]; rfl
  · simp only [sigencodeStrings, er, es, ok_bind]; rfl
  · simp only [sigdecodeString, hb, ok_bind, t1, t2, dr, ds]; rfl
  · simp only [sigdecodeStrings, ha, ok_bind, dr, ds]; rfl

/-- C94.  Only texts of the right width are decoded, and only to the numbers they encode; anything
else is refused. -/
theorem C94_fixed_width_strict (sig a b : Bytes) (order : Nat) :
    (sig.length ≠ 2 * orderlen order → sigdecodeString sig order = .error .assertionError) ∧
    (¬ (a.length = orderlen order ∧ b.length = orderlen order) →
      sigdecodeStrings a b order = .error .assertionError) ∧
    (∀ r s, sigdecodeString sig order = .ok (r, s) → sigencodeString r s order = .ok sig) ∧
    (∀ r s, sigdecodeStrings a b order = .ok (r, s) → sigencodeStrings r s order = .ok (a, b)) := by
  have enc : ∀ u : Bytes, u.length = orderlen order → numberToString (bytesVal u) order = .ok u := by
    intro u hu
    have := bytesVal_lt u
    rw [hu] at this
    rw [numberToString_eq this, beBytes_bytesVal' hu]
  refine ⟨fun h => ?_, fun h => ?_, fun r s h => ?_, fun r s h => ?_⟩
  · have : pyAssert (sig.length == 2 * orderlen order) = .error .assertionError := by
      rw [show (sig.length == 2 * orderlen order) = false by simpa using h]; rfl
    simp only [sigdecodeString, this, error_bind]
  · by_cases ha : a.length = orderlen order
    · have hb : b.length ≠ orderlen order := fun hb => h ⟨ha, hb⟩
      have h1 : pyAssert (a.length == orderlen order) = .ok () := by rw [pyAssert_ok_iff]; simpa using ha
      have h2 : pyAssert (b.length == orderlen order) = .error .assertionError := by
        rw [show (b.length == orderlen order) = false by simpa using hb]; rfl
      simp only [sigdecodeStrings, h1, ok_bind, h2, error_bind]
    · have h1 : pyAssert (a.length == orderlen order) = .error .assertionError := by
        rw [show (a.length == orderlen order) = false by simpa using ha]; rfl
      simp only [sigdecodeStrings, h1, error_bind]
  · simp only [sigdecodeString, bind_ok_iff, pyAssert_ok_iff, beq_iff_eq] at h
    obtain ⟨_, hl, r', hr, s', hs, h⟩ := h
    have l1 : (sig.take (orderlen order)).length = orderlen order := by simp; omega
    have l2 : (sig.drop (orderlen order)).length = orderlen order := by simp; omega
    rw [stringToNumberFixedlen_eq l1] at hr
    rw [stringToNumberFixedlen_eq l2] at hs
    cases hr; cases hs; cases h
    simp only [sigencodeString, enc _ l1, enc _ l2, ok_bind, List.take_append_drop]; rfl
  · simp only [sigdecodeStrings, bind_ok_iff, pyAssert_ok_iff, beq_iff_eq] at h
    obtain ⟨_, l1, _, l2, r', hr, s', hs, h⟩ := h
    rw [stringToNumberFixedlen_eq l1] at hr
    rw [stringToNumberFixedlen_eq l2] at hs
    cases hr; cases hs; cases h
    simp only [sigencodeStrings, enc _ l1, enc _ l2, ok_bind]; rfl

example : sigencodeString 5 258 1000 = .ok [0, 5, 1, 2] ∧ sigdecodeString [0, 5, 1, 2] 1000 = .ok (5, 258) := by
  decide +kernel

/-! ### C95 -/

/-- An encoder and a decoder of signatures agree on a curve, up to the choice between `s` and
`n - s` that does not matter for verification. -/
def Faithful {σ : Type} (c : Curve) (enc : Int → Int → Nat → Py σ) (dec : σ → Nat → Py (Nat × Nat)) :
    Prop :=
  ∀ r s : Nat, 1 ≤ r → r < c.curve.p → 1 ≤ s → s < c.order →
    ∃ sig, enc r s c.order = .ok sig ∧
      (dec sig c.order = .ok (r, s) ∨ dec sig c.order = .ok (r, c.order - s))

theorem canonizeS_cases (s : Nat) (order : Nat) (h1 : 1 ≤ s) (h2 : s < order) :
    canonizeS s order = ((s : Nat) : Int) ∨ canonizeS s order = ((order - s : Nat) : Int) := by
  rcases (C34_low_s_partial s order (by omega) (by omega)).1 with h | h
  · exact Or.inl h
  · right; rw [h]; omega

/-- C95.  The six encoders of `util.py`, each with its decoder, agree on each of the six curves. -/
theorem C95_codecs (c : Curve) (hc : c ∈ curves) :
    Faithful c sigencodeString sigdecodeString ∧
    Faithful c sigencodeStrings (fun ab => sigdecodeStrings ab.1 ab.2) ∧
    Faithful c (fun r s _ => sigencodeDer r s) (fun sig _ => sigdecodeDer sig) ∧
    Faithful c sigencodeStringCanonize sigdecodeString ∧
    Faithful c sigencodeStringsCanonize (fun ab => sigdecodeStrings ab.1 ab.2) ∧
    Faithful c sigencodeDerCanonize (fun sig _ => sigdecodeDer sig) := by
  obtain ⟨hp1, hp2, hnp⟩ := pOrder_of_mem hc
  have hn := lt_256_pow_orderlen c.order
  have hstr : ∀ r s : Nat, r < c.curve.p → s < c.order → _ := fun r s h1 h2 =>
    C94_fixed_width r s c.order (by omega) (by omega)
  have hder : ∀ r s : Nat, r < c.curve.p → s < c.order → _ := fun r s h1 h2 =>
    sig_roundtrip r s (by omega) (by omega)
  refine ⟨fun r s h1 h2 h3 h4 => ?_, fun r s h1 h2 h3 h4 => ?_, fun r s h1 h2 h3 h4 => ?_,
    fun r s h1 h2 h3 h4 => ?_, fun r s h1 h2 h3 h4 => ?_, fun r s h1 h2 h3 h4 => ?_⟩
  · obtain ⟨a, -, b, -⟩ := hstr r s h2 h4
    exact ⟨_, a, Or.inl b⟩
  · obtain ⟨-, a, -, b⟩ := hstr r s h2 h4
    exact ⟨_, a, Or.inl b⟩
  · obtain ⟨sig, a, b, -⟩ := hder r s h2 h4
    exact ⟨_, a, Or.inl b⟩
  · rcases canonizeS_cases s c.order h3 h4 with h | h
    · obtain ⟨a, -, b, -⟩ := hstr r s h2 h4
      refine ⟨_, ?_, Or.inl b⟩
      rw [sigencodeStringCanonize, h]; exact a
    · obtain ⟨a, -, b, -⟩ := hstr r (c.order - s) h2 (by omega)
      refine ⟨_, ?_, Or.inr b⟩
      rw [sigencodeStringCanonize, h]; exact a
  · rcases canonizeS_cases s c.order h3 h4 with h | h
    · obtain ⟨-, a, -, b⟩ := hstr r s h2 h4
      refine ⟨(_, _), ?_, Or.inl b⟩
      simp only [sigencodeStringsCanonize, h]; exact a
    · obtain ⟨-, a, -, b⟩ := hstr r (c.order - s) h2 (by omega)
      refine ⟨(_, _), ?_, Or.inr b⟩
      simp only [sigencodeStringsCanonize, h]; exact a
  · rcases canonizeS_cases s c.order h3 h4 with h | h
    · obtain ⟨sig, a, b, -⟩ := hder r s h2 h4
      refine ⟨_, ?_, Or.inl b⟩
      rw [sigencodeDerCanonize, h]; exact a
    · obtain ⟨sig, a, b, -⟩ := hder r (c.order - s) h2 (by omega)
      refine ⟨_, ?_, Or.inr b⟩
      rw [sigencodeDerCanonize, h]; exact a

/-- Signing a digest with a nonce, then verifying. -/
theorem signDigest_verify {σ : Type} {c : Curve} [Fact c.curve.p.Prime] (hok : CurveOk c)
    (hp : c.order.Prime) {d : Int} {sk : SigningKey} (hsk : SigningKey.fromSecretExponent d c = .ok sk)
    {enc : Int → Int → Nat → Py σ} {dec : σ → Nat → Py (Nat × Nat)} (hf : Faithful c enc dec)
    {digest : Bytes} {k : Int} {sig : σ}
    (h : sk.signDigest digest (fun r s => enc r s sk.curve.order) k = .ok sig) :
    ∃ g : (W c.curve).Point, Rep c.curve c.generator g ∧ ∃ x y hxy, k • g = .some x y hxy ∧
      sk.verifyingKey.verifyDigest sig digest (fun t => dec t sk.verifyingKey.curve.order) =
        if x.val < c.order then .ok true else .error .badSignature := by
  obtain ⟨g, hG⟩ := hok.genOk hp
  obtain ⟨P, rfl, hP⟩ := hok.keyOk hG hsk
  refine ⟨g, hG.rep, ?_⟩
  simp only [SigningKey.signDigest] at h
  split at h
  · cases h
  · rename_i hlen
    simp only [bind_ok_iff] at h
    obtain ⟨number, hnum, ⟨r, s⟩, hs, henc⟩ := h
    simp only [SigningKey.signNumber, bind_ok_iff, pyAssert_ok_iff, Bool.and_eq_true,
      decide_eq_true_eq] at hs
    obtain ⟨_, hk, hs⟩ := hs
    obtain ⟨hr1, hr2, hs1, hs2, hv⟩ := sign_verifies hG hP hs
    have hk0 : k % (c.order : Int) ≠ 0 := by
      rw [Int.emod_eq_of_lt (by omega) hk.2]; omega
    obtain ⟨x, y, hxy, kinv, e1, -, e3⟩ := (sign_spec (P := P) hG d number k).2 hk0
    refine ⟨x, y, hxy, e1, ?_⟩
    simp only at e3
    rw [hs] at e3
    have hrx : r = (x.val : Int) := by
      split at e3
      · cases e3
      · cases e3; rfl
    obtain ⟨s, rfl⟩ := Int.eq_ofNat_of_zero_le (by omega : 0 ≤ s)
    subst hrx
    obtain ⟨sig', a1, a2⟩ := hf x.val s (by exact_mod_cast hr1) (by exact_mod_cast hr2)
      (by exact_mod_cast hs1) (by exact_mod_cast hs2)
    have a1' : enc (x.val : Int) (Int.ofNat s) c.order = .ok sig' := a1
    have henc' : enc (x.val : Int) (Int.ofNat s) c.order = .ok sig := henc
    rw [a1'] at henc'
    cases henc'
    have hvn := C88_negated_s hG hP number (x.val : Int) (s : Int)
    simp only [VerifyingKey.verifyDigest, if_neg hlen, hnum, ok_bind]
    have hv' : PublicKey.verifies ⟨c.curve, c.generator, P⟩ number (x.val : Int) (s : Int)
        = .ok (decide (x.val < c.order)) := by
      have := hv
      simp only [Nat.cast_lt] at this
      exact this
    rcases a2 with a2 | a2
    · simp only [a2, ok_bind, hv']
      by_cases hx : x.val < c.order
      · simp [hx]; rfl
      · simp [hx]
    · have hcast : ((c.order - s : Nat) : Int) = (c.order : Int) - (s : Int) := by
        have : (s : Int) < c.order := hs2
        omega
      simp only [a2, ok_bind, hcast, hvn, hv']
      by_cases hx : x.val < c.order
      · simp [hx]; rfl
      · simp [hx]

/-- C95.  Data signed with a key object (any hash function, any of the six encoders, a random or a
given nonce) verifies under its verifying key with the same hash function and the matching decoder,
exactly when the `x` coordinate of the nonce point is below the order; otherwise verification raises
`BadSignatureError`.  (Missing from the full claim: that coordinate is not reduced modulo the order.) -/
theorem C95_sign_verify_partial {σ : Type} (F : HashFamily) (c : Curve) (hc : c ∈ curves)
    (d : Int) (h : HashName) (sk : HSigningKey)
    (hsk : HSigningKey.fromSecretExponent d c h = .ok sk) (enc : Int → Int → Nat → Py σ)
    (dec : σ → Nat → Py (Nat × Nat)) (hf : Faithful c enc dec) (data : Bytes)
    (ent : Nat → Nat → Bytes) (hash : Option HashName) (k : Option Int) (sig : σ)
    (hs : sk.sign F data ent hash enc k = .ok sig) :
    haveI : Fact c.curve.p.Prime := ⟨(curveOk_of_mem hc).prime_p⟩
    ∃ g : (W c.curve).Point, Rep c.curve c.generator g ∧
    ∃ nonce : Int, (k = some nonce ∨ (k = none ∧ ∃ m : Nat, nonce = m ∧ randrange c.order ent = .ok m)) ∧
      ∃ x y hxy, nonce • g = .some x y hxy ∧
        sk.getVerifyingKey.verify F sig data hash dec =
          if x.val < c.order then .ok true else .error .badSignature := by
  have hok := curveOk_of_mem hc
  haveI : Fact c.curve.p.Prime := ⟨hok.prime_p⟩
  simp only [HSigningKey.fromSecretExponent, bind_ok_iff] at hsk
  obtain ⟨sk0, hsk0, hsk⟩ := hsk
  cases hsk
  have hcur : sk0.curve = c := by
    obtain ⟨-, -, _, _, _, -, -, -, -, rfl⟩ := fromSecretExponent_sound hsk0; rfl
  cases k with
  | some k =>
    simp only [HSigningKey.sign] at hs
    obtain ⟨g, hg, x, y, hxy, e1, e2⟩ := signDigest_verify hok (prime_order_of_mem hc) hsk0 hf hs
    exact ⟨g, hg, k, Or.inl rfl, x, y, hxy, e1, e2⟩
  | none =>
    simp only [HSigningKey.sign, SigningKey.signDigestRandom] at hs
    split at hs
    · cases hs
    · rename_i hlen
      simp only [bind_ok_iff] at hs
      obtain ⟨number, hnum, m, hm, rs, hrs, henc⟩ := hs
      have hs' : sk0.signDigest (F.digest (hash.getD h) data) (fun r s => enc r s sk0.curve.order) (m : Int)
          = .ok sig := by
        simp only [SigningKey.signDigest, if_neg hlen, hnum, ok_bind, hrs]
        exact henc
      obtain ⟨g, hg, x, y, hxy, e1, e2⟩ := signDigest_verify hok (prime_order_of_mem hc) hsk0 hf hs'
      exact ⟨g, hg, (m : Int), Or.inr ⟨rfl, m, rfl, by rw [← hcur]; exact hm⟩, x, y, hxy, e1, e2⟩

/-- C95.  What signing with a given nonce does, for a hash function whose output is at most as long
as the order: the two textbook numbers are encoded, and only when one of them is zero is there a
`RuntimeError` instead. -/
theorem C95_sign_value {σ : Type} (F : HashFamily) (c : Curve) (hc : c ∈ curves)
    (d : Int) (h : HashName) (sk : HSigningKey)
    (hsk : HSigningKey.fromSecretExponent d c h = .ok sk) (enc : Int → Int → Nat → Py σ) (data : Bytes)
    (ent : Nat → Nat → Bytes) (hash : HashName) (hl : hash.size ≤ c.baselen) (k : Int) (hk1 : 1 ≤ k)
    (hk2 : k < c.order) :
    haveI : Fact c.curve.p.Prime := ⟨(curveOk_of_mem hc).prime_p⟩
    ∃ g : (W c.curve).Point, Rep c.curve c.generator g ∧
    ∃ x y hxy kinv, k • g = .some x y hxy ∧ (k * kinv) % (c.order : Int) = 1 ∧
      let s := (kinv * ((bytesVal (F.digest hash data) : Int) + d * (x.val : Int))) % (c.order : Int)
      sk.sign F data ent (some hash) enc (some k) =
        if x = 0 ∨ s = 0 then .error .runtimeError else enc (x.val : Int) s c.order := by
  have hok := curveOk_of_mem hc
  haveI : Fact c.curve.p.Prime := ⟨hok.prime_p⟩
  simp only [HSigningKey.fromSecretExponent, bind_ok_iff] at hsk
  obtain ⟨sk0, hsk0, hsk⟩ := hsk
  cases hsk
  obtain ⟨g, hG⟩ := hok.genOk (prime_order_of_mem hc)
  obtain ⟨P, rfl, hP⟩ := hok.keyOk hG hsk0
  refine ⟨g, hG.rep, ?_⟩
  have hk0 : k % (c.order : Int) ≠ 0 := by rw [Int.emod_eq_of_lt (by omega) hk2]; omega
  obtain ⟨x, y, hxy, kinv, e1, e2, e3⟩ :=
    (sign_spec (P := P) hG d (bytesVal (F.digest hash data) : Int) k).2 hk0
  refine ⟨x, y, hxy, kinv, e1, e2, ?_⟩
  have hdl := F.digest_length hash data
  have hnl : ¬ ((F.digest hash data).length > c.baselen) := by omega
  have hnn : F.digest hash data ≠ [] := by
    intro h0
    rw [h0] at hdl
    cases hash <;> simp [HashName.size] at hdl
  have hnum := stringToNumber_eq _ hnn
  have ha : pyAssert (decide (1 ≤ k) && decide (k < (c.order : Int))) = .ok () := by
    rw [pyAssert_ok_iff, Bool.and_eq_true, decide_eq_true_eq, decide_eq_true_eq]; exact ⟨hk1, hk2⟩
  simp only [HSigningKey.sign, Option.getD_some, SigningKey.signDigest, if_neg hnl, hnum, ok_bind,
    SigningKey.signNumber, ha]
  simp only at e3
  rw [e3]
  split
  · rfl
  · rfl

theorem rep_unique {C : CurveFp} {P : Pt} {Q Q' : (W C).Point} (h : Rep C P Q) (h' : Rep C P Q') : Q = Q' := by
  cases P with
  | inf => exact Eq.trans h (Eq.symm h')
  | aff x y o =>
    obtain ⟨-, -, h1, rfl⟩ := h
    obtain ⟨-, -, h2, rfl⟩ := h'
    rfl

/-- Whether a call returns. -/
def isOk {α : Type} : Py α → Bool
  | .ok _ => true
  | .error _ => false

theorem isOk_iff {α : Type} {r : Py α} : isOk r = true ↔ ∃ a, r = .ok a := by
  cases r <;> simp [isOk]

theorem small_keys : isOk (SigningKey.fromSecretExponent 1 secp256k1) = true ∧
    isOk (SigningKey.fromSecretExponent 2 secp256k1) = true := by
  constructor <;> decide +kernel

/-- C95 is false on SECP256k1: for any data and hash function there are a key and a nonce for which the
signature is not accepted by the matching verifying key. -/
theorem C95_sign_verify_false (F : HashFamily) (data : Bytes) (h : HashName) (hl : h.size ≤ 32)
    (ent : Nat → Nat → Bytes) :
    ∃ (d : Int) (sk : HSigningKey) (k : Int) (sig : Bytes),
      HSigningKey.fromSecretExponent d secp256k1 h = .ok sk ∧
      sk.sign F data ent (some h) sigencodeString (some k) = .ok sig ∧
      sk.getVerifyingKey.verify F sig data (some h) sigdecodeString = .error .badSignature := by
  have hmem : secp256k1 ∈ curves := by simp [curves]
  have hc : Secp.K.containsPoint ((Secp.n + 2 : Nat) : Int)
      0x36b1aa62eb77c1973025cbcbea9740eed8eacdab8772268b395064453269d1d3 = true := by decide +kernel
  set Q : (W Secp.K).Point := .some _ _ (nonsingular_of_equation Secp.good ((containsPoint_iff _ _ _).mp hc))
    with hQ
  obtain ⟨k, hk, hQk⟩ := Secp.exists_smul Q
  have hk1 : 1 ≤ k := by
    rcases Nat.eq_zero_or_pos k with rfl | h0
    · exact absurd (hQk.trans (zero_nsmul _)) (WeierstrassCurve.Affine.Point.some_ne_zero _ : Q ≠ 0)
    · exact h0
  -- a key for which the second number of the signature is not zero
  have hd : ∃ d : Int, (d = 1 ∨ d = 2) ∧
      ¬ (Secp.n : Int) ∣ (bytesVal (F.digest h data) : Int) + d * ((Secp.n + 2 : Nat) : Int) := by
    by_cases h1 : (Secp.n : Int) ∣ (bytesVal (F.digest h data) : Int) + 1 * ((Secp.n + 2 : Nat) : Int)
    · refine ⟨2, .inr rfl, fun h2 => ?_⟩
      have := Int.dvd_sub h2 h1
      rw [show (bytesVal (F.digest h data) : Int) + 2 * ((Secp.n + 2 : Nat) : Int) -
        ((bytesVal (F.digest h data) : Int) + 1 * ((Secp.n + 2 : Nat) : Int)) = ((Secp.n + 2 : Nat) : Int) by ring] at this
      revert this
      decide
    · exact ⟨1, .inl rfl, h1⟩
  obtain ⟨d, hd12, hd⟩ := hd
  obtain ⟨sk, hsk⟩ : ∃ sk, HSigningKey.fromSecretExponent d secp256k1 h = .ok sk := by
    obtain ⟨sk0, h0⟩ : ∃ sk0, SigningKey.fromSecretExponent d secp256k1 = .ok sk0 := by
      rcases hd12 with rfl | rfl
      · exact isOk_iff.1 small_keys.1
      · exact isOk_iff.1 small_keys.2
    exact ⟨_, by simp only [HSigningKey.fromSecretExponent, h0, ok_bind]; rfl⟩
  obtain ⟨g, hg, x, y, hxy, kinv, e1, e2, e3⟩ := C95_sign_value F secp256k1 hmem d h sk hsk sigencodeString data
    ent h hl k (by exact_mod_cast hk1) (by exact_mod_cast hk)
  have hgg : g = Secp.g := rep_unique hg (Secp.rep_g _)
  subst hgg
  have e1' := e1
  rw [natCast_zsmul] at e1'
  have e1'' : Q = .some x y hxy := hQk.trans e1'
  rw [hQ, WeierstrassCurve.Affine.Point.some.injEq] at e1''
  have hxv : x.val = Secp.n + 2 := by
    rw [← e1''.1]
    have : (((Secp.n + 2 : Nat) : Int) : ZMod Secp.K.p) = ((Secp.n + 2 : Nat) : ZMod Secp.K.p) := by
      push_cast; rfl
    rw [this, ZMod.val_natCast_of_lt (by decide)]
  have hx0 : x ≠ 0 := by
    rintro rfl
    rw [ZMod.val_zero] at hxv
    omega
  have hs0 : (kinv * ((bytesVal (F.digest h data) : Int) + d * (x.val : Int))) % (secp256k1.order : Int) ≠ 0 := by
    intro h0
    have hdv := Int.dvd_of_emod_eq_zero h0
    rcases (Nat.prime_iff_prime_int.mp Secp.prime_n).dvd_mul.mp hdv with h' | h'
    · obtain ⟨t, rfl⟩ := h'
      rw [show (k : Int) * ((Secp.n : Int) * t) = (Secp.n : Int) * (k * t) by ring] at e2
      rw [show ((secp256k1.order : Nat) : Int) = (Secp.n : Int) from rfl, Int.mul_emod_right] at e2
      omega
    · rw [hxv] at h'
      exact hd h'
  simp only at e3
  rw [if_neg (by tauto)] at e3
  have hn0 : (0 : Int) < (secp256k1.order : Int) := by decide
  obtain ⟨s, hs⟩ := Int.eq_ofNat_of_zero_le (Int.emod_nonneg
    (kinv * ((bytesVal (F.digest h data) : Int) + d * (x.val : Int))) (ne_of_gt hn0))
  have hslt := Int.emod_lt_of_pos (kinv * ((bytesVal (F.digest h data) : Int) + d * (x.val : Int))) hn0
  rw [hs] at hs0 hslt e3
  obtain ⟨sig, hsig, -⟩ := (C95_codecs secp256k1 hmem).1 x.val s (by omega) (ZMod.val_lt x) (by omega) (by omega)
  rw [hsig] at e3
  refine ⟨d, sk, k, sig, hsk, e3, ?_⟩
  obtain ⟨g', hg', k', hk', x', y', hxy', f1, f2⟩ := C95_sign_verify_partial F secp256k1 hmem d h sk hsk
    sigencodeString sigdecodeString (C95_codecs secp256k1 hmem).1 data ent (some h) (some (k : Int)) sig e3
  have hgg : g' = Secp.g := rep_unique hg' (Secp.rep_g _)
  subst hgg
  have hkk : k' = (k : Int) := by
    rcases hk' with h' | ⟨h', -⟩
    · injection h' with h'; exact h'.symm
    · cases h'
  rw [f2, if_neg]
  rw [hkk] at f1
  have := f1.symm.trans e1
  rw [WeierstrassCurve.Affine.Point.some.injEq] at this
  rw [this.1, hxv]
  decide

/-- C95.  A digest longer than the order is refused by signing and by verification alike. -/
theorem C95_long_digest {σ : Type} (F : HashFamily) (sk : HSigningKey) (vk : HVerifyingKey)
    (data : Bytes) (ent : Nat → Nat → Bytes) (hash : HashName) (enc : Int → Int → Nat → Py σ)
    (dec : σ → Nat → Py (Nat × Nat)) (k : Option Int) (sig : σ) :
    (sk.key.curve.baselen < hash.size → sk.sign F data ent (some hash) enc k = .error .badDigest) ∧
    (vk.key.curve.baselen < hash.size → vk.verify F sig data (some hash) dec = .error .badDigest) := by
  constructor
  · intro h
    have hl : (F.digest hash data).length > sk.key.curve.baselen := by rw [F.digest_length]; exact h
    cases k with
    | some k => simp only [HSigningKey.sign, Option.getD_some, SigningKey.signDigest, if_pos hl]
    | none => simp only [HSigningKey.sign, Option.getD_some, SigningKey.signDigestRandom, if_pos hl]
  · intro h
    have hl : (F.digest hash data).length > vk.key.curve.baselen := by rw [F.digest_length]; exact h
    simp only [HVerifyingKey.verify, Option.getD_some, VerifyingKey.verifyDigest, if_pos hl]

/-- SHA-256 does not fit NIST192p. -/
example : nist192p.baselen < HashName.size .sha256 := by decide +kernel

/-! ### C96 -/

/-- C96.  The nonce: under Python 2 division, for a private key below the order and a non-empty
digest, `generate_k` returns exactly the nonces that RFC 6979 defines.  (Under Python 3 division this
holds for the first candidate, `C33_first_candidate_partial`, and fails afterwards,
`C33_division_false`.) -/
theorem C96_rfc6979_partial (hmac : Bytes → Bytes → Bytes) (hh : ∀ k m, 0 < (hmac k m).length)
    (hlen q qlen x : Nat) (hq : 1 ≤ qlen) (h1 : 2 ^ (qlen - 1) ≤ q) (h2 : q < 2 ^ qlen) (hx : x < q)
    (digest : Bytes) (hd : digest ≠ []) (k : Nat) :
    (∃ fuel, generateK hmac hlen false q x digest fuel = .ok (some k)) ↔
      Rfc6979.Nonce hmac hlen q qlen x digest k := by
  have e1 : numberToString x q = .ok (Rfc6979.int2octets qlen x) := by
    rw [numberToString_eq (lt_trans hx (lt_256_pow_orderlen q)), Rfc6979.int2octets,
      orderlen_eq hq h1 h2]
  have e2 := bits2octets_spec hq h1 h2 hd
  have e3 := bitLength_eq hq h1 h2
  constructor
  · rintro ⟨fuel, h⟩
    simp only [generateK, e1, e2, e3, ok_bind] at h
    exact stepH_sound hh hq h
  · intro h
    obtain ⟨fuel, hf⟩ := stepH_complete hh hq h
    refine ⟨fuel, ?_⟩
    simp only [generateK, e1, e2, e3, ok_bind]
    exact hf

/-- C96.  On the curves of the library and with its hash functions, `sign_deterministic` does the same under both
divisions, except where the digest is as long as the order of a curve other than NIST521p. -/
theorem C96_divisions_partial {σ : Type} (F : HashFamily) (sk : HSigningKey) (hc : sk.key.curve ∈ curves)
    (data : Bytes) (hash : HashName) (enc : Int → Int → Nat → Py σ) (fuel : Nat)
    (h : sk.key.curve = nist521p ∨ sk.key.curve.baselen ≠ hash.size) :
    sk.signDeterministic F true data (some hash) enc fuel = sk.signDeterministic F false data (some hash) enc fuel := by
  have hag : 8 ∣ bitLength sk.key.curve.order + 7 ∨ ¬ hash.size ∣ (bitLength sk.key.curve.order + 7) / 8 := by
    generalize sk.key.curve = c at hc h
    simp only [curves, List.mem_cons, List.not_mem_nil, or_false] at hc
    rcases hc with rfl | rfl | rfl | rfl | rfl | rfl <;> cases hash <;> revert h <;> decide +kernel
  simp only [HSigningKey.signDeterministic, HSigningKey.signDigestDeterministic, Option.getD_some,
    C33_divisions_partial _ _ (F.hmac_length _) _ hag]

/-- C96.  `sign_deterministic` is `sign` with that nonce; two calls give the same signature. -/
theorem C96_deterministic {σ : Type} (F : HashFamily) (py3 : Bool) (sk : HSigningKey) (data : Bytes)
    (hash : Option HashName) (enc : Int → Int → Nat → Py σ) (fuel : Nat) (sig : σ)
    (h : sk.signDeterministic F py3 data hash enc fuel = .ok (some sig)) :
    (∃ k : Nat, 1 ≤ k ∧ k < sk.key.curve.order ∧
      generateK (F.hmac (hash.getD sk.defaultHash)) (hash.getD sk.defaultHash).size py3
        sk.key.curve.order sk.key.secretMultiplier (F.digest (hash.getD sk.defaultHash) data) fuel
        = .ok (some k) ∧
      ∀ ent, sk.sign F data ent hash enc (some k) = .ok sig) ∧
    ∀ fuel' sig', sk.signDeterministic F py3 data hash enc fuel' = .ok (some sig') → sig' = sig := by
  have key : ∀ fuel sig, sk.signDeterministic F py3 data hash enc fuel = .ok (some sig) →
      ∃ k : Nat, generateK (F.hmac (hash.getD sk.defaultHash)) (hash.getD sk.defaultHash).size py3
        sk.key.curve.order sk.key.secretMultiplier (F.digest (hash.getD sk.defaultHash) data) fuel
        = .ok (some k) ∧ ∀ ent, sk.sign F data ent hash enc (some (k : Int)) = .ok sig := by
    intro fuel sig h
    simp only [HSigningKey.signDeterministic, HSigningKey.signDigestDeterministic, bind_ok_iff] at h
    obtain ⟨ok, hk, h⟩ := h
    cases ok with
    | none => cases h
    | some k =>
      simp only [bind_ok_iff] at h
      obtain ⟨sig0, hs, h⟩ := h
      cases h
      exact ⟨k, hk, fun ent => hs⟩
  obtain ⟨k, hk, hs⟩ := key fuel sig h
  have hr := C33_range _ _ _ _ _ _ _ _ hk
  refine ⟨⟨k, hr.1, hr.2, hk, hs⟩, fun fuel' sig' h' => ?_⟩
  obtain ⟨k', hk', hs'⟩ := key fuel' sig' h'
  have : k = k' := C33_reproducible _ _ _ _ _ _ _ _ _ _ hk hk'
  subst this
  have := (hs (fun _ _ => [])).symm.trans (hs' (fun _ _ => []))
  cases this; rfl

/-- C96.  So it verifies as in C95: exactly if the x-coordinate of the nonce's point is below the order.
(Missing: the nonces for which it is not, as in `C95_sign_verify_false`.) -/
theorem C96_verify_partial {σ : Type} (F : HashFamily) (py3 : Bool) (c : Curve) (hc : c ∈ curves)
    (d : Int) (h : HashName) (sk : HSigningKey)
    (hsk : HSigningKey.fromSecretExponent d c h = .ok sk) (enc : Int → Int → Nat → Py σ)
    (dec : σ → Nat → Py (Nat × Nat)) (hf : Faithful c enc dec) (data : Bytes)
    (hash : Option HashName) (fuel : Nat) (sig : σ)
    (hs : sk.signDeterministic F py3 data hash enc fuel = .ok (some sig)) :
    haveI : Fact c.curve.p.Prime := ⟨(curveOk_of_mem hc).prime_p⟩
    ∃ g : (W c.curve).Point, Rep c.curve c.generator g ∧
    ∃ k : Nat, generateK (F.hmac (hash.getD h)) (hash.getD h).size py3 c.order d
        (F.digest (hash.getD h) data) fuel = .ok (some k) ∧
      ∃ x y hxy, (k : Int) • g = .some x y hxy ∧
        sk.getVerifyingKey.verify F sig data hash dec =
          if x.val < c.order then .ok true else .error .badSignature := by
  have hsk' := hsk
  simp only [HSigningKey.fromSecretExponent, bind_ok_iff] at hsk'
  obtain ⟨sk0, hsk0, hsk'⟩ := hsk'
  cases hsk'
  obtain ⟨⟨k, -, -, hk, hks⟩, -⟩ := C96_deterministic F py3 _ data hash enc fuel sig hs
  obtain ⟨g, hg, nonce, hn, x, y, hxy, e1, e⟩ := C95_sign_verify_partial F c hc d h _ hsk enc dec hf
    data (fun _ _ => []) hash _ sig (hks _)
  have hnk : nonce = k := by
    rcases hn with hn | ⟨hn, -⟩
    · cases hn; rfl
    · cases hn
  subst hnk
  obtain ⟨-, -, _, _, _, -, -, -, -, rfl⟩ := fromSecretExponent_sound hsk0
  exact ⟨g, hg, k, hk, x, y, hxy, e1, e⟩

/-- C96 is false for `sign_digest_deterministic` called as its signature suggests: without a hash
function it always raises `TypeError`. -/
theorem C96_default_hash_false {σ : Type} (F : HashFamily) (py3 : Bool) (sk : HSigningKey)
    (digest : Bytes) (enc : Int → Int → Nat → Py σ) (fuel : Nat) :
    sk.signDigestDeterministic F py3 digest none enc fuel = .error .typeError := rfl

/-- A keyed function of three bytes (not a real HMAC) and the order 2 ^ 20 - 3 of 20 bits: the
hypotheses hold, and the nonce is found. -/
example : (1 ≤ 20 ∧ 2 ^ (20 - 1) ≤ 1048573 ∧ 1048573 < 2 ^ 20) ∧
    generateK (fun k m => [(k ++ m).foldl (· + ·) 7, 2, 3]) 3 false 1048573 5 [1, 2] 3
      = .ok (some 905248) := by decide +kernel

/-! ### C97 -/

/-- C97.  A signing key keeps its default hash function through PEM when the caller names it again. -/
theorem C97_signing_key (c : Curve) (hc : c ∈ curves) (d : Int) (h : HashName) (sk : HSigningKey)
    (hsk : HSigningKey.fromSecretExponent d c h = .ok sk) :
    ∃ pem, sk.key.toPem = .ok pem ∧ HSigningKey.fromPem pem h = .ok sk := by
  simp only [HSigningKey.fromSecretExponent, bind_ok_iff] at hsk
  obtain ⟨sk0, hsk0, hsk⟩ := hsk
  cases hsk
  obtain ⟨⟨pem, a, b, -⟩, -⟩ := C92_signing_key c hc d sk0 hsk0
  exact ⟨pem, a, by simp only [HSigningKey.fromPem, b, ok_bind]; rfl⟩

/-- C97.  A verifying key with the default hash function SHA-1 survives PEM.  (Missing: the others.) -/
theorem C97_verifying_key_partial (c : Curve) (hc : c ∈ curves) (d : Int) (sk : HSigningKey)
    (hsk : HSigningKey.fromSecretExponent d c .sha1 = .ok sk) :
    ∃ pem vk, sk.getVerifyingKey.key.toPem = .ok pem ∧ HVerifyingKey.fromPem pem = .ok vk ∧
      vk.defaultHash = sk.getVerifyingKey.defaultHash ∧ vk.key.curve = c ∧
      Pt.eq vk.key.pubkey.point sk.getVerifyingKey.key.pubkey.point = true := by
  simp only [HSigningKey.fromSecretExponent, bind_ok_iff] at hsk
  obtain ⟨sk0, hsk0, hsk⟩ := hsk
  cases hsk
  obtain ⟨pem, vk, a, b, h1, h2, h3, h4⟩ := C92_verifying_key c hc d sk0 hsk0
  refine ⟨pem, ⟨vk, .sha1⟩, a, by simp only [HVerifyingKey.fromPem, b, ok_bind]; rfl, rfl, h1, ?_⟩
  obtain ⟨-, -, x, y, o, -, -, -, -, rfl⟩ := fromSecretExponent_sound hsk0
  exact h4

/-- C97 is false: whatever the default hash function of a verifying key was, the key read back from
PEM or DER has SHA-1. -/
theorem C97_verifying_key_false (c : Curve) (hc : c ∈ curves) (d : Int) (h : HashName)
    (hne : h ≠ .sha1) (sk : HSigningKey) (hsk : HSigningKey.fromSecretExponent d c h = .ok sk) :
    ∃ pem vk, sk.getVerifyingKey.key.toPem = .ok pem ∧ HVerifyingKey.fromPem pem = .ok vk ∧
      vk.defaultHash ≠ sk.getVerifyingKey.defaultHash := by
  simp only [HSigningKey.fromSecretExponent, bind_ok_iff] at hsk
  obtain ⟨sk0, hsk0, hsk⟩ := hsk
  cases hsk
  obtain ⟨pem, vk, a, b, -⟩ := C92_verifying_key c hc d sk0 hsk0
  exact ⟨pem, ⟨vk, .sha1⟩, a, by simp only [HVerifyingKey.fromPem, b, ok_bind]; rfl, hne.symm⟩

/-- There is such a key on SECP256k1 with SHA-256. -/
example : ∃ sk, HSigningKey.fromSecretExponent 1 secp256k1 .sha256 = .ok sk := by
  obtain ⟨x, y, o, -, hp, hok, -⟩ := Secp.fromSecretExponent_secp (d := 1) (by decide) (by decide)
  obtain ⟨rfl, rfl⟩ := hp.unique (show Secp.PubPoint 1
      0x79be667ef9dcbbac55a06295ce870b07029bfcdb2dce28d959f2815b16f81798
      0x483ada7726a3c4655da4fbfc0e1108a8fd17b448a68554199c47d08ffb10d4b8 from
    ⟨by decide, by decide, nonsingular_of_equation Secp.good
      ((containsPoint_iff Secp.K _ _).mp Secp.gen_contains), by rw [one_zsmul]; rfl⟩)
  have := hok ⟨by decide, by decide⟩
  exact ⟨⟨_, .sha256⟩, by simp only [HSigningKey.fromSecretExponent, this, ok_bind]; rfl⟩

end NBC.Props
