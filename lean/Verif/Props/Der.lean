import Verif.Proofs.Der

/-!
# DER: C29, C30, C31

`256 ^ 127` is the largest length the long form of a DER length can express; no Python object is
anywhere near that long, but the theorems say it rather than assume it.
-/

namespace NBC.Props
open NBC NBC.Der NBC.Spec

/-- **C29**: `sigencode_der` followed by either decoder gives back `(r, s)`; the liberal decoder of
`ecc.py` does so whatever follows the signature. -/
theorem C29_der_signature (r s : Nat) (hr : r < 2 ^ 1015) (hs : s < 2 ^ 1015) :
    ∃ sig, sigencodeDer r s = .ok sig ∧ sigdecodeDer sig = .ok (r, s) ∧
      ∀ junk, eccSigdecodeDer (sig ++ junk) = .ok (r, s) :=
  sig_roundtrip r s hr hs

/-- The signature `(0x80, 5)` is `30 07 02 02 00 80 02 01 05`. -/
example : sigencodeDer 0x80 5 = .ok [0x30, 7, 2, 2, 0, 0x80, 2, 1, 5] := by decide +kernel
example : sigdecodeDer [0x30, 7, 2, 2, 0, 0x80, 2, 1, 5] = .ok (0x80, 5) := by decide +kernel

/-- **C30** (lengths): `read_length` reads back any length `encode_length` wrote and reports how
many bytes it took, whatever follows. -/
theorem C30_length (l : Nat) (h : l < 256 ^ 127) (rest : Bytes) :
    ∃ e, encodeLength l = .ok e ∧ readLength (e ++ rest) = .ok (l, e.length) :=
  ⟨_, encodeLength_eq h, readLength_lenBytes h rest⟩

example : encodeLength 127 = .ok [127] ∧ encodeLength 128 = .ok [0x81, 128]
    ∧ encodeLength 300 = .ok [0x82, 1, 44] := by decide +kernel

/-- **C30** (base-128 numbers). -/
theorem C30_number (n : Nat) (rest : Bytes) :
    readNumber (encodeNumber n ++ rest) = .ok (n, (encodeNumber n).length) :=
  readNumber_encodeNumber n rest

example : encodeNumber 10045 = [0xce, 0x3d] := by decide +kernel

/-- **C30** (octet strings). -/
theorem C30_octet_string (body rest : Bytes) (h : body.length < 256 ^ 127) :
    ∃ e, encodeOctetString body = .ok e ∧ removeOctetString (e ++ rest) = .ok (body, rest) :=
  ⟨_, encodeOctetString_eq h, removeOctetString_tlv body rest h⟩

/-- **C30** (bit strings; the body includes the unused-bits byte, as in the code). -/
theorem C30_bitstring (body rest : Bytes) (h : body.length < 256 ^ 127) :
    ∃ e, encodeBitstring body = .ok e ∧ removeBitstring (e ++ rest) = .ok (body, rest) :=
  ⟨_, encodeBitstring_eq h, removeBitstring_tlv body rest h⟩

/-- **C30** (sequences): the body is the concatenation of the pieces. -/
theorem C30_sequence (pieces : List Bytes) (rest : Bytes) (h : pieces.flatten.length < 256 ^ 127) :
    ∃ e, encodeSequence pieces = .ok e ∧ removeSequence (e ++ rest) = .ok (pieces.flatten, rest) :=
  ⟨_, encodeSequence_eq h, removeSequence_tlv _ rest h⟩

/-- **C30** (constructed, context tags 0–31). -/
theorem C30_constructed (tag : Nat) (ht : tag < 32) (body rest : Bytes)
    (h : body.length < 256 ^ 127) :
    ∃ e, encodeConstructed tag body = .ok e ∧
      removeConstructed (e ++ rest) = .ok (tag, body, rest) :=
  ⟨_, encodeConstructed_eq (by omega) h, removeConstructed_tlv ht body rest h⟩

/-- **C30** (object identifiers): any identifier with arcs `first ≤ 2`, `second ≤ 39`. -/
theorem C30_object (first second : Nat) (pieces : List Nat) (rest : Bytes) (h1 : first ≤ 2)
    (h2 : second ≤ 39) (h : 1 + (pieces.flatMap encodeNumber).length < 256 ^ 127) :
    ∃ e, encodeOid first second pieces = .ok e ∧
      removeObject (e ++ rest) = .ok (first :: second :: pieces, rest) := by
  have h' : (((40 * first + second) :: pieces).flatMap encodeNumber).length < 256 ^ 127 := by
    rw [List.flatMap_cons, encodeNumber_small (by omega), List.length_append]
    exact h
  refine ⟨_, encodeOid_eq h1 h2 h', ?_⟩
  rw [removeObject_tlv _ _ _ h', show (40 * first + second) / 40 = first by omega,
    show 40 * first + second - 40 * first = second by omega]

/-- The secp256k1 object identifier. -/
example : encodeOid 1 3 [132, 0, 10] = .ok [6, 5, 0x2b, 0x81, 4, 0, 10] := by decide +kernel
example : removeObject [6, 5, 0x2b, 0x81, 4, 0, 10, 99] = .ok ([1, 3, 132, 0, 10], [99]) := by
  decide +kernel

/-- **C30** (other types): an element that begins with another tag is refused with `UnexpectedDER` by each of the
decoders; a constructed one is one with a tag byte from `0xa0` to `0xbf`. -/
theorem C30_other_tag (b : UInt8) (s : Bytes) :
    (b ≠ 0x30 → removeSequence (b :: s) = .error .unexpectedDER) ∧
    (b ≠ 0x04 → removeOctetString (b :: s) = .error .unexpectedDER) ∧
    (b ≠ 0x03 → removeBitstring (b :: s) = .error .unexpectedDER) ∧
    (b ≠ 0x06 → removeObject (b :: s) = .error .unexpectedDER) ∧
    (b ≠ 0x02 → removeInteger (b :: s) = .error .unexpectedDER) ∧
    (b.toNat < 0xa0 ∨ 0xbf < b.toNat → removeConstructed (b :: s) = .error .unexpectedDER) := by
  have hb : ∀ b : Fin 256, b.val < 0xa0 ∨ 0xbf < b.val → b.val &&& 0xe0 ≠ 0xa0 := by decide +kernel
  refine ⟨fun h => ?_, fun h => ?_, fun h => ?_, fun h => ?_, fun h => ?_, fun h => ?_⟩
  · simp only [removeSequence, expectTag, if_neg h]; rfl
  · simp only [removeOctetString, expectTag, if_neg h]; rfl
  · simp only [removeBitstring, expectTag, if_neg h]; rfl
  · simp only [removeObject, expectTag, if_neg h]; rfl
  · simp only [removeInteger, expectTag, if_neg h]; rfl
  · have := hb ⟨b.toNat, b.toNat_lt⟩ h
    simp only at this
    have hi : pyIndex (b :: s) 0 = .ok b := rfl
    simp only [removeConstructed, hi, Bind.bind, Except.bind, if_pos this]

/-- **C30** (nothing made up): what a decoder of a body returns is a part of the string in its place: the tag byte, a
length, and then the body, cut short if the string is, and the rest. -/
theorem C30_parts (s body rest : Bytes) (h : removeSequence s = .ok (body, rest) ∨ removeOctetString s = .ok (body, rest) ∨
    removeBitstring s = .ok (body, rest)) :
    ∃ b l, s = b :: l ++ body ++ rest := by
  have key : ∀ s : Bytes, cutBody s = .ok (body, rest) → s ≠ [] → ∃ b l, s = b :: l ++ body ++ rest := by
    intro s h hs
    unfold cutBody at h
    cases hr : readLength (s.drop 1) with
    | error e => rw [hr] at h; cases h
    | ok nm =>
    rw [hr] at h
    obtain ⟨n, m⟩ := nm
    cases h
    cases s with
    | nil => exact absurd rfl hs
    | cons b t =>
      refine ⟨b, t.take m, ?_⟩
      rw [Nat.add_comm 1 m, List.drop_succ_cons, Nat.add_right_comm, List.drop_succ_cons, ← List.drop_drop,
        List.append_assoc, List.take_append_drop, List.cons_append, List.take_append_drop]
  have hne : ∀ t : UInt8, expectTag t s = .ok () → s ≠ [] := by
    rintro t h rfl
    cases h
  have hb : ∀ t : UInt8, (do expectTag t s; cutBody s) = .ok (body, rest) → ∃ b l, s = b :: l ++ body ++ rest := by
    intro t h
    cases he : expectTag t s with
    | error e => rw [he] at h; cases h
    | ok u =>
      rw [he] at h
      exact key s h (hne t he)
  rcases h with h | h | h
  · exact hb _ h
  · exact hb _ h
  · exact hb _ h

example : removeOctetString [4, 3, 7, 8, 9, 10] = .ok ([7, 8, 9], [10]) ∧
    removeOctetString [4, 3, 7] = .ok ([7], []) ∧
    removeConstructed [0x9f, 1, 2] = .error .unexpectedDER := by decide +kernel

/-- **C30** (integers): the encoding is tag 2, a length and the content, the content is the
big-endian value with the sign bit clear, and it is the shortest such content. -/
theorem C30_integer_form (n : Nat) (h : n < 2 ^ 1015) :
    ∃ c t, encodeInteger n = .ok (2 :: UInt8.ofNat (t.length + 1) :: c :: t) ∧
      t.length + 1 < 128 ∧ c.toNat < 128 ∧ bytesVal (c :: t) = n ∧
      ∀ c' t', c'.toNat < 128 → bytesVal (c' :: t') = n → t.length ≤ t'.length := by
  have hl := (intBody_length_le n 127 (by omega)).2 h
  have he := encodeInteger_eq h
  clear h
  obtain ⟨c, t, hb, hc⟩ := intBody_head n
  have hv := bytesVal_intBody n
  have hle := fun k hk => (intBody_length_le n k hk)
  rw [hb] at hl he hv hle
  simp only [List.length_cons] at hl hle
  have h2 : t.length + 1 < 128 := by omega
  refine ⟨c, t, ?_, h2, hc, hv, fun c' t' hc' hv' => ?_⟩
  · rw [he]; simp [tlv, lenBytes, h2]
  · have := bytesVal_lt_of_head (t := t') hc'
    rw [hv'] at this
    have := (hle (t'.length + 1) (by omega)).2 this
    omega

/-- **C31**, as far as it goes: integers of up to 127 content bytes survive, whatever follows. -/
theorem C31_integer_partial (n : Nat) (h : n < 2 ^ 1015) (rest : Bytes) :
    ∃ e, encodeInteger n = .ok e ∧ removeInteger (e ++ rest) = .ok (n, rest) := by
  have hl := (intBody_length_le n 127 (by omega)).2 h
  refine ⟨_, encodeInteger_eq h, removeInteger_tlv n rest (lt_of_le_of_lt hl (by decide +kernel))⟩

/-- **C31** is false, and exactly from `2 ^ 1015` on: no larger integer survives. -/
theorem C31_integer_false (n : Nat) (h : 2 ^ 1015 ≤ n) (rest : Bytes) :
    ¬ ∃ e, encodeInteger n = .ok e ∧ removeInteger (e ++ rest) = .ok (n, rest) := by
  rintro ⟨e, he, hr⟩
  have hl : ¬ (intBody n).length ≤ 127 := by
    rw [intBody_length_le n 127 (by omega)]
    exact not_lt.2 h
  clear h
  rw [encodeInteger_unfold] at he
  by_cases h2 : (intBody n).length < 256
  · rw [int2byte_ok h2] at he
    simp only [Except.map, Except.ok.injEq] at he
    subst he
    exact removeInteger_long (by omega) h2 rest (by simpa using hr)
  · rw [int2byte_big (by omega)] at he
    cases he

/-- Both regions are inhabited: a curve order below, an RSA-sized number above. -/
example : (2 : Nat) ^ 521 < 2 ^ 1015 ∧ (2 : Nat) ^ 1015 ≤ 2 ^ 2048 :=
  ⟨Nat.pow_lt_pow_right (by omega) (by omega), Nat.pow_le_pow_right (by omega) (by omega)⟩

/-- A negative integer is an `AssertionError` (`der.py:13`), never a wrong encoding. -/
theorem C31_negative (r : Int) (h : r < 0) : encodeInteger r = .error .assertionError := by
  have : decide (r ≥ 0) = false := by simp; omega
  simp [encodeInteger, pyAssert, this, Bind.bind, Except.bind]

end NBC.Props
