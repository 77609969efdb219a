import Verif.Proofs.Key

/-!
# Properties C01-C07: base58, WIF, addresses, fixed-width integers
-/

namespace NBC.Props
open NBC Spec Base58 Key

/-- C01: decoding an encoded string returns it, for every byte string. -/
theorem C01_base58_roundtrip (v : Bytes) : b58decode (b58encode v) = .ok v :=
  b58decode_b58encode v

/-- A case with two leading zero bytes. -/
example : b58encode [0, 0, 255, 1] = ascii "11LQY" ∧
    b58decode (ascii "11LQY") = .ok [0, 0, 255, 1] := by decide

/-- C02: on texts over the base58 characters decoding succeeds and is inverse to encoding; any
other character is rejected with `ValueError`. -/
theorem C02_base58_canonical (s : Bytes) :
    ((∀ c ∈ s, c ∈ base58Chars) → ∃ v, b58decode s = .ok v ∧ b58encode v = s) ∧
    ((∃ c ∈ s, c ∉ base58Chars) → b58decode s = .error .valueError) := by
  have hA : base58Chars = alphabet := by decide
  rw [hA]
  constructor
  · intro h
    obtain ⟨v, hv⟩ := b58decode_total s h
    exact ⟨v, hv, b58encode_of_decode s v hv⟩
  · rintro ⟨c, hc, hca⟩
    exact b58decode_bad s c hc hca

/-- C02 (uniqueness): two texts that decode to the same bytes are equal. -/
theorem C02_base58_decode_injective (s t v : Bytes)
    (hs : b58decode s = .ok v) (ht : b58decode t = .ok v) : s = t := by
  rw [← b58encode_of_decode s v hs, b58encode_of_decode t v ht]

example : b58decode (ascii "10") = .error .valueError ∧ b58decode (ascii "1z") = .ok [0, 57] := by
  decide

/-- C03: base58check round trip, and nothing but genuine base58check text is accepted. -/
theorem C03_base58check (H : Hashes) :
    (∀ v, decodeCheck H (encodeCheck H v) = .ok (some v)) ∧
    (∀ s r, decodeCheck H s = .ok (some r) → s = encodeCheck H r) :=
  ⟨decodeCheck_encodeCheck H, fun s r h => (encodeCheck_of_decodeCheck H s r h).symm⟩

/-- C03, said about checksums: for a payload followed by four bytes the decoder returns the payload
exactly when these are the first four bytes of the double SHA-256 of the payload. -/
theorem C03_checksum_enforced (H : Hashes) (v check : Bytes) (hc : check.length = 4) :
    decodeCheck H (b58encode (v ++ check)) =
      .ok (if check = (H.sha256 (H.sha256 v)).take 4 then some v else none) := by
  have h1 : (v ++ check).length - 4 = v.length := by simp [hc]
  simp only [decodeCheck, b58decode_b58encode, Bind.bind, Except.bind, h1, List.take_left,
    List.drop_left, Hashes.sha256d, Pure.pure, Except.pure, eq_comm (a := check)]
  split <;> rfl

example : decodeCheck Hashes.toy (b58encode ([1, 2, 3] ++ [1, 2, 3, 0xa5])) = .ok (some [1, 2, 3]) ∧
    decodeCheck Hashes.toy (b58encode ([1, 2, 3] ++ [1, 2, 3, 0xa6])) = .ok none := by decide

/-- C04: importing an exported key returns it, for every 32-byte key and every checksum. -/
theorem C04_wif_roundtrip (H : Hashes) (k : Bytes) (hk : k.length = 32) :
    privkeyFromWif H (privkeyToWif H k) = .ok k ∧
    privkeyFromWif H (privkeyToWif H (k ++ [1])) = .ok k :=
  ⟨wif_roundtrip_uncompressed H k hk, wif_roundtrip_compressed H k hk⟩

/-- C04: first characters of WIF texts. -/
theorem C04_wif_first_character (H : Hashes) (k : Bytes) (hk : k.length = 32) :
    (privkeyToWif H k).head? = (ascii "5").head? ∧
    ((privkeyToWif H (k ++ [1])).head? = (ascii "K").head? ∨
     (privkeyToWif H (k ++ [1])).head? = (ascii "L").head?) :=
  ⟨wif_head_uncompressed H k hk, wif_head_compressed H _ (by simp [hk])⟩

example : privkeyFromWif Hashes.toy (privkeyToWif Hashes.toy (List.replicate 32 7)) =
    .ok (List.replicate 32 7) := by decide +kernel

/-- C05: whatever `privkey_from_wif` accepts is a 32-byte key whose WIF text is the input. -/
theorem C05_wif_sound (H : Hashes) (w k : Bytes) (h : privkeyFromWif H w = .ok k) :
    k.length = 32 ∧ (w = privkeyToWif H k ∨ w = privkeyToWif H (k ++ [1])) :=
  privkeyFromWif_sound H w k 0x80 h

/-- The hypothesis is met by a real WIF text, and some texts are rejected. -/
example : privkeyFromWif Hashes.toy (privkeyToWif Hashes.toy (List.replicate 32 7 ++ [1])) =
      .ok (List.replicate 32 7) ∧
    privkeyFromWif Hashes.toy (privkeyToWif Hashes.toy (List.replicate 32 7 ++ [2])) =
      .error .valueError := by decide +kernel

/-- C06: an address text decodes to version, four hexadecimal digits of the vcn, key hash. -/
theorem C06_address_layout (H : Hashes) (version hash : Bytes) (vcn : Int) :
    decodeCheck H (pubkeyhashToAddress H hash vcn version) =
      .ok (some (version ++ hex4 (vcn % 65536).toNat ++ hash)) := by
  have h : (vcn % 65536) = (((vcn % 65536).toNat : Nat) : Int) := by omega
  rw [pubkeyhashToAddress, decodeCheck_encodeCheck]
  rw [h, fmtHexPad4 _ (by omega), ← h]

/-- C06: equal address texts come from equal version, vcn modulo 65536 and key hash. -/
theorem C06_address_injective (H : Hashes) (ver ver' hash hash' : Bytes) (vcn vcn' : Int)
    (hv : ver.length = ver'.length)
    (h : pubkeyhashToAddress H hash vcn ver = pubkeyhashToAddress H hash' vcn' ver') :
    ver = ver' ∧ vcn % 65536 = vcn' % 65536 ∧ hash = hash' := by
  have h1 := C06_address_layout H ver hash vcn
  rw [h, C06_address_layout H ver' hash' vcn'] at h1
  simp only [Except.ok.injEq, Option.some.injEq, List.append_assoc] at h1
  obtain ⟨e1, e2⟩ := List.append_inj h1 hv.symm
  obtain ⟨e3, e4⟩ := List.append_inj e2 (by simp [hex4])
  have := hex4_inj (by omega) (by omega) e3
  exact ⟨e1.symm, by omega, e4.symm⟩

/-- C06 for `publickey_to_address`: the text determines version, vcn and the digest of the key. -/
theorem C06_publickey_address_layout (H : Hashes) (version key : Bytes) (vcn : Int) :
    decodeCheck H (publickeyToAddress H key vcn version) =
      .ok (some (version ++ hex4 (vcn % 65536).toNat ++
        H.sha256 (H.ripemd160 ((H.sha512 key).take 32) ++ H.ripemd160 ((H.sha512 key).drop 32)))) :=
  C06_address_layout H version _ vcn

/-- A negative vcn wraps: `-1` gives `ffff`. -/
example : hex4 ((-1 : Int) % 65536).toNat = ascii "ffff" := by decide

/-- C07: `number_to_string` gives the fixed-width big-endian text exactly for the numbers that fit,
and raises for every other integer. -/
theorem C07_number_to_string (n : Int) (order : Nat) :
    (∀ s, numberToString n order = .ok s ↔
      (0 ≤ n ∧ n < 256 ^ orderlen order ∧ s = beBytes (orderlen order) n.toNat)) := by
  intro s
  by_cases hn : n < 0
  · rw [numberToString_neg hn]; constructor
    · intro h; cases h
    · intro h; omega
  · obtain ⟨m, rfl⟩ := Int.eq_ofNat_of_zero_le (not_lt.1 hn)
    by_cases hb : m < 256 ^ orderlen order
    · rw [numberToString_eq hb]
      constructor
      · intro h; cases h
        exact ⟨by omega, by exact_mod_cast hb, rfl⟩
      · rintro ⟨_, _, rfl⟩; rfl
    · obtain ⟨e, he⟩ := numberToString_big (not_lt.1 hb)
      rw [he]
      constructor
      · intro h; cases h
      · rintro ⟨_, h, _⟩
        exact absurd (by exact_mod_cast h) hb

/-- C07: round trips between integers and fixed-width strings. -/
theorem C07_roundtrips (order : Nat) :
    (∀ n : Nat, n < 256 ^ orderlen order → ∃ s, numberToString n order = .ok s ∧
      s.length = orderlen order ∧ stringToNumber s = .ok n) ∧
    (∀ s : Bytes, s.length = orderlen order → ∃ n : Nat, stringToNumber s = .ok n ∧
      n = bytesVal s ∧ numberToString n order = .ok s) := by
  have hpos := orderlen_pos order
  constructor
  · intro n hn
    refine ⟨_, numberToString_eq hn, by simp, ?_⟩
    rw [stringToNumber_eq _ (by
      intro h; have := congrArg List.length h; simp at this; omega), bytesVal_beBytes_of_lt hn]
  · intro s hs
    have hne : s ≠ [] := by rintro rfl; simp at hs; omega
    refine ⟨_, stringToNumber_eq s hne, rfl, ?_⟩
    have := bytesVal_lt s
    rw [numberToString_eq (by rw [← hs]; exact this), beBytes_bytesVal' hs]

/-- C07: the width is the least number of bytes that holds the order (one byte for 0). -/
theorem C07_orderlen (order k : Nat) (hk : 0 < k) : orderlen order ≤ k ↔ order < 256 ^ k := by
  have h := hexDigits_length_le_iff order (2 * k) (by omega)
  rw [pow_mul] at h
  norm_num at h
  rw [← h, orderlen, fmtHexNat_length]
  omega

example : numberToString 258 65535 = .ok [1, 2] ∧ numberToString 65536 65535 = .error .binasciiError ∧
    numberToString 1048576 65535 = .error .assertionError := by decide

end NBC.Props
