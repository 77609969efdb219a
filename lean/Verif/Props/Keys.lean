import Verif.Proofs.Ecc

/-!
# C24-C28: signing, verification, key compression and ECDH on SECP256k1

`PubPoint d x y` says that `(x, y)` are the affine coordinates (in `[0, p)`) of `d` times the
generator of the curve, in Mathlib's group of points.
-/

namespace NBC.Props
open NBC NT EC Ecdsa Spec Key Der Ecc Secp

/-! ### C24 -/

/-- C24.  Whatever `sign` returns for a private key is accepted by `verify` under the uncompressed
key of the public point exactly when `r < n`, and under the compressed key exactly when moreover the one of
`y` and `p - y` that is a square is below `n`; bytes appended to the signature do not matter.  (Missing from the
full claim: `r`, the `x` coordinate of the nonce point, is not reduced modulo `n`; such `y`.) -/
theorem C24_sign_verify_partial (H : Hashes) (data priv : Bytes) (ent : Nat → Nat → Bytes)
    (sig : Bytes) (h : Ecc.sign H data priv ent = .ok sig) :
    ∃ x y k r : Nat, PubPoint (bytesVal priv) x y ∧ randrange n ent = .ok k ∧
      (∃ ky, PubPoint k r ky) ∧
      ∀ junk, verify H data (uncompressedKey x y) (sig ++ junk) = .ok (decide (r < n)) ∧
        verify H data (compressedKey x y) (sig ++ junk) = .ok (decide (r < n ∧ residueRoot p y < n)) := by
  obtain ⟨x, y, k, r, s, hp, hx, hy, hk, hs, -, hv⟩ := sign_verify h
  have hkr := randrange_range hk
  refine ⟨x, y, k, r, hp, hk, ?_, fun junk => ⟨?_, ?_⟩⟩
  · have hk0 : (k : Int) % (n : Int) ≠ 0 := by
      rw [Int.emod_eq_of_lt (by omega) (by exact_mod_cast hkr.2)]; omega
    obtain ⟨kx, ky, hxy, kinv, h1, -, h3⟩ :=
      (sign_spec (P := .inf) genOk (bytesVal priv) (hashNum H data) (k : Int)).2 hk0
    simp only at h3
    rw [h3] at hs
    split at hs
    · cases hs
    · simp only [Except.ok.injEq, Prod.mk.injEq] at hs
      have hr : kx.val = r := by exact_mod_cast hs.1
      refine ⟨ky.val, by rw [← hr]; exact ZMod.val_lt kx, ZMod.val_lt ky, ?_⟩
      rw [h1, ← hr]
      exact ⟨by simpa using hxy, by simp⟩
  · exact hv _ _ (decompress_uncompressedKey hx hy hp.on)
  · have hd := decompress_compressed hp.1 hp.2.1 hp.on
    by_cases hr : residueRoot p y < n
    · rw [if_pos ⟨hx, hr⟩] at hd
      rw [hv _ _ hd]
      simp only [hr, and_true]
    · rw [if_neg (fun q => hr q.2)] at hd
      unfold verify
      rw [hd]
      simp [hr, isValueError]

/-- C24.  When `sign` returns: the key must have 32 bytes and lie in `[1, n-1]`, both coordinates of
its public point must be below `n`, the nonce `k` must have been found, and neither half of the
signature may be zero; then it does return. -/
theorem C24_sign_total_partial (H : Hashes) (data priv : Bytes) (ent : Nat → Nat → Bytes) (k : Nat)
    (hl : priv.length = 32) (h1 : 1 ≤ bytesVal priv) (h2 : bytesVal priv < n)
    (x y : Nat) (hp : PubPoint (bytesVal priv) x y) (hk : randrange n ent = .ok k)
    (r ky : Nat) (hkp : PubPoint k r ky) (hr : r ≠ 0)
    (hs : ¬ (n : Int) ∣ hashNum H data + bytesVal priv * r) :
    (x < n ∧ y < n → ∃ sig, Ecc.sign H data priv ent = .ok sig) ∧
    (¬ (x < n ∧ y < n) → Ecc.sign H data priv ent = .error .runtimeError) := by
  have hd1 : 1 ≤ (bytesVal priv : Int) := by exact_mod_cast h1
  have hd2 : (bytesVal priv : Int) < n := by exact_mod_cast h2
  constructor
  · rintro ⟨hx, hy⟩
    have hkr := randrange_range hk
    have hk0 : (k : Int) % (n : Int) ≠ 0 := by
      rw [Int.emod_eq_of_lt (by omega) (by exact_mod_cast hkr.2)]; omega
    obtain ⟨kx, ky', hxy, kinv, e1, e2, e3⟩ :=
      (sign_spec (P := .inf) genOk (bytesVal priv) (hashNum H data) (k : Int)).2 hk0
    obtain ⟨hrp, -, hns, he⟩ := hkp
    rw [e1, WeierstrassCurve.Affine.Point.some.injEq] at he
    have hval : kx.val = r := by
      rw [he.1]; exact ZMod.val_natCast_of_lt hrp
    have hkx : kx ≠ 0 := by
      rintro rfl; rw [ZMod.val_zero] at hval; exact hr hval.symm
    have hs0 : (kinv * ((hashNum H data : Int) + bytesVal priv * (kx.val : Int))) % (n : Int) ≠ 0 := by
      intro h0
      rcases (Nat.prime_iff_prime_int.mp prime_n).dvd_mul.mp (Int.dvd_of_emod_eq_zero h0) with h | h
      · obtain ⟨t, rfl⟩ := h
        rw [show (k : Int) * ((n : Int) * t) = (n : Int) * (k * t) by ring,
          Int.mul_emod_right] at e2
        omega
      · rw [hval] at h; exact hs h
    simp only at e3
    rw [if_neg (by push Not; exact ⟨hkx, hs0⟩)] at e3
    have hsz : 0 ≤ (kinv * ((hashNum H data : Int) + bytesVal priv * (kx.val : Int))) % (n : Int) :=
      Int.emod_nonneg _ (by decide)
    have hsn : (kinv * ((hashNum H data : Int) + bytesVal priv * (kx.val : Int))) % (n : Int) < n :=
      Int.emod_lt_of_pos _ (by decide)
    obtain ⟨s, hse⟩ := Int.eq_ofNat_of_zero_le hsz
    rw [hse] at e3 hsn
    have hpb : p < 2 ^ 1015 := by decide +kernel
    have hb1 : kx.val < 2 ^ 1015 := lt_trans (by rw [hval]; exact hrp) hpb
    have hb2 : s < 2 ^ 1015 := lt_trans (lt_trans (show s < n by exact_mod_cast hsn) n_lt_p) hpb
    obtain ⟨sig, a1, -⟩ := sig_roundtrip kx.val s hb1 hb2
    exact ⟨sig, sign_intro hl hp hx hy hd1 hd2 hk e3 a1⟩
  · intro hxy
    obtain ⟨x', y', o, -, hp', -, hbad⟩ := fromSecretExponent_secp hd1 hd2
    obtain ⟨rfl, rfl⟩ := hp.unique hp'
    have ha : pyAssert (priv.length == secp256k1.baselen) = .ok () := by
      rw [pyAssert_ok_iff, beq_iff_eq, baselen_eq]; exact hl
    simp only [Ecc.sign, SigningKey.fromString, ha, ok_bind,
      stringToNumber_of_length hl (by omega : 0 < 32), hbad hxy, error_bind]

/-- Every 32-byte private key in range has a public point, so the two theorems above cover every
key. -/
theorem C24_key_exists (d : Nat) (h1 : 1 ≤ d) (h2 : d < n) : ∃ x y, PubPoint d x y :=
  exists_pubPoint (not_dvd_of_range (by exact_mod_cast h1) (by exact_mod_cast h2))

theorem pubPoint_one : PubPoint 1 0x79be667ef9dcbbac55a06295ce870b07029bfcdb2dce28d959f2815b16f81798
    0x483ada7726a3c4655da4fbfc0e1108a8fd17b448a68554199c47d08ffb10d4b8 := by
  refine ⟨by decide, by decide, ?_, ?_⟩
  · exact nonsingular_of_equation good (by
      have := (containsPoint_iff K _ _).mp gen_contains
      exact this)
  · rw [one_zsmul]; rfl

/-- Every point of the curve is the public point of some key. -/
theorem exists_key {x y : Nat} (hx : x < p) (hy : y < p) (hon : OnCurve K x y) :
    ∃ d : Nat, 1 ≤ d ∧ d < n ∧ PubPoint d x y := by
  have heq : (W K).Equation ((x : Int) : ZMod K.p) ((y : Int) : ZMod K.p) :=
    (containsPoint_iff _ _ _).mp ((onCurve_iff _ _ _).1 hon)
  obtain ⟨d, hd, hQ⟩ := exists_smul (.some _ _ (nonsingular_of_equation good heq))
  have hd0 : d ≠ 0 := by
    rintro rfl
    rw [zero_nsmul] at hQ
    exact WeierstrassCurve.Affine.Point.some_ne_zero _ hQ
  refine ⟨d, by omega, hd, hx, hy, ?_⟩
  rw [natCast_zsmul, ← hQ]
  exact ⟨by simpa using nonsingular_of_equation good heq, by simp⟩

theorem randrange_first {k : Nat} (h1 : 1 ≤ k) (h2 : k < n) :
    randrange n (fun _ _ => beBytes 32 (k - 1)) = .ok k := by
  have hs := stringToNumber_of_length (beBytes_length 32 (k - 1)) (by omega)
  rw [bytesVal_beBytes_of_lt (lt_trans (show k - 1 < n by omega) (lt_trans n_lt_p p_lt))] at hs
  have ha : pyAssert (decide (n > 1)) = .ok () := by rw [pyAssert_ok_iff]; decide
  simp only [randrange, ha, ok_bind]
  rw [show (10000 : Nat) = 9999 + 1 from rfl, randrangeLoop, hs, ok_bind, if_pos (by omega)]
  rw [show k - 1 + 1 = k by omega]
  rfl

/-- C24 is false: with a nonce whose point has `x = n + 2`, the signature is refused. -/
theorem C24_sign_verify_false :
    ¬ ∀ (H : Hashes) (data priv sig : Bytes) (ent : Nat → Nat → Bytes) (x y : Nat),
      PubPoint (bytesVal priv) x y → Ecc.sign H data priv ent = .ok sig →
      verify H data (uncompressedKey x y) sig = .ok true := by
  intro hall
  obtain ⟨k, hk1, hk2, hkp⟩ := exists_key (x := n + 2)
    (y := 0x36b1aa62eb77c1973025cbcbea9740eed8eacdab8772268b395064453269d1d3)
    (by decide) (by decide) ((onCurve_iff _ _ _).2 (by decide +kernel))
  have hrr := randrange_first hk1 hk2
  have hb : bytesVal (beBytes 32 1) = 1 := bytesVal_beBytes_of_lt (by decide)
  have hp := pubPoint_one
  rw [show (1 : Int) = ((bytesVal (beBytes 32 1) : Nat) : Int) by rw [hb]; rfl] at hp
  have hs : ¬ (n : Int) ∣ hashNum Hashes.toy [] + bytesVal (beBytes 32 1) * ((n + 2 : Nat) : Int) := by
    decide +kernel
  obtain ⟨sig, hsig⟩ := (C24_sign_total_partial Hashes.toy [] (beBytes 32 1) _ k (beBytes_length _ _)
    (by rw [hb]) (by rw [hb]; decide) _ _ hp hrr _ _ hkp (by decide) hs).1 ⟨by decide, by decide⟩
  obtain ⟨x, y, k', r, hp', hk', ⟨ky, hr⟩, hv⟩ := C24_sign_verify_partial _ _ _ _ _ hsig
  rw [hrr] at hk'
  cases hk'
  obtain ⟨rfl, -⟩ := hr.unique hkp
  have h1 := (hv []).1
  rw [List.append_nil, hall _ _ _ _ _ _ _ hp' hsig] at h1
  revert h1
  decide

/-! ### C25 -/

/-- C25.  On any two byte strings, `verify` answers or raises one of seven exceptions. -/
theorem C25_outcomes_partial (H : Hashes) (data pk sig : Bytes) :
    (∃ b, verify H data pk sig = .ok b) ∨
    ∃ e ∈ [PyErr.indexError, .squareRootError, .assertionError, .unexpectedDER, .nameError,
      .valueError, .typeError], verify H data pk sig = .error e := by
  cases hd : decompressPublicKey pk with
  | error e =>
    have he := decompress_err hd
    simp only [verify, hd]
    rcases he with ⟨rfl, -⟩ | rfl | rfl
    · right; exact ⟨_, by simp, rfl⟩
    · left; exact ⟨false, rfl⟩
    · right; exact ⟨_, by simp, rfl⟩
  | ok k =>
    obtain ⟨x, y, hx, -, hyp, hon, rfl, -⟩ := decompress_sound hd
    by_cases hy : y < n
    · rw [verify_key H data pk sig hx hy hon hd]
      obtain ⟨q, hq⟩ := keyOk_of_on (lt_trans hx n_lt_p) hon (o := some n) (Or.inr rfl)
      cases he : eccSigdecodeDer sig with
      | error e =>
        right
        refine ⟨e, ?_, rfl⟩
        rcases eccSigdecodeDer_err he with rfl | rfl | rfl | rfl <;> simp
      | ok rs =>
        obtain ⟨r, s⟩ := rs
        rcases verifies_err hq (hashNum H data) r s with ⟨b, hb⟩ | hb
        · exact Or.inl ⟨b, hb⟩
        · exact Or.inr ⟨.typeError, by simp, hb⟩
    · right
      refine ⟨.assertionError, by simp, ?_⟩
      simp only [verify, hd, drop_uncompressedKey,
        fromString_secp_bad (lt_trans hx n_lt_p) hyp (fun h => hy h.2.1), error_bind]

/-- C25.  For a key with coordinates below `n` (in uncompressed form) and a signature that decodes
to `(r, s)`, it answers `False` when `r` or `s` is out of range, raises `TypeError` exactly when
`hash * g + r * q` is the point at infinity, and answers otherwise. -/
theorem C25_decodable_partial (H : Hashes) (data sig : Bytes) (d x y r s : Nat)
    (hp : PubPoint d x y) (hx : x < n) (hy : y < n) (hs : eccSigdecodeDer sig = .ok (r, s)) :
    let v := verify H data (uncompressedKey x y) sig
    (¬ (1 ≤ r ∧ r < n ∧ 1 ≤ s ∧ s < n) → v = .ok false) ∧
    (1 ≤ r ∧ r < n ∧ 1 ≤ s ∧ s < n →
      (n ∣ hashNum H data + r * d → v = .error .typeError) ∧
      (¬ n ∣ hashNum H data + r * d → ∃ b, v = .ok b)) := by
  intro v
  have hv : v = PublicKey.verifies ⟨K, secp256k1.generator, .aff x y (some n)⟩
      (hashNum H data) r s := by
    have := verify_key H data _ sig hx hy hp.on (decompress_uncompressedKey hx hy hp.on)
    rw [hs] at this
    exact this
  have hkey := hp.keyOk (o := some n) (Or.inr rfl)
  have hz : (hashNum H data : Int) • g + (r : Int) • ((d : Int) • g) = 0 ↔
      n ∣ hashNum H data + r * d := by
    rw [← mul_zsmul', mul_comm (d : Int), ← add_zsmul, ← addOrderOf_dvd_iff_zsmul_eq_zero, addOrderOf_g]
    exact_mod_cast Iff.rfl
  constructor
  · intro h
    rw [hv]
    refine verifies_range genOk.order _ _ _ ?_
    by_contra hc
    apply h
    refine ⟨?_, ?_, ?_, ?_⟩
    all_goals zify; omega
  · rintro ⟨h1, h2, h3, h4⟩
    have hr : 1 ≤ (r : Int) ∧ (r : Int) < n ∧ 1 ≤ (s : Int) ∧ (s : Int) < n :=
      ⟨by exact_mod_cast h1, by exact_mod_cast h2, by exact_mod_cast h3, by exact_mod_cast h4⟩
    obtain ⟨a, b⟩ := verifies_inf hkey (hash := hashNum H data) hr
    rw [hv]
    exact ⟨fun h => a (hz.2 h), fun h => b (fun h' => h (hz.1 h'))⟩

/-- The `x` whose curve points have `y = ±1`. -/
def xOne : Nat := 0x1fe1e5ef3fceb5c135ab7741333ce5a6e80d68167653f6b2b24bcbcfaaaff507

/-- The generator as an uncompressed key. -/
def keyOne : Bytes := uncompressedKey 0x79be667ef9dcbbac55a06295ce870b07029bfcdb2dce28d959f2815b16f81798
  0x483ada7726a3c4655da4fbfc0e1108a8fd17b448a68554199c47d08ffb10d4b8

/-- C25 is false: each of the seven exceptions escapes, whatever the message (the last for every
message whose hash is not a multiple of `n`). -/
theorem C25_verify_false (H : Hashes) (data : Bytes) :
    (∀ sig, verify H data [] sig = .error .indexError) ∧
    (∀ sig, verify H data (2 :: beBytes 32 5) sig = .error .squareRootError) ∧
    (∀ sig, verify H data (2 :: beBytes 32 xOne) sig = .error .assertionError) ∧
    verify H data keyOne [] = .error .indexError ∧
    verify H data keyOne [0x31] = .error .unexpectedDER ∧
    verify H data keyOne [0x30, 1, 5] = .error .nameError ∧
    verify H data keyOne [0x30, 2, 2, 0] = .error .valueError ∧
    (¬ n ∣ hashNum H data → ∃ sig, verify H data keyOne sig = .error .typeError) := by
  have hone : decompressPublicKey keyOne = .ok keyOne :=
    decompress_uncompressedKey (by decide) (by decide) pubPoint_one.on
  have hvk := fun sig => verify_key H data keyOne sig (by decide) (by decide) pubPoint_one.on hone
  refine ⟨fun sig => rfl, fun sig => ?_, fun sig => ?_, ?_, ?_, ?_, ?_, fun hn => ?_⟩
  · have hd := (decompressOn_compressed secp256k1 (ch := 2) (Or.inl rfl)
      (beBytes_length 32 5)).1 .squareRootError (by decide +kernel)
    simp only [verify, decompressPublicKey, hd]
    rfl
  · have hon : OnCurve K xOne ((p - 1 : Nat) : Int) := (onCurve_iff _ _ _).2 (by decide +kernel)
    obtain ⟨r, hr, -, hok, -⟩ := decompress_compressedKey (x := xOne) (y := p - 1) (by decide)
      (by decide) hon
    rw [show squareRootModPrime (rhs K xOne) p = .ok 1 by decide +kernel] at hr
    cases hr
    have hd := hok (by decide)
    rw [show compressedKey xOne (p - 1) = 2 :: beBytes 32 xOne from by
      rw [compressedKey, if_pos (by decide)]] at hd
    simp only [verify, hd, drop_uncompressedKey,
      fromString_secp_bad (x := xOne) (y := p - 1) (by decide) (by decide)
        (fun h => absurd h.2.1 (by decide)), error_bind]
  · rw [hvk]; rfl
  · rw [hvk]; rfl
  · rw [hvk]; rfl
  · rw [hvk]; rfl
  · have hr1 : 1 ≤ n - hashNum H data % n := by
      have := Nat.mod_lt (hashNum H data) (show n > 0 by decide)
      omega
    have hr2 : n - hashNum H data % n < n := by
      have : hashNum H data % n ≠ 0 := fun h => hn (Nat.dvd_of_mod_eq_zero h)
      have := Nat.mod_lt (hashNum H data) (show n > 0 by decide)
      omega
    have hnb : n < 2 ^ 1015 := by decide +kernel
    obtain ⟨sig, -, -, hsig⟩ := sig_roundtrip (n - hashNum H data % n) 1 (lt_trans hr2 hnb)
      (lt_trans (by decide) hnb)
    have hsig := hsig []
    rw [List.append_nil] at hsig
    refine ⟨sig, ((C25_decodable_partial H data sig 1 _ _ _ _ pubPoint_one (by decide) (by decide)
      hsig).2 ⟨hr1, hr2, le_refl 1, by decide⟩).1 ?_⟩
    rw [mul_one]
    have h1 := Nat.mod_lt (hashNum H data) (show n > 0 by decide)
    have h2 := Nat.div_add_mod (hashNum H data) n
    refine ⟨hashNum H data / n + 1, ?_⟩
    rw [Nat.mul_add, mul_one]
    omega

/-! ### C26, C27 -/

/-- C26.  Compression writes the parity of `y` and `x`; decompression inverts it exactly if `x` and the one of
`y` and `p - y` that is a square are below `n`, and refuses the key otherwise; an uncompressed key is accepted
exactly if both coordinates are below `n`.  (Missing: points with `y < n` and a root that is not.) -/
theorem C26_decompress_compress_partial (x y : Nat) (hx : x < p) (hy : y < p)
    (hon : OnCurve secp256k1.curve x y) :
    compressPublicKey (uncompressedKey x y) = .ok (compressedKey x y) ∧
    decompressPublicKey (compressedKey x y) =
      (if x < n ∧ residueRoot p y < n then .ok (uncompressedKey x y) else .error .valueError) ∧
    decompressPublicKey (uncompressedKey x y) =
      (if x < n ∧ y < n then .ok (uncompressedKey x y) else .error .valueError) :=
  ⟨compress_uncompressedKey (lt_trans hy p_lt), decompress_compressed hx hy hon, decompress_uncompressed hx hy hon⟩

/-- In particular it inverts it whenever `y` and `p - y` are below `n` (as for all but about one point in
`2 ^ 127`). -/
theorem decompress_compress_small {x y : Nat} (hx : x < n) (hy : y < n) (hpy : p - y < n)
    (hon : OnCurve secp256k1.curve x y) :
    decompressPublicKey (compressedKey x y) = .ok (uncompressedKey x y) := by
  rw [(C26_decompress_compress_partial x y (lt_trans hx n_lt_p) (lt_trans hy n_lt_p) hon).2.1,
    if_pos ⟨hx, residueRoot_lt hy hpy⟩]

/-- C26, the other half, in full: a compressed key that is accepted is what compression of the
result gives back. -/
theorem C26_compress_decompress (s k : Bytes) (hs : s.length = 33)
    (h : decompressPublicKey s = .ok k) : compressPublicKey k = .ok s := by
  obtain ⟨x, y, -, -, hy, -, rfl, h | h⟩ := decompress_sound h
  · rw [h.1] at hs; simp [uncompressedKey] at hs
  · rw [h, compress_uncompressedKey (lt_trans hy p_lt)]

/-- The `x` of the curve point with `y = 6`. -/
def xSix : Nat := 0xc8b492e17665b9e65e4a124661e1103f1aebfcc849dcd94f7688dcf149f6f4f2

/-- C26 is false: the point with `y = 6` is a valid key, but its compressed form is refused. -/
theorem C26_decompress_compress_false :
    decompressPublicKey (uncompressedKey xSix 6) = .ok (uncompressedKey xSix 6) ∧
    compressPublicKey (uncompressedKey xSix 6) = .ok (compressedKey xSix 6) ∧
    decompressPublicKey (compressedKey xSix 6) = .error .valueError := by
  have hon : OnCurve K xSix ((6 : Nat) : Int) := (onCurve_iff _ _ _).2 (by decide +kernel)
  refine ⟨decompress_uncompressedKey (by decide) (by decide) hon,
    compress_uncompressedKey (by decide), ?_⟩
  obtain ⟨r, hr, -, -, hbad⟩ := decompress_compressedKey (x := xSix) (y := 6) (by decide) (by decide) hon
  rw [show squareRootModPrime (rhs K xSix) p = .ok ((p : Int) - 6) by decide +kernel] at hr
  cases hr
  exact hbad (by decide)

/-- The generator compresses and decompresses. -/
example : decompressPublicKey (compressedKey
    0x79be667ef9dcbbac55a06295ce870b07029bfcdb2dce28d959f2815b16f81798
    0x483ada7726a3c4655da4fbfc0e1108a8fd17b448a68554199c47d08ffb10d4b8) = .ok keyOne :=
  decompress_compress_small (by decide) (by decide) (by decide) pubPoint_one.on

/-- C27.  Whatever is decompressed is `04 x y` for a point of the curve that the group order
annihilates, with `x` below `n`, and it is the input itself or the point of the given `x` whose `y`
has the given parity. -/
theorem C27_decompress_sound (s k : Bytes) (h : decompressPublicKey s = .ok k) :
    ∃ x y : Nat, k = uncompressedKey x y ∧ k.length = 65 ∧ x < n ∧ 0 < y ∧ y < p ∧
      OnCurve secp256k1.curve x y ∧ EC.mul secp256k1.curve (.aff x y none) n = .ok .inf ∧
      (s = uncompressedKey x y ∧ y < n ∨ s = compressedKey x y) := by
  obtain ⟨x, y, hx, hy0, hy, hon, hk, hs⟩ := decompress_sound h
  refine ⟨x, y, hk, by rw [hk]; simp [uncompressedKey], hx, hy0, hy, hon, ?_, hs⟩
  exact mul_n_eq (by omega) (by exact_mod_cast lt_trans hx n_lt_p) hon

/-! ### C28 -/

/-- C28.  Any two accepted public keys and WIF strings of two secrets `a` and `b` give the same
secret, which is the `x` coordinate of `a * b` times the generator on 32 bytes. -/
theorem C28_agreement_partial (H : Hashes) (pubA pubB wifA wifB a b : Bytes) (xa ya xb yb : Nat)
    (ha : 1 ≤ bytesVal a ∧ bytesVal a < n) (hb : 1 ≤ bytesVal b ∧ bytesVal b < n)
    (hwa : privkeyFromWif H wifA 0x80 = .ok a) (hwb : privkeyFromWif H wifB 0x80 = .ok b)
    (hA : PubPoint (bytesVal a) xa ya) (hB : PubPoint (bytesVal b) xb yb)
    (hpa : decompressPublicKey pubA = .ok (uncompressedKey xa ya))
    (hpb : decompressPublicKey pubB = .ok (uncompressedKey xb yb)) :
    ∃ x y, PubPoint (bytesVal a * bytesVal b) x y ∧
      sharedSecret H pubA wifB = .ok (beBytes 32 x) ∧
      sharedSecret H pubB wifA = .ok (beBytes 32 x) := by
  have hnd : ¬ (n : Int) ∣ (bytesVal a : Int) * bytesVal b :=
    not_dvd_mul ⟨by exact_mod_cast ha.1, by exact_mod_cast ha.2⟩
      ⟨by exact_mod_cast hb.1, by exact_mod_cast hb.2⟩
  obtain ⟨x, y, hxy⟩ := exists_pubPoint hnd
  refine ⟨x, y, hxy, sharedSecret_eq H hpa hA hwb hxy, ?_⟩
  rw [mul_comm] at hxy
  exact sharedSecret_eq H hpb hB hwa hxy

/-- C28.  For 32-byte secrets exported with or without the compression mark, and public keys in
uncompressed form with coordinates below `n` (the only ones `SigningKey` builds), agreement is
unconditional. -/
theorem C28_uncompressed_partial (H : Hashes) (a b : Bytes) (la : a.length = 32)
    (lb : b.length = 32) (ha : 1 ≤ bytesVal a ∧ bytesVal a < n)
    (hb : 1 ≤ bytesVal b ∧ bytesVal b < n) (xa ya xb yb : Nat)
    (hA : PubPoint (bytesVal a) xa ya) (hB : PubPoint (bytesVal b) xb yb)
    (hxa : xa < n ∧ ya < n) (hxb : xb < n ∧ yb < n) (ca cb : Bool) :
    ∃ secret, secret.length = 32 ∧
      sharedSecret H (uncompressedKey xa ya) (privkeyToWif H (if cb then b ++ [1] else b)) = .ok secret ∧
      sharedSecret H (uncompressedKey xb yb) (privkeyToWif H (if ca then a ++ [1] else a)) = .ok secret := by
  have hwa : privkeyFromWif H (privkeyToWif H (if ca then a ++ [1] else a)) = .ok a := by
    cases ca
    · exact wif_roundtrip_uncompressed H a la
    · exact wif_roundtrip_compressed H a la
  have hwb : privkeyFromWif H (privkeyToWif H (if cb then b ++ [1] else b)) = .ok b := by
    cases cb
    · exact wif_roundtrip_uncompressed H b lb
    · exact wif_roundtrip_compressed H b lb
  obtain ⟨x, y, -, h1, h2⟩ := C28_agreement_partial H _ _ _ _ a b xa ya xb yb ha hb hwa hwb hA hB
    (decompress_uncompressedKey hxa.1 hxa.2 hA.on) (decompress_uncompressedKey hxb.1 hxb.2 hB.on)
  exact ⟨_, beBytes_length 32 x, h1, h2⟩

/-- C28 is false for compressed keys: some secret's compressed key is refused by every peer, though
the peer's key is accepted on the other side. -/
theorem C28_compressed_false (H : Hashes) :
    ∃ (d x y : Nat), 1 ≤ d ∧ d < n ∧ PubPoint d x y ∧
      (∀ wif, sharedSecret H (compressedKey x y) wif = .error .valueError) ∧
      ∃ secret, sharedSecret H keyOne (privkeyToWif H (beBytes 32 d)) = .ok secret := by
  have hon : OnCurve K xSix ((6 : Nat) : Int) := (onCurve_iff _ _ _).2 (by decide +kernel)
  obtain ⟨d, h1, h2, hp⟩ := exists_key (x := xSix) (y := 6) (by decide) (by decide) hon
  refine ⟨d, xSix, 6, h1, h2, hp, fun wif => ?_, ?_⟩
  · simp only [sharedSecret, C26_decompress_compress_false.2.2, error_bind]
  · have hb : bytesVal (beBytes 32 d) = d := bytesVal_beBytes_of_lt (lt_trans (lt_trans h2 n_lt_p) p_lt)
    have hd : decompressPublicKey keyOne = .ok keyOne :=
      decompress_uncompressedKey (by decide) (by decide) pubPoint_one.on
    refine ⟨_, sharedSecret_eq H hd pubPoint_one
      (wif_roundtrip_uncompressed H _ (beBytes_length 32 d)) (x := xSix) (y := 6) ?_⟩
    rw [hb, one_mul]; exact hp

end NBC.Props
