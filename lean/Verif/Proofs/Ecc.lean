import Verif.Proofs.SecpKeys
import Verif.Proofs.Key

/-! # `ecc.py`: sign, verify, shared_secret -/

namespace NBC.Der
open NBC

/-- The exceptions of the liberal decoder. -/
def DerErr (e : PyErr) : Prop :=
  e = .indexError ∨ e = .unexpectedDER ∨ e = .nameError ∨ e = .valueError

theorem intOfHex_err {s : Bytes} {e : PyErr} (h : stringToNumber s = .error e) : DerErr e := by
  by_cases h0 : s = []
  · subst h0; rw [stringToNumber_nil] at h; cases h; simp [DerErr]
  · rw [stringToNumber_eq s h0] at h; cases h

theorem readLength_err {s : Bytes} {e : PyErr} (h : readLength s = .error e) : DerErr e := by
  simp only [readLength, bind_error_iff] at h
  rcases h with h | ⟨c, -, h⟩
  · simp only [pyIndex] at h
    split at h
    · cases h
    · cases h; simp [DerErr]
  · split at h
    · cases h
    · split at h
      · cases h; simp [DerErr]
      · rw [bind_error_iff] at h
        rcases h with h | ⟨a, -, h⟩
        · exact intOfHex_err h
        · cases h

theorem cutBody_err {s : Bytes} {e : PyErr} (h : cutBody s = .error e) : DerErr e := by
  simp only [cutBody, bind_error_iff] at h
  rcases h with h | ⟨⟨a, b⟩, -, h⟩
  · exact readLength_err h
  · cases h

theorem eccRemoveInteger_err {s : Bytes} {e : PyErr} (h : eccRemoveInteger s = .error e) :
    DerErr e := by
  unfold eccRemoveInteger at h
  cases s with
  | nil => cases h; simp [DerErr]
  | cons c t =>
    simp only at h
    split at h
    · cases h; simp [DerErr]
    · rw [bind_error_iff] at h
      rcases h with h | ⟨⟨a, b⟩, -, h⟩
      · exact cutBody_err h
      · simp only [bind_error_iff] at h
        rcases h with h | ⟨a, -, h⟩
        · exact intOfHex_err h
        · cases h

theorem eccSigdecodeDer_err {s : Bytes} {e : PyErr} (h : eccSigdecodeDer s = .error e) :
    DerErr e := by
  simp only [eccSigdecodeDer, bind_error_iff] at h
  rcases h with h | ⟨⟨a, b⟩, -, h⟩
  · simp only [removeSequence, bind_error_iff] at h
    rcases h with h | ⟨_, _, h⟩
    · unfold expectTag at h
      split at h
      · cases h; simp [DerErr]
      · split at h
        · cases h
        · cases h; simp [DerErr]
    · exact cutBody_err h
  · simp only [bind_error_iff] at h
    rcases h with h | ⟨⟨c, d⟩, -, h⟩
    · exact eccRemoveInteger_err h
    · simp only [bind_error_iff] at h
      rcases h with h | ⟨⟨c, d⟩, -, h⟩
      · exact eccRemoveInteger_err h
      · cases h

end NBC.Der

namespace NBC.Secp
open NBC NT EC Ecdsa Spec Key Der Ecc

/-- The number signed for a message. -/
def hashNum (H : Hashes) (data : Bytes) : Nat := bytesVal (H.sha256d data)

theorem sha256d_length (H : Hashes) (data : Bytes) : (H.sha256d data).length = 32 := H.sha256_length _

theorem stringToNumber_sha (H : Hashes) (data : Bytes) :
    stringToNumber (H.sha256d data) = .ok (hashNum H data) :=
  stringToNumber_of_length (sha256d_length H data) (by omega)

theorem verifies_err {P : Pt} {q : (W K).Point} (hP : KeyOk K n P q) (hash r s : Int) :
    (∃ b, PublicKey.verifies ⟨K, secp256k1.generator, P⟩ hash r s = .ok b) ∨
    PublicKey.verifies ⟨K, secp256k1.generator, P⟩ hash r s = .error .typeError := by
  by_cases h : 1 ≤ r ∧ r < n ∧ 1 ≤ s ∧ s < n
  · obtain ⟨w, -, -, -, hw⟩ := inverseMod_prime prime_n s (not_dvd_of_range h.2.2.1 h.2.2.2)
    obtain ⟨h0, h1⟩ := verifies_spec genOk hP hash r s w h hw
    cases hS : (hash * w) • g + (r * w) • q with
    | zero => exact Or.inr (h0 hS)
    | some x y hxy => exact Or.inl ⟨_, h1 x y hxy hS⟩
  · exact Or.inl ⟨_, verifies_range genOk.order _ _ _ (by omega)⟩

/-- A curve point as a key. -/
theorem keyOk_of_on {x y : Nat} (hx : x < p) (h : OnCurve K x y) {o : Option Nat}
    (ho : o = none ∨ o = some n) : ∃ q, KeyOk K n (.aff x y o) q := by
  obtain ⟨q, hq, -⟩ := rep_of_on (o := o) (by omega) (by exact_mod_cast hx) h
  exact ⟨q, hq, ho, n_smul _⟩

theorem drop_uncompressedKey (x y : Nat) :
    (uncompressedKey x y).drop 1 = beBytes 32 x ++ beBytes 32 y := rfl

/-- `verify` on a key it accepts. -/
theorem verify_key (H : Hashes) (data pk sig : Bytes) {x y : Nat} (hx : x < n) (hy : y < n)
    (hon : OnCurve K x y) (hpk : decompressPublicKey pk = .ok (uncompressedKey x y)) :
    verify H data pk sig = (match eccSigdecodeDer sig with
      | .error e => .error e
      | .ok (r, s) => PublicKey.verifies ⟨K, secp256k1.generator, .aff x y (some n)⟩
          (hashNum H data) r s) := by
  obtain ⟨q, hq⟩ := keyOk_of_on (lt_trans hx n_lt_p) hon (o := some n) (Or.inr rfl)
  have hl : ¬ (H.sha256d data).length > secp256k1.baselen := by
    rw [sha256d_length, baselen_eq]; omega
  simp only [verify, hpk, drop_uncompressedKey, fromString_secp hx hy hon, ok_bind,
    VerifyingKey.verifyDigest]
  rw [if_neg hl, stringToNumber_sha, ok_bind]
  cases hd : eccSigdecodeDer sig with
  | error e =>
    have := eccSigdecodeDer_err hd
    rw [error_bind]
    rcases this with rfl | rfl | rfl | rfl <;> rfl
  | ok rs =>
    obtain ⟨r, s⟩ := rs
    rw [ok_bind]
    rcases verifies_err hq (hashNum H data) r s with ⟨b, hb⟩ | hb
    · simp only
      rw [hb]
      cases b <;> rfl
    · simp only
      rw [hb]
      rfl

theorem randrangeLoop_range {order bytes : Nat} {entropy : Nat → Nat → Bytes} :
    ∀ {fuel i k : Nat}, randrangeLoop order bytes entropy fuel i = .ok k → 1 ≤ k ∧ k < order
  | 0, _, _, h => by cases h
  | fuel + 1, i, k, h => by
    simp only [randrangeLoop, bind_ok_iff] at h
    obtain ⟨a, -, h⟩ := h
    split at h
    · rename_i hr
      cases h; exact hr
    · exact randrangeLoop_range h

theorem randrange_range {order : Nat} {entropy : Nat → Nat → Bytes} {k : Nat}
    (h : randrange order entropy = .ok k) : 1 ≤ k ∧ k < order := by
  simp only [randrange, bind_ok_iff] at h
  obtain ⟨_, _, h⟩ := h
  exact randrangeLoop_range h

/-- What a successful `sign` did. -/
theorem sign_inv {H : Hashes} {data priv : Bytes} {ent : Nat → Nat → Bytes} {sig : Bytes}
    (h : Ecc.sign H data priv ent = .ok sig) :
    priv.length = 32 ∧ (1 ≤ (bytesVal priv : Int) ∧ (bytesVal priv : Int) < n) ∧
    ∃ (x y : Nat) (o : Option Nat), (o = none ∨ o = some n) ∧ PubPoint (bytesVal priv) x y ∧
      x < n ∧ y < n ∧ ∃ (k : Nat) (r s : Int), randrange n ent = .ok k ∧
        Ecdsa.sign ⟨K, secp256k1.generator, .aff x y o⟩ (bytesVal priv) (hashNum H data) k
          = .ok (r, s) ∧ sigencodeDer r s = .ok sig := by
  simp only [Ecc.sign, SigningKey.fromString, bind_ok_iff] at h
  obtain ⟨sk, ⟨_, h1, sx, h2, h3⟩, h4⟩ := h
  rw [pyAssert_ok_iff, beq_iff_eq, baselen_eq] at h1
  rw [stringToNumber_of_length h1 (by omega)] at h2
  cases h2
  have hd : 1 ≤ (bytesVal priv : Int) ∧ (bytesVal priv : Int) < n := by
    by_contra hc
    rw [fromSecretExponent_bad secp256k1 hc] at h3
    cases h3
  refine ⟨h1, hd, ?_⟩
  obtain ⟨x, y, o, ho, hp, hok, hbad⟩ := fromSecretExponent_secp hd.1 hd.2
  have hxy : x < n ∧ y < n := by
    by_contra hc
    rw [hbad hc] at h3
    cases h3
  rw [hok hxy] at h3
  cases h3
  refine ⟨x, y, o, ho, hp, hxy.1, hxy.2, ?_⟩
  simp only [SigningKey.signDigestRandom] at h4
  rw [if_neg (by rw [sha256d_length, baselen_eq]; omega)] at h4
  simp only [bind_ok_iff] at h4
  obtain ⟨num, h5, k, h6, ⟨r, s⟩, h7, h8⟩ := h4
  rw [stringToNumber_sha] at h5
  cases h5
  simp only [SigningKey.signNumber, bind_ok_iff] at h7
  obtain ⟨_, _, h7⟩ := h7
  exact ⟨k, r, s, h6, h7, h8⟩

/-- When `sign` succeeds. -/
theorem sign_intro {H : Hashes} {data priv : Bytes} {ent : Nat → Nat → Bytes} {sig : Bytes}
    (hl : priv.length = 32) {x y : Nat} (hp : PubPoint (bytesVal priv) x y) (hx : x < n)
    (hy : y < n) (h1 : 1 ≤ (bytesVal priv : Int)) (h2 : (bytesVal priv : Int) < n)
    {k : Nat} {r s : Int} (hk : randrange n ent = .ok k)
    (hs : Ecdsa.sign ⟨K, secp256k1.generator, .inf⟩ (bytesVal priv) (hashNum H data) k = .ok (r, s))
    (he : sigencodeDer r s = .ok sig) : Ecc.sign H data priv ent = .ok sig := by
  obtain ⟨x', y', o, ho, hp', hok, -⟩ := fromSecretExponent_secp h1 h2
  obtain ⟨rfl, rfl⟩ := hp.unique hp'
  have hr := randrange_range hk
  have hkr : pyAssert (decide (1 ≤ (k : Int)) && decide ((k : Int) < (secp256k1.order : Int)))
      = .ok () := by
    rw [pyAssert_ok_iff, Bool.and_eq_true, decide_eq_true_eq, decide_eq_true_eq]
    exact ⟨by omega, by exact_mod_cast hr.2⟩
  have hk' : randrange secp256k1.order ent = .ok k := hk
  have ha : pyAssert (priv.length == secp256k1.baselen) = .ok () := by
    rw [pyAssert_ok_iff, beq_iff_eq, baselen_eq]; exact hl
  simp only [Ecc.sign, SigningKey.fromString, ha, ok_bind,
    stringToNumber_of_length hl (by omega : 0 < 32), hok ⟨hx, hy⟩, SigningKey.signDigestRandom]
  rw [if_neg (by rw [sha256d_length, baselen_eq]; omega)]
  simp only [stringToNumber_sha, ok_bind, hk', SigningKey.signNumber, hkr]
  have hs' : Ecdsa.sign ⟨K, secp256k1.generator, .aff x y o⟩ (bytesVal priv) (hashNum H data) k
      = .ok (r, s) := hs
  rw [hs', ok_bind]
  exact he

theorem sign_verify {H : Hashes} {data priv : Bytes} {ent : Nat → Nat → Bytes} {sig : Bytes}
    (h : Ecc.sign H data priv ent = .ok sig) :
    ∃ x y k r s : Nat, PubPoint (bytesVal priv) x y ∧ x < n ∧ y < n ∧ randrange n ent = .ok k ∧
      Ecdsa.sign ⟨K, secp256k1.generator, .inf⟩ (bytesVal priv) (hashNum H data) k
          = .ok ((r : Int), (s : Int)) ∧
      (∀ junk, eccSigdecodeDer (sig ++ junk) = .ok (r, s)) ∧
      ∀ pk junk, decompressPublicKey pk = .ok (uncompressedKey x y) →
        verify H data pk (sig ++ junk) = .ok (decide (r < n)) := by
  obtain ⟨-, hd, x, y, o, ho, hp, hx, hy, k, r, s, hk, hs, he⟩ := sign_inv h
  have hs' : Ecdsa.sign ⟨K, secp256k1.generator, .aff x y (some n)⟩ (bytesVal priv)
      (hashNum H data) k = .ok (r, s) := hs
  obtain ⟨r1, r2, s1, s2, hv⟩ := sign_verifies genOk (hp.keyOk (Or.inr rfl)) hs'
  obtain ⟨r, rfl⟩ := Int.eq_ofNat_of_zero_le (by omega : 0 ≤ r)
  obtain ⟨s, rfl⟩ := Int.eq_ofNat_of_zero_le (by omega : 0 ≤ s)
  have hpb : p < 2 ^ 1015 := by decide +kernel
  have hr' : r < 2 ^ 1015 := lt_trans (show r < p by exact_mod_cast r2) hpb
  have hs'' : s < 2 ^ 1015 := lt_trans (lt_trans (show s < n by exact_mod_cast s2) n_lt_p) hpb
  have hjunk : ∀ junk, eccSigdecodeDer (sig ++ junk) = .ok (r, s) := by
    obtain ⟨sig', e1, -, e2⟩ := sig_roundtrip r s hr' hs''
    rw [e1] at he
    cases he
    exact e2
  refine ⟨x, y, k, r, s, hp, hx, hy, hk, hs, hjunk, fun pk junk hpk => ?_⟩
  rw [verify_key H data pk _ hx hy hp.on hpk, hjunk]
  simp only
  have : decide ((r : Int) < (n : Int)) = decide (r < n) := by
    congr 1; simp
  rw [← this]
  exact hv

/-- `shared_secret`, for any accepted public key and any accepted WIF string. -/
theorem sharedSecret_eq (H : Hashes) {pub wif priv : Bytes} {a : Int} {xa ya : Nat}
    (hpub : decompressPublicKey pub = .ok (uncompressedKey xa ya)) (hA : PubPoint a xa ya)
    (hw : privkeyFromWif H wif 0x80 = .ok priv) {x y : Nat}
    (hAB : PubPoint (a * bytesVal priv) x y) :
    sharedSecret H pub wif = .ok (beBytes 32 x) := by
  have hl := (privkeyFromWif_sound H wif priv 0x80 hw).1
  have e2 : ((uncompressedKey xa ya).drop 1).take 32 = beBytes 32 xa := by
    rw [uncompressedKey, List.drop_succ_cons, List.drop_zero, List.take_append_of_le_length (by simp)]
    exact List.take_of_length_le (by simp)
  have e3 : (uncompressedKey xa ya).drop 33 = beBytes 32 ya := by
    rw [uncompressedKey, List.drop_succ_cons, List.drop_append_of_le_length (by simp)]
    simp
  have h1 := stringToNumber_of_length (beBytes_length 32 xa) (by omega)
  have h2 := stringToNumber_of_length (beBytes_length 32 ya) (by omega)
  rw [bytesVal_beBytes_of_lt (lt_trans hA.1 p_lt)] at h1
  rw [bytesVal_beBytes_of_lt (lt_trans hA.2.1 p_lt)] at h2
  have h3 := stringToNumber_of_length hl (by omega)
  have hc : secp256k1.curve.containsPoint xa ya = true := (onCurve_iff _ _ _).1 hA.on
  obtain ⟨R, hm, hr, -⟩ := mul_ok good (hA.rep none) (odd_order _) (bytesVal priv : Int)
    (Or.inl ⟨rfl, by omega⟩)
  simp only [sharedSecret, hpub, ok_bind, e2, e3, h1, h2, mkPoint_eq, hc, if_true, hw, h3]
  have hm' : EC.mul secp256k1.curve (.aff xa ya none) (bytesVal priv) = .ok R := hm
  rw [hm', ok_bind]
  obtain ⟨hx, hy, hns, he⟩ := hAB
  rw [← mul_zsmul', he] at hr
  obtain ⟨y', o, hR⟩ : ∃ y' o, R = .aff x y' o := by
    cases R with
    | inf => exact absurd hr (WeierstrassCurve.Affine.Point.some_ne_zero _)
    | aff x' y' o =>
      obtain ⟨a1, a2, a3, a4⟩ := hr
      simp only [WeierstrassCurve.Affine.Point.some.injEq] at a4
      obtain ⟨x', rfl⟩ := Int.eq_ofNat_of_zero_le a1
      have := (ZMod.natCast_eq_natCast_iff' x x' p).1 (by have := a4.1; simp only [Int.cast_natCast] at this; exact this)
      rw [Nat.mod_eq_of_lt hx, Nat.mod_eq_of_lt (show x' < p by exact_mod_cast a2)] at this
      exact ⟨y', o, by rw [this]⟩
  rw [hR]
  simp only [Pt.x]
  exact numberToString_y (by omega) (by exact_mod_cast hx)

/-- Every non-zero multiple of the generator has coordinates. -/
theorem exists_pubPoint {d : Int} (h : ¬ (n : Int) ∣ d) : ∃ x y, PubPoint d x y := by
  have hne : d • g ≠ 0 := by
    intro h0
    rw [← addOrderOf_dvd_iff_zsmul_eq_zero, addOrderOf_g] at h0
    exact h h0
  cases hQ : d • g with
  | zero => exact absurd hQ hne
  | some x y hxy =>
    refine ⟨x.val, y.val, ZMod.val_lt x, ZMod.val_lt y, ?_⟩
    rw [hQ]
    refine ⟨by simpa using hxy, by simp⟩

theorem not_dvd_mul {a b : Int} (ha : 1 ≤ a ∧ a < n) (hb : 1 ≤ b ∧ b < n) : ¬ (n : Int) ∣ a * b := by
  intro h
  rcases (Nat.prime_iff_prime_int.mp prime_n).dvd_mul.mp h with h | h
  · exact not_dvd_of_range ha.1 ha.2 h
  · exact not_dvd_of_range hb.1 hb.2 h

end NBC.Secp

namespace NBC.Secp
open NBC NT EC Ecdsa Spec Key Der Ecc

theorem decompress_err {s : Bytes} {e : PyErr} (h : decompressPublicKey s = .error e) :
    (e = .indexError ∧ s = []) ∨ e = .valueError ∨ e = .squareRootError := by
  by_cases h4 : s.head? = some 4 ∧ s.length = 65
  · obtain ⟨hh, hl⟩ := h4
    cases s with
    | nil => cases hh
    | cons c t =>
      simp only [List.head?_cons, Option.some.injEq] at hh
      subst hh
      have ht : t.length = 64 := by simpa using hl
      by_cases hv : (0 : Int) ≤ bytesVal (t.take 32) ∧ (bytesVal (t.take 32) : Int) < n ∧
          (0 : Int) ≤ bytesVal (t.drop 32) ∧ (bytesVal (t.drop 32) : Int) < n ∧
          OnCurve K (bytesVal (t.take 32) : Int) (bytesVal (t.drop 32) : Int)
      · rw [decompressPublicKey, decompressOn_uncompressed _ ht (pointIsValid_true hv)] at h
        cases h
      · rw [decompressPublicKey, decompressOn_uncompressed _ ht (pointIsValid_false hv)] at h
        cases h; simp
  · by_cases h2 : (s.head? = some 2 ∨ s.head? = some 3) ∧ s.length = 33
    · obtain ⟨hh, hl⟩ := h2
      cases s with
      | nil => rcases hh with hh | hh <;> cases hh
      | cons c t =>
        simp only [List.head?_cons, Option.some.injEq] at hh
        have ht : t.length = 32 := by simpa using hl
        have hd := decompressOn_compressed secp256k1 hh ht
        by_cases hex : ∃ y : Int, OnCurve K (bytesVal t) y
        · obtain ⟨y0, hy0⟩ := hex
          obtain ⟨r, hr, r0, rp, hon⟩ := sqrt_of_on hy0
          by_cases hv : (0 : Int) ≤ bytesVal t ∧ (bytesVal t : Int) < n ∧
              (0 : Int) ≤ r ∧ r < n ∧ OnCurve K (bytesVal t : Int) r
          · rw [decompressPublicKey, hd.2 r true hr (pointIsValid_true hv)] at h
            obtain ⟨hf1, hf2, hf3, hf4⟩ := fixParity_eq (ch := c) r0 rp
            rw [if_pos rfl, curve_p, numberToString_y hf2.le hf3] at h
            cases h
          · rw [decompressPublicKey, hd.2 r false hr (pointIsValid_false hv)] at h
            cases h; simp
        · rw [decompressPublicKey, hd.1 _ (sqrt_of_not_on hex)] at h
          cases h; simp
    · rw [decompressPublicKey, decompressOn_other _ h4 h2] at h
      cases h
      by_cases h0 : s = []
      · left; exact ⟨by simp [h0], h0⟩
      · right; left; simp [h0]

/-- Exactly when the sum inside `verifies` is the point at infinity. -/
theorem verifies_inf {P : Pt} {q : (W K).Point} (hP : KeyOk K n P q) {hash r s : Int}
    (h : 1 ≤ r ∧ r < n ∧ 1 ≤ s ∧ s < n) :
    (hash • g + r • q = 0 →
      PublicKey.verifies ⟨K, secp256k1.generator, P⟩ hash r s = .error .typeError) ∧
    (hash • g + r • q ≠ 0 →
      ∃ b, PublicKey.verifies ⟨K, secp256k1.generator, P⟩ hash r s = .ok b) := by
  obtain ⟨w, -, -, -, hw⟩ := inverseMod_prime prime_n s (not_dvd_of_range h.2.2.1 h.2.2.2)
  obtain ⟨h0, h1⟩ := verifies_spec genOk hP hash r s w h hw
  have e : (hash * w) • g + (r * w) • q = w • (hash • g + r • q) := by
    rw [zsmul_add, mul_zsmul', mul_zsmul']
  constructor
  · intro hz
    exact h0 (by rw [e, hz, zsmul_zero])
  · intro hz
    cases hS : (hash * w) • g + (r * w) • q with
    | zero =>
      exfalso
      apply hz
      have h2 : w • (hash • g + r • q) = 0 := by rw [← e]; exact hS
      have h3 : (s * w) • (hash • g + r • q) = 0 := by rw [mul_comm, mul_zsmul', h2, zsmul_zero]
      have hn2 : (1 : Int) < n := by decide
      rw [← zsmul_emod (n_smul _), hw, one_zsmul] at h3
      exact h3
    | some x y hxy => exact ⟨_, h1 x y hxy hS⟩

end NBC.Secp
