import Verif.Proofs.WalletAes
import Verif.Proofs.Ecc
import Verif.Proofs.SecpKeys
import Verif.Proofs.Piecewise

/-! # `Address` objects -/

namespace NBC.Wallet
open NBC Key Ecdsa Base58 EC Aes Spec NBC.Secp

/-- The two WIF texts of a key. -/
def wifText (H : Hashes) (c : Bool) (k : Bytes) : Bytes := privkeyToWif H (if c then k ++ [1] else k)

/-- The public key in the form the flag asks for. -/
def pubText (c : Bool) (x y : Nat) : Bytes := if c then compressedKey x y else uncompressedKey x y

theorem wifText_from (H : Hashes) (c : Bool) (k : Bytes) (hk : k.length = 32) :
    privkeyFromWif H (wifText H c k) = .ok k := by
  cases c
  · exact wif_roundtrip_uncompressed H k hk
  · exact wif_roundtrip_compressed H k hk

theorem wifText_head (H : Hashes) (c : Bool) (k : Bytes) (hk : k.length = 32) :
    ∃ ch, pyIndex (wifText H c k) 0 = .ok ch ∧ ((ch = 76 ∨ ch = 75) ↔ c = true) ∧
      ¬ (ch ≠ 76 ∧ ch ≠ 75 ∧ ch ≠ 53) := by
  cases c
  · exact ⟨53, pyIndex_zero_of_head (wif_head_uncompressed H k hk), by decide, by decide⟩
  · rcases wif_head_compressed H (k ++ [1]) (by simp [hk]) with h | h
    · exact ⟨75, pyIndex_zero_of_head h, by decide, by decide⟩
    · exact ⟨76, pyIndex_zero_of_head h, by decide, by decide⟩

theorem wifText_ne (H : Hashes) (c : Bool) (k : Bytes) (hk : k.length = 32) : wifText H c k ≠ [] := by
  intro h
  obtain ⟨ch, h1, -⟩ := wifText_head H c k hk
  rw [h] at h1
  cases h1

/-- A WIF text is at most 52 characters long. -/
theorem wif_length (H : Hashes) (k : Bytes) (hk : k.length ≤ 33) : (privkeyToWif H k).length ≤ 52 := by
  have hlen : (k ++ (H.sha256d ([0x80] ++ k)).take 4).length = k.length + 4 := by
    rw [List.length_append, sha256d_take4]
  have e : privkeyToWif H k =
      b58encode (List.replicate 0 0 ++ (0x80 :: (k ++ (H.sha256d ([0x80] ++ k)).take 4))) := by
    simp [privkeyToWif, encodeCheck]
  generalize k ++ (H.sha256d ([0x80] ++ k)).take 4 = t at *
  rw [e, b58encode_eq 0 _ (by intro x hx; cases hx; decide), List.replicate_zero, List.nil_append,
    List.length_map, digitsBE_length_le_iff 58 _ 52 (by omega)]
  have h := bytesVal_lt (0x80 :: t)
  have h38 : 256 ^ ((0x80 : UInt8) :: t).length ≤ 256 ^ 38 :=
    Nat.pow_le_pow_right (by omega) (by rw [List.length_cons, hlen]; omega)
  have : 256 ^ 38 < 58 ^ 52 := by decide
  omega

theorem wifText_length (H : Hashes) (c : Bool) (k : Bytes) (hk : k.length = 32) :
    (wifText H c k).length ≤ 52 := by
  apply wif_length
  cases c <;> simp [hk]

/-! ### The public point -/

theorem gen_mul_mod (d : Int) : EC.mul K secp256k1.generator d = EC.mul K secp256k1.generator (d % n) := by
  unfold EC.mul mulD
  have ho : secp256k1.generator.order = some n := rfl
  have hn : ¬ (n = 0) := by decide
  simp only [ho, if_neg hn, Int.emod_emod]

theorem PubPoint_mod {d : Int} {x y : Nat} : PubPoint (d % n) x y ↔ PubPoint d x y := by
  have : (d % (n : Nat)) • g = d • g := by
    conv_rhs => rw [← Int.emod_add_mul_ediv d n, add_zsmul, mul_comm, mul_zsmul, natCast_zsmul, n_smul_g, zsmul_zero,
      add_zero]
  unfold PubPoint
  rw [this]

theorem gen_mul' {d : Int} (h : ¬ (n : Int) ∣ d) :
    ∃ (x y : Nat) (o : Option Nat), (o = none ∨ o = some n) ∧ PubPoint d x y ∧
      EC.mul K secp256k1.generator d = .ok (.aff x y o) := by
  have h0 : (0 : Int) < (n : Nat) := by decide
  have h1 : 0 ≤ d % (n : Nat) := Int.emod_nonneg _ (by omega)
  have h2 : d % (n : Nat) ≠ 0 := fun h' => h (Int.dvd_of_emod_eq_zero h')
  obtain ⟨x, y, o, ho, hp, hm⟩ := gen_mul (d := d % (n : Nat)) (by omega) (Int.emod_lt_of_pos _ h0)
  exact ⟨x, y, o, ho, PubPoint_mod.1 hp, by rw [gen_mul_mod]; exact hm⟩

theorem gen_mul_zero {d : Int} (h : (n : Int) ∣ d) : EC.mul K secp256k1.generator d = .ok .inf := by
  rw [gen_mul_mod, Int.emod_eq_zero_of_dvd h]
  rfl

theorem coord_ok {v : Nat} (h : v < p) : coordString (some (v : Int)) secp256k1.order = .ok (beBytes 32 v) := by
  have : p < 256 ^ orderlen secp256k1.order := by rw [orderlen_n]; decide
  unfold coordString
  simp only
  rw [numberToString_eq (lt_trans h this), orderlen_n]

theorem keyFromPoint_ok {x y : Nat} (hx : x < p) (hy : y < p) (o : Option Nat) (c : Bool) :
    keyFromPoint (.aff x y o) c = .ok (pubText c x y) := by
  unfold keyFromPoint
  simp only [Pt.x, Pt.y]
  rw [coord_ok hx, ok_bind, coord_ok hy, ok_bind]
  cases c
  · rfl
  · exact compress_uncompressedKey (lt_trans hy (by decide))

theorem publicKeyOf_ok {x y : Nat} (hy : y < p) (c : Bool) :
    publicKeyOf (uncompressedKey x y) c = .ok (pubText c x y) := by
  cases c
  · rfl
  · exact compress_uncompressedKey (lt_trans hy (by decide))

/-! ### The constructor -/

/-- The object made from a private key. -/
def mkAddr (H : Hashes) (x y : Nat) (w : Option Bytes) (v : Int) (tn c : Bool) : Address :=
  ⟨uncompressedKey x y, w, v, tn, c, publickeyToAddress H (pubText c x y) v (verByte tn)⟩

theorem initPub_uncompressed (s : Bytes) (h : s.head? = some 4) (hl : s.length = 65) :
    initPub (some s) = .ok (s, false) := by
  unfold initPub
  simp only
  rw [if_neg (by intro h0; rw [h0] at h; cases h), pyIndex_zero_of_head h, ok_bind, if_pos rfl,
    if_neg (by omega)]

theorem init_wif (H : Hashes) (c : Bool) (k : Bytes) (hk : k.length = 32) (hn : ¬ n ∣ bytesVal k) :
    ∃ x y, PubPoint (bytesVal k) x y ∧ ∀ vcn rnd tn,
      Address.init H none (some (wifText H c k)) vcn rnd tn =
        .ok (mkAddr H x y (some (wifText H c k)) (vcnOf vcn rnd) tn c) := by
  obtain ⟨x, y, o, -, hp, hm⟩ := gen_mul' (d := bytesVal k) (by rw [Int.natCast_dvd_natCast]; exact hn)
  refine ⟨x, y, hp, fun vcn rnd tn => ?_⟩
  obtain ⟨ch, h1, h2, h3⟩ := wifText_head H c k hk
  have e1 : initPriv H none (some (wifText H c k)) =
      .ok (some (uncompressedKey x y), some (wifText H c k), c) := by
    unfold initPriv
    simp only
    rw [if_neg (wifText_ne H c k hk), if_neg (by simp), h1, ok_bind, if_neg h3, wifText_from H c k hk,
      ok_bind, stringToNumber_eq k (by intro h; rw [h] at hk; cases hk), ok_bind]
    simp only [show secp256k1.curve = K from rfl, hm, ok_bind]
    rw [keyFromPoint_ok hp.1 hp.2.1 o false, ok_bind]
    have : decide (ch = 76 ∨ ch = 75) = c := by
      cases c
      · exact decide_eq_false (fun h => by simpa using h2.1 h)
      · exact decide_eq_true (h2.2 rfl)
    rw [this]; rfl
  unfold Address.init
  rw [e1, ok_bind]
  simp only
  rw [initPub_uncompressed _ rfl (by simp [uncompressedKey]), ok_bind]
  simp only [Bool.or_false]
  rw [publicKeyOf_ok hp.2.1, ok_bind]
  rfl

theorem init_wif_zero (H : Hashes) (c : Bool) (k : Bytes) (hk : k.length = 32) (hn : n ∣ bytesVal k)
    (vcn : Option Int) (rnd : Nat) (tn : Bool) :
    Address.init H none (some (wifText H c k)) vcn rnd tn = .error .typeError := by
  obtain ⟨ch, h1, h2, h3⟩ := wifText_head H c k hk
  have e1 : initPriv H none (some (wifText H c k)) = .error .typeError := by
    unfold initPriv
    simp only
    rw [if_neg (wifText_ne H c k hk), if_neg (by simp), h1, ok_bind, if_neg h3, wifText_from H c k hk,
      ok_bind, stringToNumber_eq k (by intro h; rw [h] at hk; cases hk), ok_bind]
    simp only [show secp256k1.curve = K from rfl]
    rw [gen_mul_zero (Int.natCast_dvd_natCast.2 hn), ok_bind]
    rfl
  unfold Address.init
  rw [e1, error_bind]

/-- What the constructor accepts, given a private key. -/
theorem init_priv_inv {H : Hashes} {pub : Option Bytes} {w : Bytes} {vcn : Option Int} {rnd : Nat} {tn : Bool}
    {a : Address} (hw : w ≠ []) (h : Address.init H pub (some w) vcn rnd tn = .ok a) :
    pub = none ∧ ∃ c k x y, k.length = 32 ∧ ¬ n ∣ bytesVal k ∧ w = wifText H c k ∧ PubPoint (bytesVal k) x y ∧
      a = mkAddr H x y (some w) (vcnOf vcn rnd) tn c := by
  have hpub : pub = none := by
    by_contra hp
    unfold Address.init initPriv at h
    simp only at h
    rw [if_neg hw, if_pos hp] at h
    cases h
  subst hpub
  refine ⟨rfl, ?_⟩
  have hk : ∃ k, privkeyFromWif H w = .ok k := by
    unfold Address.init initPriv at h
    simp only at h
    rw [if_neg hw, if_neg (by simp), bind_ok_iff] at h
    obtain ⟨r, h, -⟩ := h
    rw [bind_ok_iff] at h
    obtain ⟨ch, -, h⟩ := h
    by_cases hc : ch ≠ 76 ∧ ch ≠ 75 ∧ ch ≠ 53
    · rw [if_pos hc] at h; cases h
    · rw [if_neg hc, bind_ok_iff] at h
      obtain ⟨k, h, -⟩ := h
      exact ⟨k, h⟩
  obtain ⟨k, hk⟩ := hk
  obtain ⟨hl, hw'⟩ := privkeyFromWif_sound H w k 0x80 hk
  obtain ⟨c, rfl⟩ : ∃ c, w = wifText H c k := by
    rcases hw' with h | h
    · exact ⟨false, h⟩
    · exact ⟨true, h⟩
  have hn : ¬ n ∣ bytesVal k := fun hn => by
    rw [init_wif_zero H c k hl hn] at h; cases h
  obtain ⟨x, y, hp, he⟩ := init_wif H c k hl hn
  rw [he] at h
  exact ⟨c, k, x, y, hl, hn, rfl, hp, (Except.ok.inj h).symm⟩

/-- What the constructor accepts, without a private key. -/
theorem init_pub_inv {H : Hashes} {pub priv : Option Bytes} {vcn : Option Int} {rnd : Nat} {tn : Bool}
    {a : Address} (hw : priv = none ∨ priv = some []) (h : Address.init H pub priv vcn rnd tn = .ok a) :
    ∃ s, pub = some s ∧
      ((s.head? = some 4 ∧ s.length = 65 ∧
        a = ⟨s, none, vcnOf vcn rnd, tn, false, publickeyToAddress H s (vcnOf vcn rnd) (verByte tn)⟩) ∨
       ∃ x y, x < n ∧ 0 < y ∧ y < p ∧ OnCurve K x y ∧ s = compressedKey x y ∧
         decompressPublicKey s = .ok (uncompressedKey x y) ∧
         a = mkAddr H x y none (vcnOf vcn rnd) tn true) := by
  have e1 : initPriv H pub priv = .ok (pub, none, false) := by
    rcases hw with rfl | rfl
    · rfl
    · unfold initPriv; simp
  unfold Address.init at h
  rw [e1, ok_bind] at h
  simp only at h
  cases pub with
  | none => cases h
  | some s =>
    refine ⟨s, rfl, ?_⟩
    unfold initPub at h
    simp only at h
    cases s with
    | nil => rw [if_pos rfl] at h; cases h
    | cons ch t =>
      rw [if_neg (by simp), show pyIndex (ch :: t) 0 = .ok ch from rfl, ok_bind] at h
      by_cases h4 : ch = 4
      · subst h4
        rw [if_pos rfl] at h
        by_cases hl : (4 :: t : Bytes).length ≠ 65
        · rw [if_pos hl] at h; cases h
        · rw [if_neg hl, ok_bind] at h
          simp only [Bool.or_false] at h
          left
          refine ⟨rfl, by omega, ?_⟩
          rw [show publicKeyOf (4 :: t) false = .ok (4 :: t) from rfl, ok_bind] at h
          exact (Except.ok.inj h).symm
      · rw [if_neg h4] at h
        by_cases h23 : ch = 2 ∨ ch = 3
        · rw [if_pos h23] at h
          right
          rw [bind_ok_iff] at h
          obtain ⟨⟨q, c2⟩, h1, h2⟩ := h
          rw [bind_ok_iff] at h1
          obtain ⟨q', hd, h1⟩ := h1
          have h1' := Except.ok.inj h1
          cases h1'
          obtain ⟨x, y, hx, hy0, hy, hon, rfl, hs⟩ := decompress_sound hd
          have hs : ch :: t = compressedKey x y := by
            rcases hs with hs | hs
            · have := hs.1
              unfold uncompressedKey at this
              injection this with h5 _
              exact absurd h5 h4
            · exact hs
          simp only [Bool.or_true] at h2
          rw [publicKeyOf_ok hy, ok_bind] at h2
          exact ⟨x, y, hx, hy0, hy, hon, hs, hd, (Except.ok.inj h2).symm⟩
        · rw [if_neg h23] at h; cases h

end NBC.Wallet
