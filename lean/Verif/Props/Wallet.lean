import Verif.Proofs.WalletAddress
import Verif.Props.Keys

/-!
# C43–C45, C52, C53: wallet secrets and `Address`
-/

namespace NBC.Props
open NBC Key Ecdsa EC Aes Spec NBC.Secp Wallet

/-! ### C43 -/

/-- C43: decrypting with the passphrase of the encryption gives the secret and fewer than 16 zero bytes.
Missing: the empty secret (`C43_empty_false`). -/
theorem C43_roundtrip_partial (ver : PyVer) (s p prompt : Bytes) (hs : s ≠ []) (hl : s.length ≤ 240)
    (hp : p ≠ []) : ∃ c k, aesEncrypt ver s p = .ok c ∧ k < 16 ∧
      aesDecrypt ver c p prompt = .ok (s ++ List.replicate k 0) := by
  obtain ⟨c, h1, -, h2⟩ := aes_roundtrip ver s p
  exact ⟨c, _, h1, Nat.mod_lt _ (by omega), h2 hs hl p prompt (by rw [if_neg hp])⟩

/-- C43 is false for the empty secret: it encrypts to nothing, which is refused. -/
theorem C43_empty_false (ver : PyVer) (p prompt : Bytes) :
    aesEncrypt ver [] p = .ok [] ∧ aesDecrypt ver [] p prompt = .error .valueError := by
  obtain ⟨c, h1, h2, -⟩ := aes_roundtrip ver [] p
  have : c = [] := List.length_eq_zero_iff.1 (by rw [h2]; rfl)
  subst this
  exact ⟨h1, rfl⟩

/-- C43: the bound is the right one, since a longer secret encrypts but is then refused. -/
theorem C43_limit (ver : PyVer) (s p q prompt : Bytes) (hl : 240 < s.length) :
    ∃ c, aesEncrypt ver s p = .ok c ∧ aesDecrypt ver c q prompt = .error .valueError := by
  obtain ⟨c, h1, h2, -⟩ := aes_roundtrip ver s p
  refine ⟨c, h1, ?_⟩
  unfold aesDecrypt
  simp only [h2]
  rw [if_pos (by omega)]

/-- A secret of seventeen bytes. -/
example : ∃ c k, aesEncrypt .py3 (List.replicate 17 7) [112, 119] = .ok c ∧ k < 16 ∧
    aesDecrypt .py3 c [112, 119] [] = .ok (List.replicate 17 7 ++ List.replicate k 0) :=
  C43_roundtrip_partial .py3 _ _ _ (by decide) (by decide) (by decide)

/-! ### C44 -/

/-- Two passphrases agree on their first 16 bytes, a missing byte counting as zero. -/
def SameStart (p q : Bytes) : Prop := ∀ i < 16, p.getD i 0 = q.getD i 0

theorem passKey_getD (p : Bytes) (i : Nat) (h : i < 16) : (passKey p).getD i 0 = p.getD i 0 := by
  unfold passKey
  simp only [List.getD_eq_getElem?_getD, List.getElem?_append, List.length_take, List.getElem?_take,
    List.getElem?_replicate]
  by_cases h1 : i < p.length
  · rw [if_pos (by omega), if_pos h]
  · rw [if_neg (by omega), if_pos (by omega), List.getElem?_eq_none (by omega)]
    rfl

theorem passKey_eq_iff (p q : Bytes) : passKey p = passKey q ↔ SameStart p q := by
  constructor
  · intro h i hi
    rw [← passKey_getD p i hi, ← passKey_getD q i hi, h]
  · intro h
    apply List.ext_getElem (by rw [passKey_length, passKey_length])
    intro i h1 h2
    have hi : i < 16 := by rw [passKey_length] at h1; exact h1
    have := h i hi
    rw [← passKey_getD p i hi, ← passKey_getD q i hi] at this
    simpa [List.getD_eq_getElem?_getD, h1, h2] using this

/-- C44 is false: whatever was encrypted with one passphrase opens with every other one that agrees with it
on the first 16 bytes. -/
theorem C44_same_start_false (ver : PyVer) (s p q prompt : Bytes) (hs : s ≠ []) (hl : s.length ≤ 240)
    (hq : q ≠ []) (h : SameStart p q) : ∃ c k, aesEncrypt ver s p = .ok c ∧ k < 16 ∧
      aesDecrypt ver c q prompt = .ok (s ++ List.replicate k 0) := by
  obtain ⟨c, h1, -, h2⟩ := aes_roundtrip ver s p
  exact ⟨c, _, h1, Nat.mod_lt _ (by omega),
    h2 hs hl q prompt (by rw [if_neg hq]; exact ((passKey_eq_iff p q).2 h).symm)⟩

/-- Two such passphrases: `0123456789abcdefX` and `0123456789abcdefY`; and `pw` with a zero byte after it. -/
example : SameStart ((ascii "0123456789abcdefX")) ((ascii "0123456789abcdefY")) ∧
    ascii "0123456789abcdefX" ≠ ascii "0123456789abcdefY" ∧
    SameStart (ascii "pw") (ascii "pw" ++ [0]) := by
  refine ⟨?_, by decide, ?_⟩ <;> (unfold SameStart; decide)

/-- C44, what holds: other pairs of passphrases give the cipher different keys.  Missing: that a different
key does not open the wallet, which rests on the strength of AES. -/
theorem C44_keys_partial (p q : Bytes) (h : ∃ i < 16, p.getD i 0 ≠ q.getD i 0) :
    passKey p ≠ passKey q ∧ (passKey p).length = 16 := by
  obtain ⟨i, hi, hne⟩ := h
  exact ⟨fun h => hne ((passKey_eq_iff p q).1 h i hi), passKey_length p⟩

/-! ### C45 -/

/-- The objects that exist: those the constructor makes, with a random number in its range. -/
def Made (H : Hashes) (a : Address) : Prop :=
  ∃ pub priv vcn rnd tn, rnd < 65536 ∧ Address.init H pub priv vcn rnd tn = .ok a

theorem vcnOf_range (vcn : Option Int) (rnd : Nat) (h : rnd < 65536) :
    0 ≤ vcnOf vcn rnd ∧ vcnOf vcn rnd < 65536 := by
  cases vcn with
  | none => simp only [vcnOf]; omega
  | some v => simp only [vcnOf]; omega

theorem vcnOf_some {v : Int} (h : 0 ≤ v ∧ v < 65536) (rnd : Nat) : vcnOf (some v) rnd = v := by
  simp only [vcnOf]; omega

/-- A private wallet. -/
theorem made_priv {H : Hashes} {a : Address} (h : Made H a) (hp : a.privKey ≠ none) :
    ∃ k x y, k.length = 32 ∧ ¬ n ∣ bytesVal k ∧ PubPoint (bytesVal k) x y ∧ 0 ≤ a.vcn ∧ a.vcn < 65536 ∧
      a = mkAddr H x y (some (wifText H a.compressed k)) a.vcn a.testnet a.compressed := by
  obtain ⟨pub, priv, vcn, rnd, tn, hr, h⟩ := h
  by_cases hw : priv = none ∨ priv = some []
  · obtain ⟨s, -, ⟨-, -, rfl⟩ | ⟨x, y, -, -, -, -, -, -, rfl⟩⟩ := init_pub_inv hw h
    · exact absurd rfl hp
    · exact absurd rfl hp
  · push Not at hw
    obtain ⟨w, rfl⟩ := Option.ne_none_iff_exists'.1 hw.1
    obtain ⟨rfl, c, k, x, y, hk, hn, rfl, hpt, rfl⟩ := init_priv_inv (fun h0 => hw.2 (by rw [h0])) h
    exact ⟨k, x, y, hk, hn, hpt, (vcnOf_range vcn rnd hr).1, (vcnOf_range vcn rnd hr).2, rfl⟩

/-- A watch-only wallet. -/
theorem made_pub {H : Hashes} {a : Address} (h : Made H a) (hp : a.privKey = none) :
    0 ≤ a.vcn ∧ a.vcn < 65536 ∧
    ((a.compressed = false ∧ a.pubKey.head? = some 4 ∧ a.pubKey.length = 65 ∧
        a = ⟨a.pubKey, none, a.vcn, a.testnet, false, publickeyToAddress H a.pubKey a.vcn (verByte a.testnet)⟩) ∨
      (a.compressed = true ∧ ∃ x y, x < n ∧ 0 < y ∧ y < p ∧ OnCurve K x y ∧
        decompressPublicKey (compressedKey x y) = .ok (uncompressedKey x y) ∧
        a = mkAddr H x y none a.vcn a.testnet true)) := by
  obtain ⟨pub, priv, vcn, rnd, tn, hr, h⟩ := h
  by_cases hw : priv = none ∨ priv = some []
  · obtain ⟨s, -, ⟨h4, hl, rfl⟩ | ⟨x, y, hx, hy0, hy, hon, rfl, hd, rfl⟩⟩ := init_pub_inv hw h
    · exact ⟨(vcnOf_range vcn rnd hr).1, (vcnOf_range vcn rnd hr).2, Or.inl ⟨rfl, h4, hl, rfl⟩⟩
    · exact ⟨(vcnOf_range vcn rnd hr).1, (vcnOf_range vcn rnd hr).2,
        Or.inr ⟨rfl, x, y, hx, hy0, hy, hon, hd, rfl⟩⟩
  · push Not at hw
    obtain ⟨w, rfl⟩ := Option.ne_none_iff_exists'.1 hw.1
    obtain ⟨rfl, c, k, x, y, hk, hn, rfl, hpt, rfl⟩ := init_priv_inv (fun h0 => hw.2 (by rw [h0])) h
    cases hp

theorem load_private (ver : PyVer) (H : Hashes) (a : Address) (h : Made H a) (hp : a.privKey ≠ none)
    (pw : Bytes) : ∃ cfg, a.dump ver pw = .ok cfg ∧ cfg.encrypted = decide (pw ≠ []) ∧ ∀ q prompt rnd,
      (pw ≠ [] → passKey (if q = [] then prompt else q) = passKey pw) →
      Address.load ver H cfg q prompt rnd = .ok a := by
  obtain ⟨k, x, y, hk, hn, hpt, hv0, hv1, ha⟩ := made_priv h hp
  obtain ⟨t, e, h1, h2, h3, h4⟩ := secret_roundtrip ver (wifText H a.compressed k) pw
    (le_trans (wifText_length H _ k hk) (by omega))
  have hpk : a.privKey = some (wifText H a.compressed k) := by
    conv_lhs => rw [ha]
    rfl
  refine ⟨⟨e, a.vcn, a.testnet, some t, none⟩, ?_, h2, fun q prompt rnd hq => ?_⟩
  · unfold Address.dump
    rw [hpk]
    simp only
    rw [h1, ok_bind]
  · unfold Address.load
    simp only
    rw [if_pos h3, h4 q prompt hq, ok_bind]
    obtain ⟨x', y', hpt', he⟩ := init_wif H a.compressed k hk hn
    obtain ⟨rfl, rfl⟩ := hpt.unique hpt'
    rw [he, vcnOf_some ⟨hv0, hv1⟩, ← ha]

/-- C45, private wallets: the same object comes back. -/
theorem C45_private_partial (ver : PyVer) (H : Hashes) (a : Address) (h : Made H a) (hp : a.privKey ≠ none)
    (pw : Bytes) : ∃ cfg, a.dump ver pw = .ok cfg ∧ ∀ prompt rnd,
      Address.load ver H cfg pw prompt rnd = .ok a := by
  obtain ⟨cfg, h1, -, h2⟩ := load_private ver H a h hp pw
  exact ⟨cfg, h1, fun prompt rnd => h2 pw prompt rnd (fun hne => by rw [if_neg hne])⟩

/-- C45: a wallet saved with a passphrase and loaded without one is opened by the passphrase typed at the
prompt. -/
theorem C45_prompt (ver : PyVer) (H : Hashes) (a : Address) (h : Made H a) (hp : a.privKey ≠ none)
    (pw : Bytes) : ∃ cfg, a.dump ver pw = .ok cfg ∧ ∀ rnd, Address.load ver H cfg [] pw rnd = .ok a := by
  obtain ⟨cfg, h1, -, h2⟩ := load_private ver H a h hp pw
  exact ⟨cfg, h1, fun rnd => h2 [] pw rnd (fun hne => by rw [if_pos rfl])⟩

/-- C44 for whole wallets: a wallet saved under one passphrase is opened, complete, by every other that
agrees with it on the first 16 bytes. -/
theorem C44_wallet_false (ver : PyVer) (H : Hashes) (a : Address) (h : Made H a) (hp : a.privKey ≠ none)
    (p q : Bytes) (hq : q ≠ []) (hs : SameStart p q) : ∃ cfg, a.dump ver p = .ok cfg ∧ ∀ prompt rnd,
      Address.load ver H cfg q prompt rnd = .ok a := by
  obtain ⟨cfg, h1, -, h2⟩ := load_private ver H a h hp p
  exact ⟨cfg, h1, fun prompt rnd => h2 q prompt rnd
    (fun _ => by rw [if_neg hq]; exact ((passKey_eq_iff p q).2 hs).symm)⟩

/-- C45, watch-only wallets with an uncompressed key. -/
theorem C45_watch_partial (ver : PyVer) (H : Hashes) (a : Address) (h : Made H a) (hp : a.privKey = none)
    (hc : a.compressed = false) (pw prompt : Bytes) (rnd : Nat) :
    ∃ cfg, a.dump ver pw = .ok cfg ∧ Address.load ver H cfg pw prompt rnd = .ok a := by
  obtain ⟨hv0, hv1, ⟨-, h4, hl, ha⟩ | ⟨hc', -⟩⟩ := made_pub h hp
  · refine ⟨⟨false, a.vcn, a.testnet, none, some (hexlify a.pubKey)⟩, by unfold Address.dump; rw [hp], ?_⟩
    have hne : hexlify a.pubKey ≠ [] := by
      intro h0
      have := unhexlify_hexlify a.pubKey
      rw [h0] at this
      rw [← Except.ok.inj this] at hl
      cases hl
    unfold Address.load Address.load.loadPub
    simp only
    rw [if_pos hne, unhexlify_hexlify, ok_bind]
    unfold Address.init initPriv
    simp only [ok_bind]
    rw [initPub_uncompressed _ h4 hl, ok_bind]
    simp only [Bool.or_false]
    rw [show publicKeyOf a.pubKey false = .ok a.pubKey from rfl, ok_bind, vcnOf_some ⟨hv0, hv1⟩, ← ha]
  · rw [hc] at hc'; cases hc'

/-- C45 is false for watch-only wallets with a compressed key: the flag is lost, and with it the public key
(and so the address) that the wallet shows. -/
theorem C45_watch_compressed_false (ver : PyVer) (H : Hashes) (a : Address) (h : Made H a)
    (hp : a.privKey = none) (hc : a.compressed = true) (pw prompt : Bytes) (rnd : Nat) :
    ∃ cfg b, a.dump ver pw = .ok cfg ∧ Address.load ver H cfg pw prompt rnd = .ok b ∧
      b.compressed = false ∧ b.publicKey ≠ a.publicKey ∧
      b.address = publickeyToAddress H a.pubKey a.vcn (verByte a.testnet) := by
  obtain ⟨hv0, hv1, ⟨hc', -⟩ | ⟨-, x, y, hx, hy0, hy, hon, hd, ha⟩⟩ := made_pub h hp
  · rw [hc] at hc'; cases hc'
  · have hpk : a.pubKey = uncompressedKey x y := by
      conv_lhs => rw [ha]
      rfl
    have hlen : a.pubKey.length = 65 := by rw [hpk]; simp [uncompressedKey]
    have hne : hexlify a.pubKey ≠ [] := by
      intro h0
      have := unhexlify_hexlify a.pubKey
      rw [h0] at this
      rw [← Except.ok.inj this] at hlen
      cases hlen
    refine ⟨⟨false, a.vcn, a.testnet, none, some (hexlify a.pubKey)⟩,
      ⟨a.pubKey, none, a.vcn, a.testnet, false, publickeyToAddress H a.pubKey a.vcn (verByte a.testnet)⟩,
      by unfold Address.dump; rw [hp], ?_, rfl, ?_, rfl⟩
    · unfold Address.load Address.load.loadPub
      simp only
      rw [if_pos hne, unhexlify_hexlify, ok_bind]
      unfold Address.init initPriv
      simp only [ok_bind]
      rw [initPub_uncompressed _ (by rw [hpk]; rfl) hlen, ok_bind]
      simp only [Bool.or_false]
      rw [show publicKeyOf a.pubKey false = .ok a.pubKey from rfl, ok_bind, vcnOf_some ⟨hv0, hv1⟩]
    · unfold Address.publicKey
      simp only [hc]
      rw [hpk, publicKeyOf_ok hy, publicKeyOf_ok hy]
      intro h0
      have h1 := congrArg List.length (Except.ok.inj h0)
      simp [pubText, uncompressedKey, compressedKey] at h1

/-- Private wallets exist as well. -/
theorem private_example (H : Hashes) (c : Bool) : ∃ a, Made H a ∧ a.privKey ≠ none ∧ a.compressed = c := by
  obtain ⟨x, y, -, he⟩ := init_wif H c (beBytes 32 1) (by simp)
    (by rw [bytesVal_beBytes_of_lt (by decide)]; decide)
  exact ⟨_, ⟨none, _, some 5, 0, false, by decide, he _ _ _⟩, by simp [mkAddr], rfl⟩

/-! ### C52 -/

/-- Two forms of one wallet. -/
def SameWallet (H : Hashes) (a b : Address) : Prop :=
  b.pubKey = a.pubKey ∧ b.privBytes H = a.privBytes H ∧ b.vcn = a.vcn ∧ b.testnet = a.testnet

theorem mk_recompress (H : Hashes) (a : Address) (h : Made H a) (hp : a.privKey ≠ none) :
    ∃ (k : Bytes) (b : Address), k.length = 32 ∧ a.privKey = some (wifText H a.compressed k) ∧
      b.privKey = some (wifText H (!a.compressed) k) ∧ Made H b ∧ SameWallet H a b ∧
      b.compressed = !a.compressed ∧
      Address.init H none (some (wifText H a.compressed k)) (some a.vcn) 0 a.testnet = .ok a ∧
      Address.init H none (some (wifText H (!a.compressed) k)) (some a.vcn) 0 a.testnet = .ok b := by
  obtain ⟨k, x, y, hk, hn, hpt, hv0, hv1, ha⟩ := made_priv h hp
  obtain ⟨x', y', hpt', he⟩ := init_wif H a.compressed k hk hn
  obtain ⟨rfl, rfl⟩ := hpt.unique hpt'
  obtain ⟨x', y', hpt', he'⟩ := init_wif H (!a.compressed) k hk hn
  obtain ⟨rfl, rfl⟩ := hpt.unique hpt'
  have hpk : a.privKey = some (wifText H a.compressed k) := by
    conv_lhs => rw [ha]
    rfl
  refine ⟨k, mkAddr H x y (some (wifText H (!a.compressed) k)) a.vcn a.testnet (!a.compressed), hk, hpk, rfl,
    ⟨none, _, some a.vcn, 0, a.testnet, by omega, by rw [he', vcnOf_some ⟨hv0, hv1⟩]⟩, ⟨?_, ?_, rfl, rfl⟩, rfl,
    ?_, ?_⟩
  · conv_rhs => rw [ha]
    rfl
  · unfold Address.privBytes
    rw [hpk]
    simp only [mkAddr]
    rw [wifText_from H _ k hk, wifText_from H _ k hk]
  · rw [he, vcnOf_some ⟨hv0, hv1⟩, ← ha]
  · rw [he', vcnOf_some ⟨hv0, hv1⟩]

/-- C52, private wallets: `compress` keeps the key pair, the chain number and the network, and `decompress`
gives the same object back. -/
theorem C52_compress (H : Hashes) (a : Address) (h : Made H a) (hp : a.privKey ≠ none)
    (hc : a.compressed = false) : ∃ b, a.compress H = .ok b ∧ Made H b ∧ SameWallet H a b ∧
      b.compressed = true ∧ b.decompress H = .ok a := by
  obtain ⟨k, b, hk, h1, h2, h3, h4, h5, h6, h7⟩ := mk_recompress H a h hp
  rw [hc] at h1 h2 h5 h6 h7
  refine ⟨b, ?_, h3, h4, h5, ?_⟩
  · unfold Address.compress
    rw [if_neg (by rw [hc]; decide), h1]
    simp only
    rw [wifText_from H _ k hk, ok_bind]
    exact h7
  · unfold Address.decompress
    rw [if_neg (by rw [h5]; decide), h2]
    simp only
    rw [wifText_from H _ k hk, ok_bind, h4.2.2.1, h4.2.2.2]
    exact h6

/-- C52, private wallets, the other way round. -/
theorem C52_decompress (H : Hashes) (a : Address) (h : Made H a) (hp : a.privKey ≠ none)
    (hc : a.compressed = true) : ∃ b, a.decompress H = .ok b ∧ Made H b ∧ SameWallet H a b ∧
      b.compressed = false ∧ b.compress H = .ok a := by
  obtain ⟨k, b, hk, h1, h2, h3, h4, h5, h6, h7⟩ := mk_recompress H a h hp
  rw [hc] at h1 h2 h5 h6 h7
  refine ⟨b, ?_, h3, h4, h5, ?_⟩
  · unfold Address.decompress
    rw [if_neg (by rw [hc]; decide), h1]
    simp only
    rw [wifText_from H _ k hk, ok_bind]
    exact h7
  · unfold Address.compress
    rw [if_neg (by rw [h5]; decide), h2]
    simp only
    rw [wifText_from H _ k hk, ok_bind, h4.2.2.1, h4.2.2.2]
    exact h6

/-- C52: two forms of a wallet sign and verify alike. -/
theorem C52_sign_verify_same (H : Hashes) (a b : Address) (h : SameWallet H a b)
    (hp : a.privKey ≠ none) (hpb : b.privKey ≠ none) (data : Bytes) (ent : Nat → Nat → Bytes) :
    b.sign H data ent = a.sign H data ent ∧ ∀ sig, b.verify H data sig = a.verify H data sig := by
  obtain ⟨h1, h2, -⟩ := h
  refine ⟨?_, fun sig => by unfold Address.verify; rw [h1]⟩
  obtain ⟨w, hw⟩ := Option.ne_none_iff_exists'.1 hp
  obtain ⟨w', hw'⟩ := Option.ne_none_iff_exists'.1 hpb
  unfold Address.privBytes at h2
  unfold Address.sign
  rw [hw, hw'] at h2
  rw [hw, hw']
  simp only at h2 ⊢
  cases e : privkeyFromWif H w <;> cases e' : privkeyFromWif H w' <;> rw [e, e'] at h2
  · have h3 := Except.error.inj h2
    rw [h3]
  · cases h2
  · cases h2
  · have h3 := Except.ok.inj h2
    injection h3 with h3
    rw [h3]

/-- C52: a signature of a wallet is accepted by the wallet (and so by its other form), unless the defect of
C24 strikes, that is unless the nonce point has `x` not below the group order. -/
theorem C52_sign_verify_partial (H : Hashes) (a : Address) (h : Made H a) (data sig : Bytes)
    (ent : Nat → Nat → Bytes) (hs : a.sign H data ent = .ok sig) :
    ∃ k r ky : Nat, randrange n ent = .ok k ∧ PubPoint k r ky ∧ a.verify H data sig = .ok (decide (r < n)) := by
  have hp : a.privKey ≠ none := by
    intro h0
    unfold Address.sign at hs
    rw [h0] at hs
    cases hs
  obtain ⟨k, x, y, hk, hn, hpt, hv0, hv1, ha⟩ := made_priv h hp
  have hpk : a.privKey = some (wifText H a.compressed k) := by
    conv_lhs => rw [ha]
    rfl
  have hpub : a.pubKey = uncompressedKey x y := by
    conv_lhs => rw [ha]
    rfl
  unfold Address.sign at hs
  rw [hpk] at hs
  simp only at hs
  rw [wifText_from H _ k hk, ok_bind] at hs
  obtain ⟨x', y', j, r, hpt', hj, ⟨ky, hky⟩, hv⟩ := C24_sign_verify_partial H data k ent sig hs
  obtain ⟨rfl, rfl⟩ := hpt.unique hpt'
  refine ⟨j, r, ky, hj, hky, ?_⟩
  have := (hv []).1
  rw [List.append_nil] at this
  unfold Address.verify
  rw [hpub]
  exact this

theorem watch_init (H : Hashes) {x y : Nat} (hy : y < p)
    (hd : decompressPublicKey (compressedKey x y) = .ok (uncompressedKey x y)) (v : Option Int) (rnd : Nat)
    (tn : Bool) : Address.init H (some (compressedKey x y)) none v rnd tn =
      .ok (mkAddr H x y none (vcnOf v rnd) tn true) := by
  have e2 : initPub (some (compressedKey x y)) = .ok (uncompressedKey x y, true) := by
    unfold initPub
    simp only
    rw [if_neg (by simp [compressedKey])]
    by_cases hp : y % 2 = 0
    · rw [show pyIndex (compressedKey x y) 0 = .ok 2 by unfold compressedKey; rw [if_pos hp]; rfl, ok_bind,
        if_neg (by decide), if_pos (Or.inl rfl), hd, ok_bind]
    · rw [show pyIndex (compressedKey x y) 0 = .ok 3 by unfold compressedKey; rw [if_neg hp]; rfl, ok_bind,
        if_neg (by decide), if_pos (Or.inr rfl), hd, ok_bind]
  unfold Address.init initPriv
  simp only [ok_bind]
  rw [e2, ok_bind]
  simp only [Bool.or_true]
  rw [publicKeyOf_ok hy, ok_bind]
  rfl

/-- Such wallets as in `C45_watch_compressed_false` exist: the generator as a compressed public key. -/
theorem watch_example (H : Hashes) : ∃ a, Made H a ∧ a.privKey = none ∧ a.compressed = true := by
  have hd := decompress_compress_small (by decide) (by decide) (by decide) pubPoint_one.on
  exact ⟨_, ⟨_, none, some 5, 0, false, by decide, watch_init H (by decide) hd _ _ _⟩, rfl, rfl⟩

theorem watch_init_uncompressed (H : Hashes) (x y : Nat) (v : Option Int) (rnd : Nat) (tn : Bool) :
    Address.init H (some (uncompressedKey x y)) none v rnd tn =
      .ok (mkAddr H x y none (vcnOf v rnd) tn false) := by
  unfold Address.init initPriv
  simp only [ok_bind]
  rw [initPub_uncompressed _ rfl (by simp [uncompressedKey]), ok_bind]
  rfl

/-- C52, watch-only wallets, for keys whose coordinates `x`, `y` and the one of `y` and `p - y` that is a square
are below the group order: both directions work.  Missing: other keys (`C52_watch_false`). -/
theorem C52_watch_partial (H : Hashes) (x y : Nat) (hx : x < n) (hy : y < n) (hr : residueRoot p y < n)
    (hon : OnCurve K x y) (v : Int) (tn : Bool) : ∃ a b,
      Address.init H (some (uncompressedKey x y)) none (some v) 0 tn = .ok a ∧
      Address.init H (some (compressedKey x y)) none (some v) 0 tn = .ok b ∧
      a.compress H = .ok b ∧ b.decompress H = .ok a ∧ SameWallet H a b := by
  have hyp := lt_trans hy n_lt_p
  obtain ⟨hcp, hd, -⟩ := C26_decompress_compress_partial x y (lt_trans hx n_lt_p) hyp hon
  rw [if_pos ⟨hx, hr⟩] at hd
  refine ⟨mkAddr H x y none (v % 65536) tn false, mkAddr H x y none (v % 65536) tn true,
    watch_init_uncompressed H x y _ _ _, watch_init H hyp hd _ _ _, ?_, ?_, rfl, rfl, rfl, rfl⟩
  · unfold Address.compress
    simp only [mkAddr, Bool.false_eq_true, if_false]
    rw [hcp, ok_bind, watch_init H hyp hd]
    simp only [vcnOf, mkAddr, Int.emod_emod]
  · unfold Address.decompress
    simp only [mkAddr, not_true_eq_false, if_false]
    rw [decompress_uncompressedKey hx hy hon, ok_bind, watch_init_uncompressed]
    simp only [vcnOf, mkAddr, Int.emod_emod]

/-- C52 is false for watch-only wallets: the one for the point with `y = 6` cannot be compressed, and the one
for the compressed key of the point with `y = p - 1` cannot be decompressed. -/
theorem C52_watch_false (H : Hashes) (v : Option Int) (rnd : Nat) (tn : Bool) :
    (∃ a, Address.init H (some (uncompressedKey xSix 6)) none v rnd tn = .ok a ∧
      a.compress H = .error .valueError) ∧
    (∃ b, Address.init H (some (compressedKey xOne (p - 1))) none v rnd tn = .ok b ∧
      b.decompress H = .error .valueError) := by
  constructor
  · obtain ⟨-, h2, h3⟩ := C26_decompress_compress_false
    refine ⟨_, watch_init_uncompressed H xSix 6 v rnd tn, ?_⟩
    unfold Address.compress
    simp only [mkAddr, Bool.false_eq_true, if_false]
    rw [h2, ok_bind]
    have e2 : initPub (some (compressedKey xSix 6)) = .error .valueError := by
      unfold initPub
      simp only
      rw [if_neg (by simp [compressedKey]), show pyIndex (compressedKey xSix 6) 0 = .ok 2 from rfl, ok_bind,
        if_neg (by decide), if_pos (Or.inl rfl), h3, error_bind]
    unfold Address.init initPriv
    simp only [ok_bind]
    rw [e2, error_bind]
  · have hon : OnCurve K xOne ((p - 1 : Nat) : Int) := (onCurve_iff _ _ _).2 (by decide +kernel)
    obtain ⟨r, hr, -, hok, -⟩ := decompress_compressedKey (x := xOne) (y := p - 1) (by decide)
      (by decide) hon
    rw [show NT.squareRootModPrime (rhs K xOne) p = .ok 1 by decide +kernel] at hr
    have hr' := Except.ok.inj hr
    have hd := hok (by rw [← hr']; decide)
    refine ⟨_, watch_init H (by decide) hd v rnd tn, ?_⟩
    unfold Address.decompress
    simp only [mkAddr, not_true_eq_false, if_false]
    have hbad : decompressPublicKey (uncompressedKey xOne (p - 1)) = .error .valueError := by
      decide +kernel
    rw [hbad, error_bind]

/-! ### C53 -/

/-- C53: once the random number is drawn, `generate` gives a wallet whose private key is in range and whose
public key and address belong to it. -/
theorem C53_generate (H : Hashes) (vcn : Option Int) (rnd : Nat) (tn c : Bool) (ent : Nat → Nat → Bytes)
    (d : Nat) (hd : randrange n ent = .ok d) : ∃ (a : Address) (x y : Nat),
      Address.generate H vcn rnd tn c ent = .ok a ∧ 1 ≤ d ∧ d < n ∧
      a.privBytes H = .ok (some (beBytes 32 d)) ∧ PubPoint d x y ∧ a.pubKey = uncompressedKey x y ∧
      a.publicKey = .ok (if c then compressedKey x y else uncompressedKey x y) ∧
      a.address = publickeyToAddress H (if c then compressedKey x y else uncompressedKey x y) a.vcn
        (if tn then [0x6f] else [0x00]) ∧
      a.compressed = c ∧ a.testnet = tn ∧ (vcn = none → a.vcn = rnd) ∧ ∀ v, vcn = some v → a.vcn = v % 65536 := by
  obtain ⟨h1, h2⟩ := randrange_range hd
  have hb : bytesVal (beBytes 32 d) = d := bytesVal_beBytes_of_lt (lt_trans h2 Piecewise.n_lt)
  have hnd : ¬ n ∣ bytesVal (beBytes 32 d) := by
    rw [hb]
    intro h
    have := Nat.le_of_dvd (by omega) h
    omega
  obtain ⟨x, y, hp, he⟩ := init_wif H c (beBytes 32 d) (by simp) hnd
  rw [hb] at hp
  refine ⟨mkAddr H x y (some (wifText H c (beBytes 32 d))) (vcnOf vcn rnd) tn c, x, y, ?_, h1, h2, ?_, hp, rfl, ?_,
    rfl, rfl, rfl, ?_, ?_⟩
  · unfold Address.generate
    rw [show randrange secp256k1.order ent = .ok d from hd, ok_bind, Piecewise.toString_n h2, ok_bind]
    exact he vcn rnd tn
  · unfold Address.privBytes
    simp only [mkAddr]
    rw [wifText_from H c _ (by simp), ok_bind]
  · exact publicKeyOf_ok hp.2.1 c
  · rintro rfl; rfl
  · rintro v rfl; rfl

/-- C53: nothing else in `generate` fails. -/
theorem C53_only_entropy (H : Hashes) (vcn : Option Int) (rnd : Nat) (tn c : Bool) (ent : Nat → Nat → Bytes)
    (e : PyErr) (h : Address.generate H vcn rnd tn c ent = .error e) : randrange n ent = .error e := by
  cases hr : randrange n ent with
  | error e' =>
    unfold Address.generate at h
    rw [show randrange secp256k1.order ent = .error e' from hr, error_bind] at h
    exact congrArg _ (Except.error.inj h)
  | ok d =>
    obtain ⟨a, x, y, ha, -⟩ := C53_generate H vcn rnd tn c ent d hr
    rw [ha] at h
    cases h

/-- A draw that succeeds. -/
example : randrange n (fun _ _ => beBytes 32 (5 - 1)) = .ok 5 := randrange_first (by decide) (by decide)

end NBC.Props
