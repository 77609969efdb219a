import Verif.Props.Wallet
import Verif.Props.HDWallet

/-!
Cases that meet the hypotheses of the theorems of `Verif.Props.Wallet` (C44, C45, C52) and `Verif.Props.HDWallet` (C46, C47).
-/

namespace NBC.Props

open NBC NT EC Ecdsa Spec Der Key Ecc NBC.Secp Base58 Aes Wallet

/-- The wallet of the private key 5, compressed or not. -/
theorem private_case (H : Hashes) (c tn : Bool) : ∃ a, Made H a ∧ a.privKey ≠ none ∧ a.compressed = c ∧ a.testnet = tn := by
  have hb : bytesVal (beBytes 32 5) = 5 := bytesVal_beBytes_of_lt (by decide)
  obtain ⟨x, y, -, h⟩ := init_wif H c (beBytes 32 5) (by simp) (by rw [hb]; decide)
  exact ⟨_, ⟨none, _, some 7, 0, tn, by decide, h (some 7) 0 tn⟩, fun h => (by cases h), rfl, rfl⟩

/-- For C45 and C52: a private wallet that is saved, loaded, compressed and decompressed. -/
example (H : Hashes) (ver : PyVer) (pw : Bytes) : ∃ a b cfg, a.compress H = .ok b ∧ b.decompress H = .ok a ∧
    b.dump ver pw = .ok cfg ∧ Address.load ver H cfg [] pw 0 = .ok b ∧ Address.load ver H cfg pw [] 0 = .ok b := by
  obtain ⟨a, ha, hp, hc, -⟩ := private_case H false false
  obtain ⟨b, h1, hb, hs, -, h2⟩ := C52_compress H a ha hp hc
  have hpb : b.privKey ≠ none := by
    intro h0
    obtain ⟨-, h4, -⟩ := hs
    unfold Address.privBytes at h4
    rw [h0] at h4
    obtain ⟨w, hw⟩ := Option.ne_none_iff_exists'.1 hp
    rw [hw] at h4
    simp only at h4
    cases h6 : privkeyFromWif H w <;> rw [h6] at h4 <;> cases h4
  obtain ⟨cfg, h3, h4⟩ := C45_prompt ver H b hb hpb pw
  obtain ⟨cfg', h3', h4'⟩ := C45_private_partial ver H b hb hpb pw
  rw [h3] at h3'
  cases h3'
  exact ⟨a, b, cfg, h1, h2, h3, h4 0, h4' [] 0⟩

/-- For C45: a watch-only wallet with an uncompressed key. -/
example (H : Hashes) : ∃ a, Made H a ∧ a.privKey = none ∧ a.compressed = false :=
  ⟨_, ⟨_, none, some 5, 0, false, by decide, watch_init_uncompressed H
    0x79be667ef9dcbbac55a06295ce870b07029bfcdb2dce28d959f2815b16f81798
    0x483ada7726a3c4655da4fbfc0e1108a8fd17b448a68554199c47d08ffb10d4b8 _ _ _⟩, rfl, rfl⟩

/-- For C44: a wallet saved under `0123456789abcdefX` and opened with `0123456789abcdefY`. -/
example (H : Hashes) (ver : PyVer) : ∃ a cfg, a.dump ver (ascii "0123456789abcdefX") = .ok cfg ∧
    Address.load ver H cfg (ascii "0123456789abcdefY") [] 0 = .ok a := by
  obtain ⟨a, ha, hp, -⟩ := private_case H true false
  obtain ⟨cfg, h1, h2⟩ := C44_wallet_false ver H a ha hp (ascii "0123456789abcdefX") (ascii "0123456789abcdefY") (by decide)
    (by unfold SameStart; decide)
  exact ⟨a, cfg, h1, h2 [] 0⟩

/-- For C52: the generator as a watch-only wallet, compressed and decompressed. -/
example (H : Hashes) : ∃ a b : Address, a.compress H = .ok b ∧ b.decompress H = .ok a ∧ SameWallet H a b := by
  have hs : squareRootModPrime (rhs K 0x79be667ef9dcbbac55a06295ce870b07029bfcdb2dce28d959f2815b16f81798) p =
      .ok ((0x483ada7726a3c4655da4fbfc0e1108a8fd17b448a68554199c47d08ffb10d4b8 : Nat) : Int) := by decide +kernel
  have hr := Int.ofNat_inj.1 (root_eq (by decide) pubPoint_one.on hs)
  obtain ⟨a, b, -, -, h⟩ := C52_watch_partial H _ _ (by decide) (by decide) (by rw [← hr]; decide) pubPoint_one.on 5 false
  exact ⟨a, b, h⟩

/-- For C46 and C47: a private wallet that is saved and loaded, and its public part. -/
example (ver : PyVer) (pw : Bytes) : ∃ w v cfg, HDMade w ∧ w.key = .prv 1 ∧ PublicPart w v ∧ w.dump ver pw = .ok cfg ∧
    HDWallet.load ver cfg pw [] = .ok w := by
  have hw := hd_example 3 (by decide)
  obtain ⟨cfg, h1, h2⟩ := C46_private_partial ver _ 1 hw rfl pw
  obtain ⟨x, y, o, -, hP⟩ := point_prv (w := ⟨.prv 1, List.replicate 32 1, 5, false, 3, [1, 2, 3, 4], 7⟩) (k := 1) rfl (by decide)
    (by decide)
  refine ⟨_, ⟨.pub (.aff x y none), List.replicate 32 1, 5, false, 3, [1, 2, 3, 4], 7⟩, cfg, hw, rfl,
    ⟨⟨x, y, o, none, hP, rfl⟩, rfl, rfl, rfl, rfl, rfl, rfl⟩, h1, ?_⟩
  rw [h2, C46_same_partial _ (.inl (by decide))]

end NBC.Props
