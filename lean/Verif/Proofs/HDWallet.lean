import Verif.Model.HDWallet
import Verif.Proofs.WalletAddress
import Verif.Props.Keys

/-! # HD wallets -/

namespace NBC.Wallet
open NBC Key Ecdsa Base58 EC NT Aes Spec NBC.Secp

theorem orderlen_p : orderlen secp256k1.curve.p = 32 := by decide +kernel
theorem orderlen_32 : orderlen 4294967295 = 4 := by decide +kernel
theorem orderlen_8 : orderlen 255 = 1 := by decide +kernel

theorem num4 {v : Nat} (h : v < 2 ^ 32) : numberToString (v : Int) 4294967295 = .ok (beBytes 4 v) := by
  rw [numberToString_eq (by rw [orderlen_32]; exact h), orderlen_32]

theorem num1 {v : Nat} (h : v < 256) : numberToString (v : Int) 255 = .ok (beBytes 1 v) := by
  rw [numberToString_eq (by rw [orderlen_8]; exact h), orderlen_8]

theorem pointCompress_ok {x y : Nat} (hx : x < p) (o : Option Nat) :
    pointCompress (.aff x y o) = .ok (compressedKey x y) := by
  have h1 : x < 256 ^ orderlen secp256k1.curve.p := by
    rw [orderlen_p]; exact lt_trans hx (by decide)
  unfold pointCompress
  simp only
  rw [numberToString_eq h1, orderlen_p, ok_bind]
  unfold compressedKey
  rcases Nat.mod_two_eq_zero_or_one y with h | h
  · rw [if_pos h, show ((y : Int) % 2).toNat = 0 by omega]; rfl
  · rw [if_neg (by omega), show ((y : Int) % 2).toNat = 1 by omega]; rfl

theorem point_prv {w : HDWallet} {k : Int} (hk : w.key = .prv k) (h1 : 1 ≤ k) (h2 : k < n) :
    ∃ (x y : Nat) (o : Option Nat), PubPoint k x y ∧ w.point = .ok (.aff x y o) := by
  obtain ⟨x, y, o, -, hp, hm⟩ := gen_mul h1 h2
  exact ⟨x, y, o, hp, by unfold HDWallet.point; rw [hk]; exact hm⟩

/-! ### The constructor -/

theorem init_inv {key : HDKey} {chain : Bytes} {vcn : Option Int} {rnd : Nat} {tn : Bool}
    {parent : Option (Int × Bytes × Int)} {w : HDWallet}
    (h : HDWallet.init key chain vcn rnd tn parent = .ok w) :
    (∀ k, key = .prv k → 1 ≤ k ∧ k < n) ∧ chain.length = 32 ∧ w.depth < 256 ∧
    w.key = key ∧ w.chain = chain ∧ w.vcn = vcnOf vcn rnd ∧ w.testnet = tn ∧
    (w.depth, w.parentfp, w.childnum) = parent.getD (0, List.replicate 4 0, 0) := by
  unfold HDWallet.init at h
  rw [bind_ok_iff] at h
  obtain ⟨_, h1, h⟩ := h
  rw [bind_ok_iff] at h
  obtain ⟨_, h2, h⟩ := h
  rw [bind_ok_iff] at h
  obtain ⟨_, h3, h⟩ := h
  rw [pyAssert_ok_iff] at h2 h3
  have hw := Except.ok.inj h
  subst hw
  refine ⟨?_, by simpa using h2, by simpa using h3, rfl, rfl, rfl, rfl, ?_⟩
  · rintro k rfl
    simp only [HDKey.check, pyAssert_ok_iff, decide_eq_true_eq] at h1
    exact ⟨by omega, h1.2⟩
  · cases parent <;> rfl

theorem init_ok' {key : HDKey} {chain : Bytes} (vcn : Option Int) (rnd : Nat) (tn : Bool)
    (hk : ∀ k, key = .prv k → 1 ≤ k ∧ k < n) (hc : chain.length = 32) (d : Int) (fp : Bytes) (cn : Int)
    (hd : d < 256) : HDWallet.init key chain vcn rnd tn (some (d, fp, cn)) =
      .ok ⟨key, chain, vcnOf vcn rnd, tn, d, fp, cn⟩ := by
  have e2 : pyAssert (chain.length == 32) = .ok () := by rw [pyAssert_ok_iff]; simpa using hc
  have e3 : pyAssert (decide (d < 256)) = .ok () := by rw [pyAssert_ok_iff]; simpa using hd
  have e1 : key.check = .ok () := by
    cases key with
    | pub P => rfl
    | prv k =>
      simp only [HDKey.check, pyAssert_ok_iff, decide_eq_true_eq]
      have := hk k rfl
      exact ⟨by omega, this.2⟩
  unfold HDWallet.init
  rw [e1, ok_bind, e2, ok_bind]
  show (pyAssert (decide (d < 256)) >>= fun _ => _) = _
  rw [e3, ok_bind]
  rfl

/-! ### Derivation -/

theorem hardened_iff {i : Nat} (h : i < 2 ^ 32) : i &&& 0x80000000 ≠ 0 ↔ 2 ^ 31 ≤ i := by
  have e : i &&& 0x80000000 = (i.testBit 31).toNat * 2 ^ 31 := by
    rw [← Nat.and_two_pow]; rfl
  rw [e, Nat.testBit_eq_decide_div_mod_eq]
  by_cases h1 : i / 2 ^ 31 % 2 = 1
  · rw [decide_eq_true h1]
    constructor
    · intro _; omega
    · intro _; decide
  · rw [decide_eq_false h1]
    constructor
    · intro h2; exact absurd rfl h2
    · intro _; omega

theorem not_hardened {i : Nat} (h : i < 2 ^ 31) : i &&& 0x80000000 = 0 := by
  by_contra hne
  have := (hardened_iff (by omega)).1 hne
  omega

theorem child_bounds {H : Hashes} {w c : HDWallet} {i : Int} {rnd : Nat} (h : w.child H i rnd = .ok c) :
    0 ≤ i ∧ i < 2 ^ 32 := by
  unfold HDWallet.child at h
  rw [bind_ok_iff] at h
  obtain ⟨_, h1, _⟩ := h
  rw [pyAssert_ok_iff, decide_eq_true_eq] at h1
  omega

/-- What a successful derivation did. -/
theorem child_inv {H : Hashes} {w c : HDWallet} {i : Int} {rnd : Nat} (h : w.child H i rnd = .ok c) :
    0 ≤ i ∧ i < 2 ^ 32 ∧ w.depth < 255 ∧
    (2 ^ 31 ≤ i → ∃ k, w.key = .prv k) ∧
    ∃ msg key fp, w.childMsg i (decide (i.toNat &&& 0x80000000 ≠ 0)) = .ok msg ∧
      w.childKey (bytesVal ((H.hmacSha512 w.chain msg).take 32)) = .ok key ∧ w.fingerprint H = .ok fp ∧
      HDWallet.init key ((H.hmacSha512 w.chain msg).drop 32) none rnd w.testnet (some (w.depth + 1, fp, i)) = .ok c ∧
      c = ⟨key, (H.hmacSha512 w.chain msg).drop 32, rnd, w.testnet, w.depth + 1, fp, i⟩ := by
  obtain ⟨hi0, hi1⟩ := child_bounds h
  unfold HDWallet.child at h
  rw [bind_ok_iff] at h
  obtain ⟨_, h1, h⟩ := h
  simp only at h
  split at h
  · cases h
  · rename_i hh
    rw [bind_ok_iff] at h
    obtain ⟨_, h2, h⟩ := h
    rw [bind_ok_iff] at h
    obtain ⟨msg, h3, h⟩ := h
    rw [bind_ok_iff] at h
    obtain ⟨m, h4, h⟩ := h
    rw [bind_ok_iff] at h
    obtain ⟨key, h5, h⟩ := h
    rw [bind_ok_iff] at h
    obtain ⟨fp, h6, h⟩ := h
    have hne : (H.hmacSha512 w.chain msg).take 32 ≠ [] := by
      intro h0
      have := congrArg List.length h0
      rw [List.length_take, H.hmacSha512_length] at this
      simp at this
    rw [stringToNumber_eq _ hne] at h4
    have h4' := Except.ok.inj h4
    subst h4'
    rw [pyAssert_ok_iff, decide_eq_true_eq] at h2
    refine ⟨hi0, hi1, h2, ?_, msg, key, fp, h3, h5, h6, h, ?_⟩
    · intro hi
      cases hk : w.key with
      | prv k => exact ⟨k, rfl⟩
      | pub P =>
        exfalso
        apply hh
        rw [hk]
        simp only [HDKey.isPub, Bool.and_true, decide_eq_true_eq]
        exact (hardened_iff (by omega)).2 (by omega)
    · obtain ⟨-, -, -, e1, e2, e3, e4, e5⟩ := init_inv h
      simp only [Option.getD_some, Prod.mk.injEq] at e5
      obtain ⟨e5, e6, e7⟩ := e5
      cases c
      simp only [vcnOf] at *
      subst e1 e2 e3 e4 e5 e6 e7
      rfl

theorem drop32_length (H : Hashes) (k m : Bytes) : ((H.hmacSha512 k m).drop 32).length = 32 := by
  rw [List.length_drop, H.hmacSha512_length]

/-- The steps of a derivation, for a wallet whose public point is known. -/
theorem child_eq {H : Hashes} {w : HDWallet} {x y : Nat} {o : Option Nat} (hx : x < p)
    (hP : w.point = .ok (.aff x y o)) {i : Nat} (hi : i < 2 ^ 31) (rnd : Nat) :
    w.child H i rnd =
      if w.depth < 255 then
        (w.childKey (bytesVal ((H.hmacSha512 w.chain (compressedKey x y ++ beBytes 4 i)).take 32))).bind (fun key =>
          HDWallet.init key ((H.hmacSha512 w.chain (compressedKey x y ++ beBytes 4 i)).drop 32) none rnd w.testnet
            (some (w.depth + 1, (hash160 H (compressedKey x y)).take 4, (i : Int))))
      else .error .assertionError := by
  have e1 : pyAssert (decide ((0 : Int) ≤ (i : Nat) ∧ ((i : Nat) : Int) ≤ 4294967295)) = .ok () := by
    rw [pyAssert_ok_iff, decide_eq_true_eq]; omega
  have e2 : decide (((i : Nat) : Int).toNat &&& 0x80000000 ≠ 0) = false := by
    rw [Int.toNat_natCast, not_hardened hi]; rfl
  unfold HDWallet.child
  rw [e1, ok_bind]
  simp only [e2, Bool.false_and, Bool.false_eq_true, if_false]
  by_cases hd : w.depth < 255
  · rw [if_pos hd, show pyAssert (decide (w.depth < 255)) = .ok () by
      rw [pyAssert_ok_iff, decide_eq_true_eq]; exact hd, ok_bind]
    have em : w.childMsg i false = .ok (compressedKey x y ++ beBytes 4 i) := by
      unfold HDWallet.childMsg
      rw [num4 (by omega), ok_bind]
      simp only [Bool.false_eq_true, if_false]
      rw [hP, ok_bind, pointCompress_ok hx, ok_bind]
    have ef : w.fingerprint H = .ok ((hash160 H (compressedKey x y)).take 4) := by
      unfold HDWallet.fingerprint
      rw [hP, ok_bind, pointCompress_ok hx, ok_bind]
    rw [em, ok_bind, stringToNumber_eq _ (by
      intro h0
      have := congrArg List.length h0
      rw [List.length_take, H.hmacSha512_length] at this
      simp at this), ok_bind, ef]
    rfl
  · rw [if_neg hd, show pyAssert (decide (w.depth < 255)) = .error .assertionError by
      rw [decide_eq_false hd]; rfl, error_bind]

/-- The private branch. -/
theorem childKey_prv {w : HDWallet} {k : Int} (hk : w.key = .prv k) (m : Nat) :
    w.childKey m = if n ≤ m ∨ (n : Int) ∣ k + m then .error .exception
      else .ok (.prv ((k + m) % (n : Nat))) := by
  unfold HDWallet.childKey
  rw [hk, show secp256k1.order = n from rfl]
  simp only [ge_iff_le]
  by_cases h1 : n ≤ m
  · rw [if_pos h1, if_pos (Or.inl h1)]
  · rw [if_neg h1]
    by_cases h2 : (n : Int) ∣ k + m
    · rw [if_pos (Or.inr h2), if_pos (Int.emod_eq_zero_of_dvd h2)]
    · rw [if_neg (fun h => h2 (Int.dvd_of_emod_eq_zero h)),
        if_neg (fun h => h.elim h1 h2)]

/-- The public branch, for the public point of the exponent `k`. -/
theorem childKey_pub {w : HDWallet} {k : Int} {x y : Nat} {o : Option Nat} (hp : PubPoint k x y)
    (hk : w.key = .pub (.aff x y o)) (m : Nat) :
    (n ≤ m ∨ (n : Int) ∣ k + m → w.childKey m = .error .exception) ∧
    (¬ (n ≤ m ∨ (n : Int) ∣ k + m) → ∃ (x' y' : Nat) (o' : Option Nat), PubPoint (k + m) x' y' ∧
      w.childKey m = .ok (.pub (.aff x' y' o'))) := by
  by_cases h1 : n ≤ m
  · refine ⟨fun _ => ?_, fun h => absurd (Or.inl h1) h⟩
    unfold HDWallet.childKey
    rw [if_pos (show m ≥ secp256k1.order from h1)]
  · obtain ⟨Q, hQ, hrQ, hred⟩ : ∃ Q, EC.mul K secp256k1.generator m = .ok Q ∧ Rep K Q ((m : Int) • g) ∧
        Reduced K Q := by
      by_cases h0 : m = 0
      · subst h0
        refine ⟨.inf, gen_mul_zero (Int.dvd_zero _), ?_, trivial⟩
        show ((0 : Nat) : Int) • g = 0
        exact zero_zsmul g
      · obtain ⟨x2, y2, o2, -, hp2, hm2⟩ := gen_mul (d := m) (by omega) (by omega)
        exact ⟨_, hm2, hp2.rep o2, by
          constructor
          · omega
          · exact_mod_cast hp2.2.1⟩
    obtain ⟨R, hR, hrR, hRred, -⟩ := add_spec good (hp.rep o) hrQ
    have hRred := hRred (by
      constructor
      · omega
      · exact_mod_cast hp.2.1) hred
    rw [← add_zsmul] at hrR
    have e : w.childKey m = if R.eq .inf then .error .exception else .ok (.pub R) := by
      unfold HDWallet.childKey
      rw [if_neg (show ¬ m ≥ secp256k1.order from h1), hk]
      simp only [show secp256k1.curve = K from rfl]
      rw [hQ, ok_bind, hR, ok_bind]
    rw [e]
    have hz : (n : Int) ∣ k + m ↔ (k + (m : Int)) • g = 0 := by
      rw [← addOrderOf_dvd_iff_zsmul_eq_zero, addOrderOf_g]
    cases R with
    | inf =>
      have h0 : (k + (m : Int)) • g = 0 := hrR
      exact ⟨fun _ => rfl, fun h => absurd (Or.inr (hz.2 h0)) h⟩
    | aff x3 y3 o3 =>
      obtain ⟨hx0, hxp, hns, he⟩ := hrR
      obtain ⟨hy0, hyp⟩ := hRred
      obtain ⟨x3, rfl⟩ := Int.eq_ofNat_of_zero_le hx0
      obtain ⟨y3, rfl⟩ := Int.eq_ofNat_of_zero_le hy0
      have hpp : PubPoint (k + m) x3 y3 := by
        refine ⟨by exact_mod_cast hxp, by exact_mod_cast hyp, by simpa using hns, ?_⟩
        rw [he]; simp
      constructor
      · rintro (h | h)
        · exact absurd h h1
        · rw [hz, he] at h
          exact absurd h (WeierstrassCurve.Affine.Point.some_ne_zero _)
      · intro _
        exact ⟨x3, y3, o3, hpp, rfl⟩

end NBC.Wallet
