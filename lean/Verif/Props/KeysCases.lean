import Verif.Props.Keys

/-!
Cases that meet the hypotheses of the theorems of `Verif.Props.Keys` (C24, C25, C28).
-/

namespace NBC.Props

open NBC NT EC Ecdsa Spec Der Key Ecc NBC.Secp Base58

/-- The ordinate of the curve point with `x = 1`. -/
def yOfOne : Nat := 0x4218f20ae6c646b363db68605822fb14264ca8d2587fdd6fbc750d587e76a7ee

theorem key_of_one : ∃ d : Nat, 1 ≤ d ∧ d < n ∧ PubPoint d 1 yOfOne :=
  exists_key (x := 1) (y := yOfOne) (by decide) (by decide) ((onCurve_iff _ _ _).2 (by decide +kernel))

/-- For C24: the secret 1 signs with the nonce whose point has `x = 1`, and the signature passes. -/
example : ∃ ent sig, Ecc.sign Hashes.toy [] (beBytes 32 1) ent = .ok sig ∧ verify Hashes.toy [] keyOne sig = .ok true := by
  obtain ⟨k, hk1, hk2, hkp⟩ := key_of_one
  have hrr := randrange_first hk1 hk2
  have hb : bytesVal (beBytes 32 1) = 1 := bytesVal_beBytes_of_lt (by decide)
  have hp := pubPoint_one
  rw [show (1 : Int) = ((bytesVal (beBytes 32 1) : Nat) : Int) by rw [hb]; rfl] at hp
  have hs : ¬ (n : Int) ∣ hashNum Hashes.toy [] + bytesVal (beBytes 32 1) * ((1 : Nat) : Int) := by decide +kernel
  obtain ⟨sig, hsig⟩ := (C24_sign_total_partial Hashes.toy [] (beBytes 32 1) _ k (beBytes_length _ _)
    (by rw [hb]) (by rw [hb]; decide) _ _ hp hrr _ _ hkp (by decide) hs).1 ⟨by decide, by decide⟩
  obtain ⟨x, y, k', r, hp', hk', ⟨ky, hr⟩, hv⟩ := C24_sign_verify_partial _ _ _ _ _ hsig
  rw [hrr] at hk'
  cases hk'
  obtain ⟨rfl, -⟩ := hr.unique hkp
  obtain ⟨rfl, rfl⟩ := hp'.unique hp
  have h1 := (hv []).1
  rw [List.append_nil] at h1
  exact ⟨_, sig, hsig, h1.trans (by decide)⟩

/-- For C25: a signature that decodes to (1, 1), the key of the secret 1; it is answered, as `hash + 1` is no multiple
of `n`. -/
example : eccSigdecodeDer [0x30, 6, 2, 1, 1, 2, 1, 1] = .ok (1, 1) ∧
    ∃ b, verify Hashes.toy [] keyOne [0x30, 6, 2, 1, 1, 2, 1, 1] = .ok b := by
  have h : eccSigdecodeDer [0x30, 6, 2, 1, 1, 2, 1, 1] = .ok (1, 1) := by decide +kernel
  exact ⟨h, ((C25_decodable_partial Hashes.toy [] _ 1 _ _ 1 1 pubPoint_one (by decide) (by decide) h).2
    ⟨by decide, by decide, by decide, by decide⟩).2 (by decide +kernel)⟩

/-- For C28: the secret 1 and the secret of the point with `x = 1` agree on the secret 1. -/
example (H : Hashes) : ∃ d : Nat, 1 ≤ d ∧ d < n ∧ PubPoint d 1 yOfOne ∧
    sharedSecret H keyOne (privkeyToWif H (beBytes 32 d)) = .ok (beBytes 32 1) ∧
    sharedSecret H (uncompressedKey 1 yOfOne) (privkeyToWif H (beBytes 32 1 ++ [1])) = .ok (beBytes 32 1) := by
  obtain ⟨d, h1, h2, hd⟩ := key_of_one
  have hb : bytesVal (beBytes 32 1) = 1 := bytesVal_beBytes_of_lt (by decide)
  have hb' : bytesVal (beBytes 32 d) = d := bytesVal_beBytes_of_lt (lt_trans (lt_trans h2 n_lt_p) p_lt)
  have hA := pubPoint_one
  rw [show (1 : Int) = ((bytesVal (beBytes 32 1) : Nat) : Int) by rw [hb]; rfl] at hA
  have hB := hd
  rw [← hb'] at hB
  obtain ⟨x, y, hxy, e1, e2⟩ := C28_agreement_partial H keyOne (uncompressedKey 1 yOfOne) (privkeyToWif H (beBytes 32 1 ++ [1]))
    (privkeyToWif H (beBytes 32 d)) (beBytes 32 1) (beBytes 32 d) _ _ 1 yOfOne (by rw [hb]; exact ⟨by decide, by decide⟩)
    (by rw [hb']; exact ⟨h1, h2⟩) (wif_roundtrip_compressed H _ (beBytes_length _ _))
    (wif_roundtrip_uncompressed H _ (beBytes_length _ _)) hA hB
    (decompress_uncompressedKey (by decide) (by decide) pubPoint_one.on)
    (decompress_uncompressedKey (by decide) (by decide) hd.on)
  rw [hb, hb', Nat.cast_one, one_mul] at hxy
  obtain ⟨rfl, -⟩ := hxy.unique hd
  exact ⟨d, h1, h2, hd, e1, e2⟩

end NBC.Props
