import Verif.Props.Keys
import Verif.Props.HDFlow
import Verif.Model.Pem

/-!
C178: the point at infinity never passes for a public key.
-/

namespace NBC.Props

open NBC NT EC Ecdsa Spec Key Der Ecc Secp
open Wallet

/-- C178: whatever the curve and the generator, a public key that is made has a point with coordinates, and they are
below the order. -/
theorem C178_made (C : CurveFp) (G P : Pt) (K : PublicKey) (h : mkPublicKey C G P = .ok K) :
    ∃ (m : Nat) (x y : Int) (o : Option Nat), G.order = some m ∧ K.point = .aff x y o ∧ P = .aff x y o ∧
      0 ≤ x ∧ x < m ∧ 0 ≤ y ∧ y < m := by
  unfold mkPublicKey at h
  cases hG : G.order with
  | none => rw [hG] at h; cases h
  | some m =>
    rw [hG] at h
    simp only at h
    split at h
    · cases h
    obtain ⟨r, -, h⟩ := bind_ok_iff.1 h
    split at h
    · cases h
    cases P with
    | inf => cases h
    | aff x y o =>
      simp only [Pt.x, Pt.y] at h
      split at h
      · cases h
      · rename_i hr
        cases h
        exact ⟨m, x, y, o, rfl, rfl, rfl, by omega, by omega, by omega, by omega⟩

/-- A number that has a text of fixed length is the value of that text. -/
theorem number_text {v : Int} {order : Nat} {t : Bytes} (h : numberToString v order = .ok t) :
    t.length = orderlen order ∧ v = bytesVal t := by
  by_cases h0 : v < 0
  · rw [numberToString_neg h0] at h; cases h
  obtain ⟨m, rfl⟩ := Int.eq_ofNat_of_zero_le (show 0 ≤ v by omega)
  by_cases hm : m < 256 ^ orderlen order
  · rw [numberToString_eq hm] at h
    cases h
    exact ⟨beBytes_length _ _, by rw [bytesVal_beBytes_of_lt hm]⟩
  · obtain ⟨e, he⟩ := numberToString_big (n := m) (order := order) (by omega)
    rw [he] at h; cases h

/-- C178: the text of a key, if there is one, is the text of a point with coordinates, and says which. -/
theorem C178_text (vk : VerifyingKey) (t : Bytes) (h : vk.toStr = .ok t) :
    ∃ (o : Option Nat) (a b : Bytes), t = a ++ b ∧ a.length = orderlen vk.curve.order ∧
      b.length = orderlen vk.curve.order ∧ vk.pubkey.point = .aff (bytesVal a) (bytesVal b) o := by
  unfold VerifyingKey.toStr at h
  cases hP : vk.pubkey.point with
  | inf => rw [hP] at h; cases h
  | aff x y o =>
    rw [hP] at h
    simp only [Pt.x, Pt.y] at h
    obtain ⟨a, ha, h⟩ := bind_ok_iff.1 h
    obtain ⟨b, hb, h⟩ := bind_ok_iff.1 h
    cases h
    obtain ⟨la, rfl⟩ := number_text ha
    obtain ⟨lb, rfl⟩ := number_text hb
    exact ⟨o, a, b, rfl, la, lb, rfl⟩

/-- C178: keys of curves with orders of the same length that have the same text have the same point. -/
theorem C178_same (v w : VerifyingKey) (t : Bytes) (hc : orderlen v.curve.order = orderlen w.curve.order)
    (hv : v.toStr = .ok t) (hw : w.toStr = .ok t) :
    v.pubkey.point.eq w.pubkey.point = true ∧ v.pubkey.point.x ≠ none := by
  obtain ⟨o, a, b, rfl, la, lb, e⟩ := C178_text v t hv
  obtain ⟨o', a', b', ht, la', lb', e'⟩ := C178_text w _ hw
  obtain ⟨rfl, rfl⟩ := List.append_inj ht (by omega)
  rw [e, e']
  simp [Pt.eq, Pt.x]

/-- C178: neither the text of a key nor that of an address is made of the point at infinity. -/
theorem C178_refused (vk : VerifyingKey) (h : vk.pubkey.point = .inf) (compressed : Bool) :
    vk.toStr = .error .typeError ∧ vk.toDer = .error .typeError ∧ vk.toPem = .error .typeError ∧
    keyFromPoint .inf compressed = .error .typeError := by
  have h1 : vk.toStr = .error .typeError := by
    unfold VerifyingKey.toStr
    rw [h]
    rfl
  have h2 : vk.toDer = .error .typeError := by
    unfold VerifyingKey.toDer
    rw [h1]
    rfl
  refine ⟨h1, h2, ?_, rfl⟩
  unfold VerifyingKey.toPem
  rw [h2]
  rfl

/-- C178: a child of a watching wallet is never at infinity. -/
theorem C178_child (w : HDWallet) (m : Nat) (R : Pt) (h : w.childKey m = .ok (.pub R)) : ∃ x y o, R = .aff x y o := by
  unfold HDWallet.childKey at h
  split at h
  · cases h
  split at h
  · simp only at h
    split at h <;> cases h
  · obtain ⟨Q, -, h⟩ := bind_ok_iff.1 h
    obtain ⟨S, -, h⟩ := bind_ok_iff.1 h
    split at h
    · cases h
    · rename_i hS
      cases h
      cases R with
      | inf => exact absurd rfl hS
      | aff x y o => exact ⟨x, y, o, rfl⟩

/-- C178: a secret that is no private key, being zero modulo the order, gives no shared secret with anybody. -/
theorem C178_shared (H : Hashes) (pub wif priv k : Bytes) (hd : decompressPublicKey pub = .ok k)
    (hw : privkeyFromWif H wif 0x80 = .ok priv) (h0 : n ∣ bytesVal priv) :
    sharedSecret H pub wif = .error .typeError := by
  obtain ⟨xa, ya, hx, -, hy, hon, rfl, -⟩ := decompress_sound hd
  have hxp := lt_trans hx n_lt_p
  obtain ⟨a, -, -, hA⟩ := exists_key hxp hy hon
  have hl := (privkeyFromWif_sound H wif priv 0x80 hw).1
  have e2 : ((uncompressedKey xa ya).drop 1).take 32 = beBytes 32 xa := by
    rw [uncompressedKey, List.drop_succ_cons, List.drop_zero, List.take_append_of_le_length (by simp)]
    exact List.take_of_length_le (by simp)
  have e3 : (uncompressedKey xa ya).drop 33 = beBytes 32 ya := by
    rw [uncompressedKey, List.drop_succ_cons, List.drop_append_of_le_length (by simp)]
    simp
  have h1 := stringToNumber_of_length (beBytes_length 32 xa) (by omega)
  have h2 := stringToNumber_of_length (beBytes_length 32 ya) (by omega)
  rw [bytesVal_beBytes_of_lt (lt_trans hA.1 p_lt)] at h1
  rw [bytesVal_beBytes_of_lt (lt_trans hA.2.1 p_lt)] at h2
  have h3 := stringToNumber_of_length hl (by omega)
  have hc : secp256k1.curve.containsPoint xa ya = true := (onCurve_iff _ _ _).1 hA.on
  obtain ⟨R, hm, hr, -⟩ := mul_ok good (hA.rep none) (odd_order _) (bytesVal priv : Int)
    (Or.inl ⟨rfl, by omega⟩)
  simp only [sharedSecret, hd, ok_bind, e2, e3, h1, h2, mkPoint_eq, hc, if_true, hw, h3]
  have hm' : EC.mul secp256k1.curve (.aff xa ya none) (bytesVal priv) = .ok R := hm
  rw [hm', ok_bind]
  obtain ⟨q, hq⟩ := h0
  have hz : ∀ Q : (W K).Point, (bytesVal priv : Int) • Q = 0 := by
    intro Q
    rw [natCast_zsmul, hq, mul_nsmul, n_smul, nsmul_zero]
  rw [hz] at hr
  rw [rep_zero hr]
  rfl

/-- The generator, of order 11, of a small curve makes a public key; the point at infinity does not. -/
example : ∃ K, mkPublicKey ⟨7, 1, 6⟩ (.aff 1 1 (some 11)) (.aff 1 1 (some 11)) = .ok K ∧
    mkPublicKey ⟨7, 1, 6⟩ (.aff 1 1 (some 11)) .inf = .error .typeError := ⟨_, rfl, rfl⟩

/-- The text of zero is a WIF text and the generator a public key: no shared secret. -/
example (H : Hashes) : sharedSecret H keyOne (privkeyToWif H (List.replicate 32 0)) = .error .typeError :=
  C178_shared H _ _ _ _ (decompress_uncompressedKey (by decide) (by decide) pubPoint_one.on)
    (wif_roundtrip_uncompressed H _ rfl) (by decide +kernel)

end NBC.Props
