import Verif.Proofs.Base58
import Verif.Model.Key
import Verif.Spec.Text

/-! # Helper lemmas for WIF and addresses -/

namespace NBC.Key
open NBC Spec Base58

theorem digitsBE_head_of_interval {b n k d : Nat} (hb : 2 ≤ b) (hd : 0 < d) (hdb : d < b)
    (h1 : d * b ^ k ≤ n) (h2 : n < (d + 1) * b ^ k) : (digitsBE b n).head? = some d := by
  have hpos : 0 < b ^ k := Nat.pow_pos (by omega)
  have hl1 : (digitsBE b n).length ≤ k + 1 := by
    rw [digitsBE_length_le_iff b n _ hb, pow_succ, Nat.mul_comm]
    exact lt_of_lt_of_le h2 (Nat.mul_le_mul_right _ (by omega))
  have hl2 : ¬ (digitsBE b n).length ≤ k := by
    rw [digitsBE_length_le_iff b n _ hb]
    have : 1 * b ^ k ≤ d * b ^ k := Nat.mul_le_mul_right _ (by omega)
    omega
  have hv := beVal_digitsBE b n hb
  have hlt := digitsBE_lt b n hb
  cases hds : digitsBE b n with
  | nil => rw [hds] at hl2; simp at hl2
  | cons x xs =>
    rw [hds] at hv hl1 hl2 hlt
    have hxl : xs.length = k := by simp at hl1 hl2; omega
    have hxs := beVal_lt b xs (fun y hy => hlt y (by simp [hy]))
    rw [beVal, hxl] at hv
    rw [hxl] at hxs
    have hx : n / b ^ k = x := by
      rw [← hv, Nat.add_comm, Nat.add_mul_div_right _ _ hpos, Nat.div_eq_of_lt hxs]; simp
    have hd' : n / b ^ k = d := by
      apply Nat.div_eq_of_lt_le
      · exact h1
      · simpa using h2
    simp [← hx, hd']

/-- First character of the base58 text of a string with non-zero first byte. -/
theorem b58encode_head {c : UInt8} {t : Bytes} {k d : Nat} (hc : c ≠ 0) (hd : 0 < d) (hdb : d < 58)
    (h1 : d * 58 ^ k ≤ bytesVal (c :: t)) (h2 : bytesVal (c :: t) < (d + 1) * 58 ^ k) :
    (b58encode (c :: t)).head? = some (alphaAt d) := by
  have := b58encode_eq 0 (c :: t) (by intro x hx; simp at hx; rw [← hx]; exact hc)
  simp only [List.replicate_zero, List.nil_append] at this
  rw [this, List.head?_map, digitsBE_head_of_interval (by omega) hd hdb h1 h2]; rfl

/-- Bounds on the value from the first byte. -/
theorem bytesVal_bounds (c : UInt8) (t : Bytes) (m : Nat) (hm : t.length = m) :
    c.toNat * 256 ^ m ≤ bytesVal (c :: t) ∧ bytesVal (c :: t) < (c.toNat + 1) * 256 ^ m := by
  have := bytesVal_lt t
  rw [bytesVal_cons, hm] at *
  constructor
  · omega
  · rw [Nat.add_mul, Nat.one_mul]; omega

theorem pyIndex_zero_of_head {s : Bytes} {c : UInt8} (h : s.head? = some c) :
    pyIndex s 0 = .ok c := by
  cases s with
  | nil => simp at h
  | cons x s => simp at h; subst h; rfl

theorem sha256d_take4 (H : Hashes) (v : Bytes) : ((H.sha256d v).take 4).length = 4 := by
  simp [Hashes.sha256d, H.sha256_length]

theorem wif_head_uncompressed (H : Hashes) (k : Bytes) (hk : k.length = 32) :
    (privkeyToWif H k).head? = some 53 := by
  have hlen : (k ++ (H.sha256d ([0x80] ++ k)).take 4).length = 36 := by
    rw [List.length_append, sha256d_take4, hk]
  have hb := bytesVal_bounds 0x80 _ 36 hlen
  have e : privkeyToWif H k = b58encode (0x80 :: (k ++ (H.sha256d ([0x80] ++ k)).take 4)) := by
    simp [privkeyToWif, encodeCheck]
  rw [e]
  refine b58encode_head (k := 50) (d := 4) (by decide) (by omega) (by omega) ?_ ?_
  · refine le_trans ?_ hb.1
    decide
  · refine lt_of_lt_of_le hb.2 ?_
    decide

theorem wif_head_compressed (H : Hashes) (k : Bytes) (hk : k.length = 33) :
    (privkeyToWif H k).head? = some 75 ∨ (privkeyToWif H k).head? = some 76 := by
  have hlen : (k ++ (H.sha256d ([0x80] ++ k)).take 4).length = 37 := by
    rw [List.length_append, sha256d_take4, hk]
  have hb := bytesVal_bounds 0x80 _ 37 hlen
  have e : privkeyToWif H k = b58encode (0x80 :: (k ++ (H.sha256d ([0x80] ++ k)).take 4)) := by
    simp [privkeyToWif, encodeCheck]
  rw [e]
  generalize k ++ (H.sha256d ([0x80] ++ k)).take 4 = t at *
  by_cases hc : bytesVal (0x80 :: t) < 19 * 58 ^ 51
  · left
    refine b58encode_head (k := 51) (d := 18) (by decide) (by omega) (by omega) ?_ hc
    refine le_trans ?_ hb.1
    decide
  · right
    refine b58encode_head (k := 51) (d := 19) (by decide) (by omega) (by omega) (by omega) ?_
    refine lt_of_lt_of_le hb.2 ?_
    decide

theorem decodeCheck_wif (H : Hashes) (k : Bytes) (pre : UInt8) :
    decodeCheck H (privkeyToWif H k pre) = .ok (some (pre :: k)) := by
  simpa [privkeyToWif] using decodeCheck_encodeCheck H ([pre] ++ k)

theorem wif_roundtrip_uncompressed (H : Hashes) (k : Bytes) (hk : k.length = 32) :
    privkeyFromWif H (privkeyToWif H k) = .ok k := by
  have h0 := pyIndex_zero_of_head (wif_head_uncompressed H k hk)
  have hc : pyIndex (128 :: k) 0 = .ok 128 := rfl
  simp only [privkeyFromWif, decodeCheck_wif, Bind.bind, Except.bind, h0, hc]
  simp [hk, Pure.pure, Except.pure]

theorem wif_roundtrip_compressed (H : Hashes) (k : Bytes) (hk : k.length = 32) :
    privkeyFromWif H (privkeyToWif H (k ++ [1])) = .ok k := by
  have hl : (k ++ [1]).length = 33 := by simp [hk]
  have hi : pyIndex (128 :: (k ++ [1])) ((128 :: (k ++ [(1 : UInt8)])).length - 1) = .ok 1 := by
    simp [pyIndex]
  have h0 : pyIndex (privkeyToWif H (k ++ [1])) 0 = .ok 75 ∨
      pyIndex (privkeyToWif H (k ++ [1])) 0 = .ok 76 :=
    (wif_head_compressed H _ hl).imp pyIndex_zero_of_head pyIndex_zero_of_head
  have hc : pyIndex (128 :: (k ++ [1])) 0 = .ok 128 := rfl
  simp only [privkeyFromWif, decodeCheck_wif, Bind.bind, Except.bind, hi, hc]
  rcases h0 with h0 | h0 <;>
    simp [h0, hk, Pure.pure, Except.pure]

theorem privkeyFromWif_sound (H : Hashes) (w k : Bytes) (pre : UInt8)
    (h : privkeyFromWif H w pre = .ok k) :
    k.length = 32 ∧ (w = privkeyToWif H k pre ∨ w = privkeyToWif H (k ++ [1]) pre) := by
  unfold privkeyFromWif at h
  cases hd : decodeCheck H w with
  | error e => rw [hd] at h; cases h
  | ok o =>
    rw [hd] at h
    cases o with
    | none => cases h
    | some key =>
      have henc := encodeCheck_of_decodeCheck H w key hd
      simp only [Bind.bind, Except.bind, Pure.pure, Except.pure] at h
      cases key with
      | nil => simp [pyIndex] at h
      | cons c t =>
        have hc0 : pyIndex (c :: t) 0 = .ok c := rfl
        simp only [hc0] at h
        split at h
        · cases h
        · rename_i hp
          have hcp : c = pre := by
            apply UInt8.toNat_inj.1; omega
          subst hcp
          split at h
          · rename_i hl
            split at h
            · cases h
            · split at h
              · cases h
              · cases h
                simp at hl
                refine ⟨by simpa using hl, Or.inl ?_⟩
                rw [← henc]; rfl
          · split at h
            · rename_i hl
              simp only [List.length_cons] at hl
              have ht : t.length = 33 := by omega
              split at h
              · cases h
              · rename_i last hlast
                split at h
                · cases h
                · rename_i hone
                  split at h
                  · cases h
                  · split at h
                    · cases h
                    · cases h
                      refine ⟨by simp [ht], Or.inr ?_⟩
                      rw [← henc, privkeyToWif]
                      have hl1 : last = 1 := UInt8.toNat_inj.1 (by simpa using hone)
                      subst hl1
                      have : t = t.take 32 ++ [1] := by
                        have e1 : t[32]? = some 1 := by
                          simp only [pyIndex, List.length_cons, ht] at hlast
                          simp only [Nat.reduceAdd, Nat.add_one_sub_one, List.getElem?_cons_succ] at hlast
                          split at hlast
                          · rename_i heq; cases hlast; exact heq
                          · cases hlast
                        conv_lhs => rw [← List.take_append_drop 32 t]
                        congr 1
                        rw [List.drop_eq_getElem_cons (by omega)]
                        rw [List.getElem?_eq_getElem (by omega)] at e1
                        simp at e1
                        rw [e1, List.drop_of_length_le (by omega)]
                      simp only [List.drop_one, List.tail_cons, List.length_cons, ht]
                      rw [show 33 + 1 - 2 = 32 from rfl, ← this]; rfl
            · cases h

theorem fmtHexPad4 (v : Nat) (hv : v < 65536) : fmtHexPad 4 v = hex4 v := by
  have hlen : (hexDigits v).length ≤ 4 := (hexDigits_length_le_iff v 4 (by omega)).2 (by omega)
  have e : fmtHexPad 4 (v : Int) =
      (List.replicate (4 - (hexDigits v).length) 0 ++ hexDigits v).map hexDigit := by
    simp [fmtHexPad, fmtHexNat_eq, hexDigit_zero]
  have h2 : List.replicate (4 - (hexDigits v).length) 0 ++ hexDigits v =
      [v / 4096 % 16, v / 256 % 16, v / 16 % 16, v % 16] := by
    apply beVal_inj 16
    · simp; omega
    · intro d hd
      rcases List.mem_append.1 hd with hd | hd
      · rw [List.eq_of_mem_replicate hd]; omega
      · exact hexDigits_lt v d hd
    · intro d hd
      simp at hd; omega
    · rw [beVal_replicate_zero, beVal_hexDigits]
      simp [beVal]; omega
  have h3 : ∀ d < 16, hexDigit d = hexChar d := by decide
  rw [e, h2, hex4]
  simp only [List.map_cons, List.map_nil]
  rw [h3 _ (by omega), h3 _ (by omega), h3 _ (by omega), h3 _ (by omega)]

theorem hex4_inj {u v : Nat} (hu : u < 65536) (hv : v < 65536) (h : hex4 u = hex4 v) : u = v := by
  have hinj : ∀ a < 16, ∀ b < 16, hexChar a = hexChar b → a = b := by decide
  simp only [hex4, List.cons.injEq, and_true] at h
  obtain ⟨h1, h2, h3, h4⟩ := h
  have e1 := hinj _ (by omega) _ (by omega) h1
  have e2 := hinj _ (by omega) _ (by omega) h2
  have e3 := hinj _ (by omega) _ (by omega) h3
  have e4 := hinj _ (by omega) _ (by omega) h4
  omega

end NBC.Key
