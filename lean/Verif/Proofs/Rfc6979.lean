import Verif.Proofs.Rand
import Verif.Proofs.Der
import Verif.Spec.Rfc6979

/-! # `generate_k` against RFC 6979 -/

namespace NBC.Ecdsa
open NBC Spec Der

theorem bits2int_spec {t : Bytes} (h : t ≠ []) (q : Nat) :
    bits2int t q = .ok (Rfc6979.bits2int q t) := by
  rw [bits2int_eq h, Rfc6979.bits2int]
  split
  · rw [Nat.shiftRight_eq_div_pow]
  · rw [show 8 * t.length - q = 0 by omega]; rfl

theorem bits2int_lt (q : Nat) (t : Bytes) : Rfc6979.bits2int q t < 2 ^ q := by
  have hb := bytesVal_lt t
  rw [show (256 : Nat) = 2 ^ 8 by norm_num, ← pow_mul] at hb
  unfold Rfc6979.bits2int
  split
  · rw [Nat.div_lt_iff_lt_mul (by positivity), ← pow_add]
    rwa [show q + (8 * t.length - q) = 8 * t.length by omega]
  · exact lt_of_lt_of_le hb (Nat.pow_le_pow_right (by omega) (by omega))

theorem orderlen_eq {q qlen : Nat} (hq : 1 ≤ qlen) (h1 : 2 ^ (qlen - 1) ≤ q) (h2 : q < 2 ^ qlen) :
    orderlen q = (qlen + 7) / 8 := by
  apply le_antisymm
  · rw [orderlen_le_iff _ _ (by omega), show (256 : Nat) = 2 ^ 8 by norm_num, ← pow_mul]
    exact lt_of_lt_of_le h2 (Nat.pow_le_pow_right (by omega) (by omega))
  · by_contra hc
    have := (orderlen_le_iff q (orderlen q) (orderlen_pos q)).1 le_rfl
    rw [show (256 : Nat) = 2 ^ 8 by norm_num, ← pow_mul] at this
    have h3 := lt_of_le_of_lt h1 this
    have := (Nat.pow_lt_pow_iff_right (by omega : 1 < 2)).1 h3
    omega

theorem bitLength_eq {q qlen : Nat} (hq : 1 ≤ qlen) (h1 : 2 ^ (qlen - 1) ≤ q) (h2 : q < 2 ^ qlen) :
    bitLength q = qlen := by
  apply le_antisymm
  · exact (digitsBE_length_le_iff 2 q qlen (by omega)).2 h2
  · by_contra hc
    have := (digitsBE_length_le_iff 2 q (qlen - 1) (by omega)).1 (by unfold bitLength at hc; omega)
    omega

theorem bits2octets_spec {q qlen : Nat} (hq : 1 ≤ qlen) (h1 : 2 ^ (qlen - 1) ≤ q) (h2 : q < 2 ^ qlen)
    {b : Bytes} (hb : b ≠ []) : bits2octets b q = .ok (Rfc6979.bits2octets q qlen b) := by
  have hlt := bits2int_lt qlen b
  have hpow : 2 ^ qlen = 2 * 2 ^ (qlen - 1) := by
    rw [← pow_succ']; congr 1; omega
  have hz : ∀ z : Nat, z < 2 ^ qlen →
      (if (z : Int) - q < 0 then (z : Int) else (z : Int) - q) = ((z % q : Nat) : Int) := by
    intro z hz
    split
    · rw [Nat.mod_eq_of_lt (by omega)]
    · rw [Nat.mod_eq_sub_mod (by omega), Nat.mod_eq_of_lt (by omega)]; omega
  simp only [bits2octets, bitLength_eq hq h1 h2, bits2int_spec hb, ok_bind, hz _ hlt]
  have hr : Rfc6979.bits2int qlen b % q < 256 ^ orderlen q :=
    lt_trans (Nat.mod_lt _ (by have := Nat.pow_pos (n := qlen - 1) (by omega : 0 < 2); omega))
      (lt_256_pow_orderlen q)
  simp only [numberToStringCrop, unhexlify_fmtHexPad (orderlen_pos q) hr, ok_bind]
  rw [Rfc6979.bits2octets, Rfc6979.int2octets, ← orderlen_eq hq h1 h2]
  rw [List.take_of_length_le (by simp)]
  rfl

theorem needMore_iff (l q : Nat) : needMore false l q = true ↔ 8 * l < q := by
  simp [needMore]; omega

section
variable (hmac : Bytes → Bytes → Bytes) (qlen : Nat) (k v : Bytes)
open Rfc6979

theorem blocks_succ (m : Nat) : blocks hmac k v (m + 1) = blocks hmac k v m ++ chain hmac k v (m + 1) := by
  simp [blocks, List.range_succ]

theorem stepH2_chain : ∀ fuel j, ∃ m, j ≤ m ∧ m ≤ j + fuel ∧
    stepH2 hmac false qlen k fuel (chain hmac k v j) (blocks hmac k v j) =
      (chain hmac k v m, blocks hmac k v m) ∧
    (∀ i, j ≤ i → i < m → 8 * (blocks hmac k v i).length < qlen)
  | 0, j => ⟨j, le_rfl, by omega, rfl, fun i h1 h2 => by omega⟩
  | fuel + 1, j => by
    rw [stepH2]
    by_cases hn : needMore false (blocks hmac k v j).length qlen = true
    · rw [if_pos hn]
      obtain ⟨m, a1, a2, a3, a4⟩ := stepH2_chain fuel (j + 1)
      refine ⟨m, by omega, by omega, ?_, fun i h1 h2 => ?_⟩
      · rw [← a3, blocks_succ]; rfl
      · by_cases hij : i = j
        · subst hij; exact (needMore_iff _ _).1 hn
        · exact a4 i (by omega) h2
    · rw [if_neg hn]
      exact ⟨j, le_rfl, by omega, rfl, fun i h1 h2 => by omega⟩

theorem stepH2_rounds (hh : ∀ k m, 0 < (hmac k m).length) :
    ∃ m, stepH2 hmac false qlen k (qlen + 8) v [] = (chain hmac k v m, blocks hmac k v m) ∧
      Rounds hmac qlen k v m := by
  obtain ⟨m, -, -, a3, a4⟩ := stepH2_chain hmac qlen k v (qlen + 8) 0
  have e : blocks hmac k v 0 = [] := rfl
  rw [e] at a3
  have a3' : stepH2 hmac false qlen k (qlen + 8) v [] = (chain hmac k v m, blocks hmac k v m) := a3
  have hl := stepH2_long hmac false qlen k hh (qlen + 8) v [] (by simp; omega)
  rw [a3'] at hl
  exact ⟨m, a3', by simp only at hl; omega, fun j hj => a4 j (by omega) hj⟩

theorem rounds_unique {m m' : Nat} (h : Rounds hmac qlen k v m) (h' : Rounds hmac qlen k v m') :
    m = m' := by
  rcases Nat.lt_trichotomy m m' with hlt | h | hlt
  · have := h'.2 m hlt; have := h.1; omega
  · exact h
  · have := h.2 m' hlt; have := h'.1; omega

end

theorem stepH_sound {hmac : Bytes → Bytes → Bytes} (hh : ∀ k m, 0 < (hmac k m).length)
    {q qlen : Nat} (hq : 1 ≤ qlen) : ∀ {fuel : Nat} {k v : Bytes} {s : Nat},
    stepH hmac false q qlen fuel k v = .ok (some s) → Rfc6979.StepH hmac q qlen k v s
  | 0, _, _, _, h => by cases h
  | fuel + 1, k, v, s, h => by
    obtain ⟨m, e, hr⟩ := stepH2_rounds hmac qlen k v hh
    have hne : Rfc6979.blocks hmac k v m ≠ [] := by
      intro h0; have := hr.1; rw [h0] at this; simp at this; omega
    simp only [stepH, e, bits2int_spec hne, ok_bind] at h
    split at h
    · rename_i hc
      cases h
      exact .accept k v m hr hc.1 hc.2
    · rename_i hc
      exact .reject k v m s hr hc (stepH_sound hh hq h)

theorem stepH_complete {hmac : Bytes → Bytes → Bytes} (hh : ∀ k m, 0 < (hmac k m).length)
    {q qlen : Nat} (hq : 1 ≤ qlen) {k v : Bytes} {s : Nat} (h : Rfc6979.StepH hmac q qlen k v s) :
    ∃ fuel, stepH hmac false q qlen fuel k v = .ok (some s) := by
  induction h with
  | accept k v m hr h1 h2 =>
    obtain ⟨m', e, hr'⟩ := stepH2_rounds hmac qlen k v hh
    obtain rfl := rounds_unique hmac qlen k v hr hr'
    have hne : Rfc6979.blocks hmac k v m ≠ [] := by
      intro h0; have := hr.1; rw [h0] at this; simp at this; omega
    refine ⟨1, ?_⟩
    simp only [stepH, e, bits2int_spec hne, ok_bind]
    rw [if_pos ⟨h1, h2⟩]; rfl
  | reject k v m s hr hc _ ih =>
    obtain ⟨m', e, hr'⟩ := stepH2_rounds hmac qlen k v hh
    obtain rfl := rounds_unique hmac qlen k v hr hr'
    have hne : Rfc6979.blocks hmac k v m ≠ [] := by
      intro h0; have := hr.1; rw [h0] at this; simp at this; omega
    obtain ⟨fuel, ih⟩ := ih
    refine ⟨fuel + 1, ?_⟩
    simp only [stepH, e, bits2int_spec hne, ok_bind]
    rw [if_neg hc]; exact ih

end NBC.Ecdsa
