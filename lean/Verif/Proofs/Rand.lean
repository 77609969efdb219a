import Verif.Model.Rand
import Verif.Proofs.Hex
import Verif.Proofs.PyBind

/-! # Lemmas about scalars -/

namespace NBC.Ecdsa
open NBC Spec

/-! ### randrange -/

theorem randrangeLoop_spec (order bytes : Nat) (entropy : Nat → Nat → Bytes)
    (hne : ∀ i, entropy i bytes ≠ []) : ∀ fuel i,
    (∀ j, i ≤ j → j < i + fuel → (∀ t, i ≤ t → t < j → order ≤ bytesVal (entropy t bytes) + 1) →
      bytesVal (entropy j bytes) + 1 < order →
      randrangeLoop order bytes entropy fuel i = .ok (bytesVal (entropy j bytes) + 1)) ∧
    ((∀ t, i ≤ t → t < i + fuel → order ≤ bytesVal (entropy t bytes) + 1) →
      randrangeLoop order bytes entropy fuel i = .error .runtimeError)
  | 0, i => ⟨fun j h1 h2 => by omega, fun _ => rfl⟩
  | fuel + 1, i => by
    obtain ⟨ih1, ih2⟩ := randrangeLoop_spec order bytes entropy hne fuel (i + 1)
    have hs := stringToNumber_eq _ (hne i)
    constructor
    · intro j h1 h2 h3 h4
      simp only [randrangeLoop, hs, ok_bind]
      by_cases hij : j = i
      · subst hij
        rw [if_pos ⟨by omega, h4⟩]; rfl
      · rw [if_neg (by have := h3 i (by omega) (by omega); omega)]
        exact ih1 j (by omega) (by omega) (fun t a b => h3 t (by omega) b) h4
    · intro h
      simp only [randrangeLoop, hs, ok_bind]
      rw [if_neg (by have := h i (by omega) (by omega); omega)]
      exact ih2 (fun t a b => h t (by omega) (by omega))

theorem randrangeLoop_range' {order bytes : Nat} {entropy : Nat → Nat → Bytes} :
    ∀ {fuel i k : Nat}, randrangeLoop order bytes entropy fuel i = .ok k → 1 ≤ k ∧ k < order
  | 0, _, _, h => by cases h
  | fuel + 1, i, k, h => by
    simp only [randrangeLoop, bind_ok_iff] at h
    obtain ⟨a, -, h⟩ := h
    split at h
    · rename_i hr
      cases h; exact hr
    · exact randrangeLoop_range' h

theorem tryTryAgainLoop_range {H : Hashes} {seed : Bytes} {order bytes extrabits : Nat} :
    ∀ {fuel pos k : Nat}, tryTryAgainLoop H seed order bytes extrabits fuel pos = .ok (some k) →
      1 ≤ k ∧ k < order
  | 0, _, _, h => by cases h
  | fuel + 1, pos, k, h => by
    simp only [tryTryAgainLoop, bind_ok_iff] at h
    obtain ⟨a, -, h⟩ := h
    split at h
    · rename_i hr
      cases h; exact hr
    · exact tryTryAgainLoop_range h

/-! ### rfc6979 -/

theorem stepH_range {hmac : Bytes → Bytes → Bytes} {py3 : Bool} {order qlen : Nat} :
    ∀ {fuel : Nat} {k v : Bytes} {s : Nat}, stepH hmac py3 order qlen fuel k v = .ok (some s) →
      1 ≤ s ∧ s < order
  | 0, _, _, _, h => by cases h
  | fuel + 1, k, v, s, h => by
    simp only [stepH, bind_ok_iff] at h
    obtain ⟨a, -, h⟩ := h
    split at h
    · rename_i hr
      cases h; exact hr
    · exact stepH_range h

theorem stepH_mono {hmac : Bytes → Bytes → Bytes} {py3 : Bool} {order qlen : Nat} :
    ∀ {fuel : Nat} {k v : Bytes} {s : Nat} (m : Nat),
      stepH hmac py3 order qlen fuel k v = .ok (some s) →
      stepH hmac py3 order qlen (fuel + m) k v = .ok (some s)
  | 0, _, _, _, _, h => by cases h
  | fuel + 1, k, v, s, m, h => by
    rw [show fuel + 1 + m = fuel + m + 1 by omega]
    simp only [stepH, bind_ok_iff] at h ⊢
    obtain ⟨a, ha, h⟩ := h
    refine ⟨a, ha, ?_⟩
    split at h
    · rename_i hr
      rw [if_pos hr]; exact h
    · rename_i hr
      rw [if_neg hr]; exact stepH_mono m h

theorem stepH2_prefix (hmac : Bytes → Bytes → Bytes) (py3 : Bool) (qlen : Nat) (k : Bytes) :
    ∀ fuel v t, t <+: (stepH2 hmac py3 qlen k fuel v t).2
  | 0, v, t => List.prefix_rfl
  | fuel + 1, v, t => by
    simp only [stepH2]
    split
    · exact (List.prefix_append _ _).trans (stepH2_prefix hmac py3 qlen k fuel _ _)
    · exact List.prefix_rfl

theorem needMore_imp {l q : Nat} (h : needMore false l q = true) : needMore true l q = true := by
  simp [needMore] at h ⊢; omega

theorem stepH2_py (hmac : Bytes → Bytes → Bytes) (qlen : Nat) (k : Bytes) :
    ∀ fuel v t, (stepH2 hmac false qlen k fuel v t).2 <+: (stepH2 hmac true qlen k fuel v t).2
  | 0, v, t => List.prefix_rfl
  | fuel + 1, v, t => by
    rw [stepH2]
    split
    · rename_i h
      rw [stepH2, if_pos (needMore_imp h)]
      exact stepH2_py hmac qlen k fuel _ _
    · exact stepH2_prefix hmac true qlen k (fuel + 1) v t

theorem stepH2_long (hmac : Bytes → Bytes → Bytes) (py3 : Bool) (qlen : Nat) (k : Bytes)
    (hh : ∀ k m, 0 < (hmac k m).length) :
    ∀ fuel v t, (qlen + 7) / 8 ≤ t.length + fuel →
      (qlen + 7) / 8 ≤ (stepH2 hmac py3 qlen k fuel v t).2.length
  | 0, v, t, h => h
  | fuel + 1, v, t, h => by
    rw [stepH2]
    split
    · refine stepH2_long hmac py3 qlen k hh fuel _ _ ?_
      have := hh k v
      simp; omega
    · rename_i hn
      cases py3 <;> simp [needMore] at hn ⊢ <;> omega

theorem bits2int_eq {t : Bytes} (h : t ≠ []) (q : Nat) :
    bits2int t q = .ok (bytesVal t >>> (8 * t.length - q)) := by
  have hs := stringToNumber_eq t h
  rw [stringToNumber] at hs
  simp only [bits2int, hs, ok_bind]
  split
  · rw [Nat.mul_comm]; rfl
  · rw [show 8 * t.length - q = 0 by omega]; rfl

theorem bits2int_prefix {t u : Bytes} (h : t ≠ []) {q : Nat} (hq : q ≤ 8 * t.length) :
    bits2int (t ++ u) q = bits2int t q := by
  rw [bits2int_eq h, bits2int_eq (by simp [h]), bytesVal_append]
  have hu := bytesVal_lt u
  congr 1
  rw [List.length_append, show 8 * (t.length + u.length) - q = 8 * u.length + (8 * t.length - q) by omega,
    Nat.shiftRight_add]
  congr 1
  rw [Nat.shiftRight_eq_div_pow, pow_mul]
  rw [show (2 : Nat) ^ 8 = 256 by norm_num, Nat.mul_comm, Nat.mul_add_div (by positivity),
    Nat.div_eq_of_lt hu, Nat.add_zero]

/-- The first candidate does not depend on the division. -/
theorem stepH_first (hmac : Bytes → Bytes → Bytes) (hh : ∀ k m, 0 < (hmac k m).length)
    (order qlen : Nat) (hq : 1 ≤ qlen) (k v : Bytes) (s : Nat) :
    stepH hmac false order qlen 1 k v = .ok (some s) ↔
      stepH hmac true order qlen 1 k v = .ok (some s) := by
  obtain ⟨u, hu⟩ := stepH2_py hmac qlen k (qlen + 8) v []
  have hl := stepH2_long hmac false qlen k hh (qlen + 8) v [] (by simp; omega)
  have hne : (stepH2 hmac false qlen k (qlen + 8) v []).2 ≠ [] := by
    intro h0; rw [h0] at hl; simp at hl; omega
  have hb := bits2int_prefix (u := u) hne (q := qlen) (by omega)
  rw [hu] at hb
  simp only [stepH, hb]

theorem bitLength_pos {order : Nat} (h : 1 ≤ order) : 1 ≤ bitLength order := by
  by_contra hc
  have := (digitsBE_length_le_iff 2 order 0 (by omega)).1 (by unfold bitLength at hc; omega)
  omega

theorem two_pow_bitLength_le {n k : Nat} (h : bitLength n = k + 1) : 2 ^ k ≤ n := by
  by_contra hc
  have := (digitsBE_length_le_iff 2 n k (by omega)).2 (by omega)
  unfold bitLength at h
  omega

/-! ### low s -/

/-- `round53` is within one part in `2 ^ 53`. -/
theorem round53_err (n : Nat) :
    (round53 n : Int) ≤ n + n / 2 ^ 53 ∧ (n : Int) ≤ round53 n + n / 2 ^ 53 := by
  unfold round53
  simp only
  split
  · omega
  · rename_i hsz
    obtain ⟨sh, hsh⟩ : ∃ sh, bitLength n = sh + 52 + 1 := ⟨bitLength n - 53, by omega⟩
    have hle := two_pow_bitLength_le hsh
    have hsh1 : 1 ≤ sh := by omega
    rw [show bitLength n - 53 = sh by omega]
    obtain ⟨h, rfl⟩ : ∃ h, sh = h + 1 := ⟨sh - 1, by omega⟩
    have hpow : (2 : Nat) ^ (h + 1) = 2 * 2 ^ h := by rw [pow_succ]; ring
    have hq : n >>> (h + 1) = n / 2 ^ (h + 1) := Nat.shiftRight_eq_div_pow _ _
    have hdm := Nat.div_add_mod n (2 ^ (h + 1))
    have hlt := Nat.mod_lt n (show 2 ^ (h + 1) > 0 by positivity)
    have hbig : (2 : Nat) ^ (h + 1 + 52) = 2 ^ 53 * 2 ^ h := by rw [← pow_add]; congr 1; omega
    have hdiv : 2 ^ h ≤ n / 2 ^ 53 := by
      rw [Nat.le_div_iff_mul_le (by positivity)]
      rw [hbig] at hle; linarith
    have hdivI : ((2 ^ h : Nat) : Int) ≤ (n : Int) / 2 ^ 53 := by
      have : ((n / 2 ^ 53 : Nat) : Int) = (n : Int) / 2 ^ 53 := by push_cast; rfl
      rw [← this]; exact_mod_cast hdiv
    rw [hq, Nat.add_sub_cancel, Nat.shiftLeft_eq]
    generalize n / 2 ^ (h + 1) = q at *
    generalize n % 2 ^ (h + 1) = r at *
    generalize (n : Int) / 2 ^ 53 = D at *
    rw [hpow] at hdm hlt ⊢
    generalize 2 ^ h = w at *
    have hn : (n : Int) = 2 * w * q + r := by rw [← hdm]; push_cast; ring
    have hlt' : (r : Int) < 2 * w := by exact_mod_cast hlt
    split
    · rename_i hc
      have hr : (w : Int) ≤ r := by
        rcases hc with hc | hc
        · exact_mod_cast hc.le
        · exact_mod_cast hc.1.ge
      push_cast
      constructor <;> nlinarith
    · rename_i hc
      have hr : (r : Int) ≤ w := by
        by_contra hcc
        apply hc
        left
        exact_mod_cast not_le.1 hcc
      push_cast
      constructor <;> nlinarith

theorem round53_small {n : Nat} (h : n < 2 ^ 53) : round53 n = n := by
  unfold round53
  simp only
  rw [if_pos]
  exact (digitsBE_length_le_iff 2 n 53 (by omega)).2 h

/-- Where no number of digests has exactly the length `⌊(qlen + 7) / 8⌋`, or the division is exact, the two
divisions ask for the same number of bytes. -/
theorem needMore_agree {holen qlen i : Nat} (h : 8 ∣ qlen + 7 ∨ ¬ holen ∣ (qlen + 7) / 8) :
    needMore true (holen * i) qlen = needMore false (holen * i) qlen := by
  have hne : 8 ∣ qlen + 7 ∨ holen * i ≠ (qlen + 7) / 8 :=
    h.imp_right fun h he => h ⟨i, he.symm⟩
  simp only [needMore, if_true, Bool.false_eq_true, if_false, decide_eq_decide]
  generalize holen * i = t at hne
  omega

theorem stepH2_agree (hmac : Bytes → Bytes → Bytes) (holen : Nat) (hl : ∀ k m, (hmac k m).length = holen)
    (qlen : Nat) (h : 8 ∣ qlen + 7 ∨ ¬ holen ∣ (qlen + 7) / 8) (k : Bytes) :
    ∀ fuel v t i, t.length = holen * i →
      stepH2 hmac true qlen k fuel v t = stepH2 hmac false qlen k fuel v t
  | 0, _, _, _, _ => rfl
  | fuel + 1, v, t, i, ht => by
    rw [stepH2, stepH2, ht, needMore_agree h]
    split
    · exact stepH2_agree hmac holen hl qlen h k fuel _ _ (i + 1) (by
        rw [List.length_append, ht, hl, Nat.mul_succ])
    · rfl

theorem stepH_agree (hmac : Bytes → Bytes → Bytes) (holen : Nat) (hl : ∀ k m, (hmac k m).length = holen)
    (order qlen : Nat) (h : 8 ∣ qlen + 7 ∨ ¬ holen ∣ (qlen + 7) / 8) :
    ∀ fuel k v, stepH hmac true order qlen fuel k v = stepH hmac false order qlen fuel k v
  | 0, _, _ => rfl
  | fuel + 1, k, v => by
    simp only [stepH, stepH2_agree hmac holen hl qlen h k (qlen + 8) v [] 0 rfl,
      stepH_agree hmac holen hl order qlen h fuel]

end NBC.Ecdsa
