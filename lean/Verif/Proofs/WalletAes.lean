import Verif.Model.Wallet
import Verif.Proofs.Hex
import Verif.Proofs.PyBind
import Verif.Props.Aes

/-! # Encryption and text form of wallet secrets -/

namespace NBC.Wallet
open NBC Aes Props

theorem slices16_succ (s : Bytes) (m : Nat) : slices16 s (m + 1) = s.take 16 :: slices16 (s.drop 16) m := by
  simp only [slices16, List.range_succ_eq_map, List.map_cons, List.map_map, Nat.mul_zero, List.drop_zero]
  congr 1
  apply List.map_congr_left
  intro i _
  simp only [Function.comp_apply, List.drop_drop]
  congr 2
  omega

theorem slices16_spec : ∀ (m : Nat) (s : Bytes), s.length = 16 * m →
    (slices16 s m).length = m ∧ (∀ b ∈ slices16 s m, b.length = 16) ∧ (slices16 s m).flatten = s
  | 0, s, h => by
    have : s = [] := List.length_eq_zero_iff.1 (by omega)
    subst this
    simp [slices16]
  | m + 1, s, h => by
    obtain ⟨h1, h2, h3⟩ := slices16_spec m (s.drop 16) (by rw [List.length_drop]; omega)
    rw [slices16_succ]
    refine ⟨by rw [List.length_cons, h1], ?_, by rw [List.flatten_cons, h3, List.take_append_drop]⟩
    intro b hb
    rcases List.mem_cons.1 hb with rfl | hb
    · rw [List.length_take]; omega
    · exact h2 b hb

theorem slices16_flatten : ∀ bs : List Bytes, (∀ b ∈ bs, b.length = 16) →
    slices16 bs.flatten bs.length = bs ∧ bs.flatten.length = 16 * bs.length
  | [], _ => by simp [slices16]
  | b :: bs, h => by
    obtain ⟨h1, h2⟩ := slices16_flatten bs (fun x hx => h x (List.mem_cons_of_mem _ hx))
    have hb : b.length = 16 := h b List.mem_cons_self
    rw [List.length_cons, slices16_succ, List.flatten_cons, List.take_left' hb, List.drop_left' hb, h1]
    exact ⟨rfl, by rw [List.length_append, h2, hb]; omega⟩

theorem runCalls_length {σ : Type} {f : σ → Bytes → Py (Bytes × σ)} : ∀ {ds : List Bytes} {s s' : σ}
    {os : List Bytes}, runCalls f s ds = .ok (os, s') → os.length = ds.length
  | [], s, s', os, h => by
    have := Except.ok.inj h
    cases this; rfl
  | d :: ds, s, s', os, h => by
    rw [runCalls, bind_ok_iff] at h
    obtain ⟨⟨o, t⟩, _, h⟩ := h
    rw [bind_ok_iff] at h
    obtain ⟨⟨os', t'⟩, h2, h⟩ := h
    have := Except.ok.inj h
    cases this
    rw [List.length_cons, List.length_cons, runCalls_length h2]

theorem runCalls_decrypt_len : ∀ {ds : List Bytes} {s s' : CBC} {os : List Bytes},
    runCalls CBC.decrypt s ds = .ok (os, s') → ∀ d ∈ ds, d.length = 16
  | [], _, _, _, _ => fun d hd => by cases hd
  | d :: ds, s, s', os, h => by
    rw [runCalls, bind_ok_iff] at h
    obtain ⟨⟨o, t⟩, h1, h⟩ := h
    rw [bind_ok_iff] at h
    obtain ⟨⟨os', t'⟩, h2, h⟩ := h
    intro x hx
    rcases List.mem_cons.1 hx with rfl | hx
    · by_contra hne
      unfold CBC.decrypt at h1
      rw [if_pos hne] at h1
      cases h1
    · exact runCalls_decrypt_len h2 x hx

theorem passKey_length (p : Bytes) : (passKey p).length = 16 := by
  unfold passKey
  simp only [List.length_append, List.length_replicate, List.length_take]
  omega

theorem cbc_ok (ver : PyVer) (p : Bytes) : ∃ s, CBC.init ver (passKey p) none = .ok s := by
  obtain ⟨A, h, _⟩ := init_ok (ver := ver) (key := passKey p) (Or.inl (passKey_length p))
  exact ⟨⟨A, List.replicate 16 0⟩, by unfold CBC.init; rw [h]; rfl⟩

/-- The text after padding, and the number of blocks. -/
def padded (s : Bytes) : Bytes := s ++ List.replicate ((16 - s.length % 16) % 16) 0

theorem padded_length (s : Bytes) : (padded s).length = 16 * ((s.length + 15) / 16) := by
  simp only [padded, List.length_append, List.length_replicate]
  omega

theorem aesEncrypt_eq (ver : PyVer) (s p : Bytes) : aesEncrypt ver s p = (do
    let aes ← CBC.init ver (passKey p) none
    let (out, _) ← runCalls CBC.encrypt aes (slices16 (padded s) ((s.length + 15) / 16))
    .ok out.flatten) := by
  unfold aesEncrypt padded
  by_cases h : s.length % 16 = 0
  · simp only [h, ne_eq, not_true_eq_false, if_false, Nat.sub_zero, Nat.mod_self, List.replicate_zero,
      List.append_nil, show (s.length + 15) / 16 = s.length / 16 by omega]
  · simp only [h, ne_eq, not_false_eq_true, if_true, show (16 - s.length % 16) % 16 = 16 - s.length % 16 by omega,
      show (s.length + 15) / 16 = s.length / 16 + 1 by omega]

/-- Encryption succeeds, and any passphrase with the same effective key decrypts. -/
theorem aes_roundtrip (ver : PyVer) (s p : Bytes) : ∃ c, aesEncrypt ver s p = .ok c ∧
    c.length = 16 * ((s.length + 15) / 16) ∧
    (s ≠ [] → s.length ≤ 240 → ∀ q prompt, passKey (if q = [] then prompt else q) = passKey p →
      aesDecrypt ver c q prompt = .ok (padded s)) := by
  obtain ⟨A, hA⟩ := cbc_ok ver p
  obtain ⟨hl, hb, hf⟩ := slices16_spec _ _ (padded_length s)
  obtain ⟨outs, t, he, hd⟩ := C38_cbc ver (passKey p) none A hA _ hb
  obtain ⟨h1, h2⟩ := slices16_flatten outs (runCalls_decrypt_len hd)
  have h3 : outs.length = (s.length + 15) / 16 := by rw [runCalls_length he, hl]
  rw [h3] at h1 h2
  refine ⟨outs.flatten, by rw [aesEncrypt_eq, hA, ok_bind, he, ok_bind], h2, ?_⟩
  intro hs hlen q prompt hq
  have hpos : 0 < s.length := List.length_pos_iff.2 hs
  unfold aesDecrypt
  simp only [h2, Nat.mul_mod_right, Nat.mul_div_cancel_left _ (show 0 < 16 by omega)]
  rw [if_neg (by omega), hq, hA, ok_bind, h1, hd, ok_bind, hf]

/-! ### The length prefix -/

theorem prefix_table : ∀ l < 256, (fmtHexPad 2 (l : Nat)).length = 2 ∧
    intHex (fmtHexPad 2 (l : Nat)) = .ok (l : Nat) := by
  decide +kernel

theorem slice2_eq (a s t : Bytes) (ha : a.length = 2) :
    slice2 (a ++ (s ++ t)) (2 + (s.length : Nat)) = s := by
  unfold slice2
  rw [if_neg (by omega), show ((2 : Int) + (s.length : Nat)).toNat = 2 + s.length by omega,
    ← ha, List.take_length_add_append, List.take_left' rfl, List.drop_left' rfl]

theorem loadSecret_core {s : Bytes} (hs : s.length < 256) (k : Nat) (hk : k ≤ 15) :
    (match intHex ((fmtHexPad 2 s.length ++ (s ++ List.replicate k 0)).take 2) with
    | .error _ => (.error .valueError : Py Bytes)
    | .ok orgLen =>
      let nowLen : Int := (fmtHexPad 2 s.length ++ (s ++ List.replicate k 0)).length
      if nowLen < 2 + orgLen ∨ nowLen > orgLen + 17 then .error .valueError
      else .ok (slice2 (fmtHexPad 2 s.length ++ (s ++ List.replicate k 0)) (2 + orgLen))) = .ok s := by
  obtain ⟨h1, h2⟩ := prefix_table s.length hs
  rw [List.take_left' h1, h2]
  simp only [List.length_append, h1, List.length_replicate]
  rw [if_neg (by push_cast; omega), slice2_eq _ _ _ h1]

/-- A secret written by `dumpSecret` is read back. -/
theorem secret_roundtrip (ver : PyVer) (s p : Bytes) (hs : s.length ≤ 238) : ∃ t e,
    dumpSecret ver s p = .ok (t, e) ∧ e = decide (p ≠ []) ∧ t ≠ [] ∧
    ∀ q prompt, (p ≠ [] → passKey (if q = [] then prompt else q) = passKey p) →
      loadSecret ver t e q prompt = .ok s := by
  obtain ⟨h1, h2⟩ := prefix_table s.length (by omega)
  have hne : ∀ c : Bytes, 2 ≤ c.length → hexlify c ≠ [] := by
    intro c hc h0
    have := unhexlify_hexlify c
    rw [h0] at this
    have := Except.ok.inj this
    rw [← this] at hc
    simp at hc
  have ha : pyAssert (decide (s.length ≤ 255)) = .ok () := by rw [decide_eq_true (by omega)]; rfl
  by_cases hp : p = []
  · subst hp
    refine ⟨hexlify (fmtHexPad 2 s.length ++ s), false, ?_, by simp, hne _ (by simp [h1]), fun q prompt _ => ?_⟩
    · unfold dumpSecret
      rw [ha, ok_bind]; simp
    · unfold loadSecret
      rw [unhexlify_hexlify, ok_bind]
      have := loadSecret_core (s := s) (by omega) 0 (by omega)
      simp only [List.replicate_zero, List.append_nil] at this
      simp only [Bool.false_eq_true, if_false, ok_bind]
      exact this
  · obtain ⟨c, hc, hcl, hd⟩ := aes_roundtrip ver (fmtHexPad 2 s.length ++ s) p
    have hpl : (fmtHexPad 2 s.length ++ s).length = 2 + s.length := by rw [List.length_append, h1]
    refine ⟨hexlify c, true, ?_, by simp [hp], hne _ (by rw [hcl, hpl]; omega), fun q prompt hq => ?_⟩
    · unfold dumpSecret
      rw [ha, ok_bind]; simp only [ne_eq, hp, not_false_eq_true, if_true, hc, ok_bind]
    · unfold loadSecret
      rw [unhexlify_hexlify, ok_bind]
      simp only [if_true, hd (by intro h0; rw [h0] at hpl; simp at hpl; omega) (by omega) q prompt (hq hp),
        ok_bind]
      unfold padded
      rw [List.append_assoc]
      exact loadSecret_core (by omega) _ (by omega)

end NBC.Wallet
