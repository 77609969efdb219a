import Verif.Proofs.Hex
import Verif.Model.Base58

/-! # Helper lemmas for base58 -/

namespace NBC.Base58
open NBC Spec

theorem alphaIndex_alphaAt : ∀ i < 58, alphaIndex (alphaAt i) = .ok i := by decide

theorem alphaAt_index : ∀ c : UInt8, ∀ i, alphaIndex c = .ok i → i < 58 ∧ alphaAt i = c := by
  intro c i h
  unfold alphaIndex at h
  split at h
  · rename_i j hj
    cases h
    rw [List.findIdx?_eq_some_iff_getElem] at hj
    obtain ⟨hlt, hc, _⟩ := hj
    refine ⟨by simpa [alphabet] using hlt, ?_⟩
    have : alphabet[i] = c := by simpa using hc
    rw [alphaAt, List.getD_eq_getElem?_getD, List.getElem?_eq_getElem hlt]
    simpa using this
  · cases h

theorem alphaIndex_error {c : UInt8} {e : PyErr} (h : alphaIndex c = .error e) :
    e = .valueError ∧ c ∉ alphabet := by
  unfold alphaIndex at h
  split at h
  · cases h
  · rename_i hn
    cases h
    refine ⟨rfl, fun hm => ?_⟩
    rw [List.findIdx?_eq_none_iff] at hn
    simpa using hn c hm

theorem alphaIndex_mem {c : UInt8} (h : c ∈ alphabet) : ∃ i, alphaIndex c = .ok i := by
  cases hi : alphaIndex c with
  | ok i => exact ⟨i, rfl⟩
  | error e => exact absurd h (alphaIndex_error hi).2

theorem alphaAt_mem : ∀ i < 58, alphaAt i ∈ alphabet := by decide

theorem alphaAt_inj {i j : Nat} (hi : i < 58) (hj : j < 58) (h : alphaAt i = alphaAt j) : i = j := by
  have h1 := alphaIndex_alphaAt i hi
  rw [h, alphaIndex_alphaAt j hj] at h1
  exact (Except.ok.inj h1).symm

theorem accLoop_eq (v : Bytes) (p acc : Nat) :
    accLoop v p acc = acc + p * bytesVal v.reverse := by
  induction v generalizing p acc with
  | nil => simp [accLoop]
  | cons c cs ih =>
    rw [accLoop, ih, List.reverse_cons, bytesVal_append]
    simp [bytesVal, beVal]; ring

theorem b58decodeInt_aux (ds : List Nat) (h : ∀ d ∈ ds, d < 58) (a : Nat) :
    (ds.map alphaAt).foldlM (fun acc ch => do return acc * 58 + (← alphaIndex ch)) a
      = (.ok (a * 58 ^ ds.length + beVal 58 ds) : Py Nat) := by
  induction ds generalizing a with
  | nil => simp [beVal]; rfl
  | cons d ds ih =>
    have h1 := alphaIndex_alphaAt d (h d (by simp))
    rw [List.map_cons, List.foldlM_cons, h1]
    show List.foldlM _ (a * 58 + d) (ds.map alphaAt) = _
    rw [ih (fun x hx => h x (by simp [hx]))]
    simp only [beVal, List.length_cons, pow_succ]
    congr 1; ring

theorem b58decodeInt_map (ds : List Nat) (h : ∀ d ∈ ds, d < 58) :
    b58decodeInt (ds.map alphaAt) = .ok (beVal 58 ds) := by
  have := b58decodeInt_aux ds h 0
  rw [b58decodeInt, this]; simp

/-- Text over the alphabet is the image of a digit list. -/
theorem exists_digits (s : Bytes) (h : ∀ c ∈ s, c ∈ alphabet) :
    ∃ ds : List Nat, (∀ d ∈ ds, d < 58) ∧ s = ds.map alphaAt := by
  induction s with
  | nil => exact ⟨[], by simp, rfl⟩
  | cons c s ih =>
    obtain ⟨ds, h1, h2⟩ := ih (fun x hx => h x (by simp [hx]))
    obtain ⟨i, hi⟩ := alphaIndex_mem (h c (by simp))
    obtain ⟨hi1, hi2⟩ := alphaAt_index c i hi
    refine ⟨i :: ds, ?_, by simp [hi2, h2]⟩
    intro d hd
    rcases List.mem_cons.1 hd with rfl | hd
    · exact hi1
    · exact h1 d hd

theorem b58decodeInt_bad_aux (s : Bytes) (a : Nat) (h : ∃ c ∈ s, c ∉ alphabet) :
    s.foldlM (fun acc ch => do return acc * 58 + (← alphaIndex ch)) a
      = (.error .valueError : Py Nat) := by
  induction s generalizing a with
  | nil => simp at h
  | cons c s ih =>
    rw [List.foldlM_cons]
    cases hi : alphaIndex c with
    | error e =>
      have := (alphaIndex_error hi).1
      subst this; rfl
    | ok i =>
      show List.foldlM _ (a * 58 + i) s = _
      apply ih
      obtain ⟨x, hx, hxa⟩ := h
      rcases List.mem_cons.1 hx with rfl | hx
      · have hh := alphaAt_index x i hi
        exact absurd (hh.2 ▸ alphaAt_mem i hh.1) hxa
      · exact ⟨x, hx, hxa⟩

/-- Leading zero bytes. -/
theorem split_leading {α : Type} [BEq α] [LawfulBEq α] (z : α) (v : List α) :
    v = List.replicate (v.length - (v.dropWhile (· == z)).length) z ++ v.dropWhile (· == z) ∧
    (∀ x, (v.dropWhile (· == z)).head? = some x → x ≠ z) := by
  constructor
  · induction v with
    | nil => simp
    | cons c v ih =>
      by_cases hc : c = z
      · subst hc
        have hle : (v.dropWhile (· == c)).length ≤ v.length :=
          List.Sublist.length_le (List.dropWhile_sublist _)
        simp only [List.dropWhile_cons, beq_self_eq_true, if_true, List.length_cons]
        rw [Nat.succ_sub hle, List.replicate_succ, List.cons_append, ← ih]
      · have : (c == z) = false := by simpa using hc
        simp [this]
  · induction v with
    | nil => simp
    | cons c v ih =>
      by_cases hc : c = z
      · subst hc; simpa using ih
      · have : (c == z) = false := by simpa using hc
        simp only [List.dropWhile_cons, this]
        simp [hc]

theorem dropWhile_replicate_append {α : Type} [BEq α] [LawfulBEq α] (z : α) (k : Nat) (t : List α)
    (h : ∀ x, t.head? = some x → x ≠ z) :
    (List.replicate k z ++ t).dropWhile (· == z) = t := by
  induction k with
  | zero =>
    cases t with
    | nil => rfl
    | cons x t =>
      have : (x == z) = false := by simpa using h x rfl
      simp [this]
  | succ k ih => simpa [List.replicate_succ] using ih

/-- `b58encode` in closed form. -/
theorem b58encode_eq (k : Nat) (t : Bytes) (h : ∀ x, t.head? = some x → x ≠ 0) :
    b58encode (List.replicate k 0 ++ t) =
      (List.replicate k 0 ++ digitsBE 58 (bytesVal t)).map alphaAt := by
  have hd := dropWhile_replicate_append (0 : UInt8) k t h
  simp only [b58encode, hd, accLoop_eq, b58encodeInt]
  simp

/-- `b58decode` in closed form. -/
theorem b58decode_eq (k : Nat) (ds : List Nat) (hlt : ∀ d ∈ ds, d < 58)
    (h : ∀ x, ds.head? = some x → x ≠ 0) :
    b58decode ((List.replicate k 0 ++ ds).map alphaAt) =
      .ok (List.replicate k 0 ++ (digitsBE 256 (beVal 58 ds)).map UInt8.ofNat) := by
  have hd : ((List.replicate k 0 ++ ds).map alphaAt).dropWhile (· == alphaAt 0) =
      ds.map alphaAt := by
    rw [List.map_append, List.map_replicate]
    apply dropWhile_replicate_append
    intro x hx hx0
    cases ds with
    | nil => simp at hx
    | cons d ds =>
      simp only [List.map_cons, List.head?_cons, Option.some.injEq] at hx
      rw [hx0] at hx
      exact h d rfl (alphaAt_inj (hlt d (by simp)) (by omega) hx)
  simp only [b58decode, hd, b58decodeInt_map ds hlt]
  simp [Bind.bind, Except.bind, Pure.pure, Except.pure]

theorem map_ofNat_digits (n : Nat) :
    ((digitsBE 256 n).map UInt8.ofNat).map UInt8.toNat = digitsBE 256 n := by
  rw [List.map_map]
  conv_rhs => rw [← List.map_id (digitsBE 256 n)]
  apply List.map_congr_left
  intro d hd
  have := digitsBE_lt 256 n (by omega) d hd
  simp only [Function.comp, id]
  exact UInt8.toNat_ofNat_of_lt' (by simpa [UInt8.size] using this)

theorem bytesVal_digits (n : Nat) : bytesVal ((digitsBE 256 n).map UInt8.ofNat) = n := by
  rw [bytesVal, map_ofNat_digits, beVal_digitsBE 256 n (by omega)]

/-- Bytes without leading zero are the digits of their value. -/
theorem digits_bytesVal (t : Bytes) (h : ∀ x, t.head? = some x → x ≠ 0) :
    (digitsBE 256 (bytesVal t)).map UInt8.ofNat = t := by
  rw [bytesVal, digitsBE_beVal 256 (by omega) _ (toNat_lt_256 t)]
  · rw [List.map_map]
    conv_rhs => rw [← List.map_id t]
    apply List.map_congr_left
    intro c _
    simp
  · intro x hx
    cases t with
    | nil => simp at hx
    | cons c t =>
      simp only [List.map_cons, List.head?_cons, Option.some.injEq] at hx
      intro h0
      apply h c rfl
      rw [h0] at hx
      exact UInt8.toNat_inj.1 (by simpa using hx)

theorem b58decode_b58encode (v : Bytes) : b58decode (b58encode v) = .ok v := by
  obtain ⟨h1, h2⟩ := split_leading (0 : UInt8) v
  generalize v.length - (v.dropWhile (· == (0 : UInt8))).length = k at h1
  generalize v.dropWhile (· == (0 : UInt8)) = t at h1 h2
  subst h1
  rw [b58encode_eq k t h2, b58decode_eq k _ (digitsBE_lt 58 _ (by omega))
    (digitsBE_head 58 _ (by omega)), beVal_digitsBE 58 _ (by omega), digits_bytesVal t h2]

theorem b58encode_of_decode (s v : Bytes) (h : b58decode s = .ok v) : b58encode v = s := by
  by_cases hs : ∀ c ∈ s, c ∈ alphabet
  · obtain ⟨ds, hlt, rfl⟩ := exists_digits s hs
    obtain ⟨h1, h2⟩ := split_leading (0 : Nat) ds
    generalize ds.length - (ds.dropWhile (· == 0)).length = k at h1
    generalize ds.dropWhile (· == 0) = t at h1 h2
    subst h1
    have htl : ∀ d ∈ t, d < 58 := fun d hd => hlt d (by simp [hd])
    rw [b58decode_eq k t htl h2] at h
    cases h
    rw [b58encode_eq, bytesVal_digits, digitsBE_beVal 58 (by omega) t htl h2]
    intro x hx
    rw [List.head?_map, Option.map_eq_some_iff] at hx
    obtain ⟨d, hd, rfl⟩ := hx
    have hne := digitsBE_head 256 _ (by omega) d hd
    have hdl := digitsBE_lt 256 _ (by omega) d (List.mem_of_mem_head? hd)
    intro h0
    have := congrArg UInt8.toNat h0
    rw [UInt8.toNat_ofNat_of_lt' (by simpa [UInt8.size] using hdl)] at this
    exact hne (by simpa using this)
  · exfalso
    push Not at hs
    obtain ⟨c, hc, hca⟩ := hs
    have : c ∈ s.dropWhile (· == alphaAt 0) := by
      have h1 := (split_leading (alphaAt 0) s).1
      rw [h1] at hc
      rcases List.mem_append.1 hc with hc | hc
      · rw [List.eq_of_mem_replicate hc] at hca
        exact absurd (alphaAt_mem 0 (by omega)) hca
      · exact hc
    have hbad := b58decodeInt_bad_aux (s.dropWhile (· == alphaAt 0)) 0 ⟨c, this, hca⟩
    simp only [b58decode, b58decodeInt, hbad] at h
    simp [Bind.bind, Except.bind] at h

theorem b58decode_total (s : Bytes) (hs : ∀ c ∈ s, c ∈ alphabet) : ∃ v, b58decode s = .ok v := by
  obtain ⟨ds, hlt, rfl⟩ := exists_digits s hs
  obtain ⟨h1, h2⟩ := split_leading (0 : Nat) ds
  generalize ds.length - (ds.dropWhile (· == 0)).length = k at h1
  generalize ds.dropWhile (· == 0) = t at h1 h2
  subst h1
  exact ⟨_, b58decode_eq k t (fun d hd => hlt d (by simp [hd])) h2⟩

theorem b58decode_bad (s : Bytes) (c : UInt8) (hc : c ∈ s) (hca : c ∉ alphabet) :
    b58decode s = .error .valueError := by
  have : c ∈ s.dropWhile (· == alphaAt 0) := by
    have h1 := (split_leading (alphaAt 0) s).1
    rw [h1] at hc
    rcases List.mem_append.1 hc with hc | hc
    · rw [List.eq_of_mem_replicate hc] at hca
      exact absurd (alphaAt_mem 0 (by omega)) hca
    · exact hc
  have hbad := b58decodeInt_bad_aux (s.dropWhile (· == alphaAt 0)) 0 ⟨c, this, hca⟩
  simp only [b58decode, b58decodeInt, hbad]
  rfl

theorem decodeCheck_encodeCheck (H : Hashes) (v : Bytes) :
    decodeCheck H (encodeCheck H v) = .ok (some v) := by
  have hl : ((H.sha256d v).take 4).length = 4 := by simp [Hashes.sha256d, H.sha256_length]
  have h1 : (v ++ (H.sha256d v).take 4).length - 4 = v.length := by
    rw [List.length_append, hl]; omega
  simp only [decodeCheck, encodeCheck, b58decode_b58encode]
  simp only [Bind.bind, Except.bind, h1, List.take_left, List.drop_left, if_true]
  rfl

theorem encodeCheck_of_decodeCheck (H : Hashes) (s r : Bytes)
    (h : decodeCheck H s = .ok (some r)) : encodeCheck H r = s := by
  unfold decodeCheck at h
  cases hd : b58decode s with
  | error e => rw [hd] at h; cases h
  | ok ret =>
    rw [hd] at h
    simp only [Bind.bind, Except.bind, Pure.pure, Except.pure] at h
    split at h
    · rename_i hc
      cases h
      rw [encodeCheck, hc, List.take_append_drop]
      exact b58encode_of_decode s ret hd
    · cases h

theorem encodeCheck_injective (H : Hashes) {u v : Bytes}
    (h : encodeCheck H u = encodeCheck H v) : u = v := by
  have h1 := decodeCheck_encodeCheck H u
  rw [h, decodeCheck_encodeCheck] at h1
  simpa using h1.symm

end NBC.Base58
