import Verif.Proofs.Qr

/-!
# C108: QR texts of partial key-sets
-/

namespace NBC.Props
open NBC Key Ecdsa Base58 EC Aes Spec NBC.Secp Piecewise

/-! ### Encoding -/

theorem findMissing_le : ∀ (i : Nat) (l : List (Nat × Bytes)), findMissing i l ≤ i + l.length
  | i, [] => by simp [findMissing]
  | i, p :: l => by
    have := findMissing_le (i + 1) l
    rw [findMissing, List.length_cons]
    split_ifs <;> omega

theorem findMissing_ge : ∀ (i : Nat) (l : List (Nat × Bytes)), i ≤ findMissing i l
  | i, [] => by simp [findMissing]
  | i, p :: l => by
    have := findMissing_ge (i + 1) l
    rw [findMissing]
    split_ifs <;> omega

/-- `missing` for indices that leave out `g`. -/
theorem findMissing_eq (g : Nat) : ∀ (i : Nat) (l : List (Nat × Bytes)), i ≤ g → g ≤ i + l.length →
    (∀ t (ht : t < l.length), l[t].1 = if i + t < g then i + t else i + t + 1) → findMissing i l = g
  | i, [], h1, h2, _ => by simp at h2; simp [findMissing]; omega
  | i, p :: l, h1, h2, h => by
    have h0 := h 0 (by simp)
    simp only [List.getElem_cons_zero, Nat.add_zero] at h0
    rw [findMissing]
    by_cases hg : i < g
    · rw [if_pos hg] at h0
      rw [if_neg (by omega)]
      refine findMissing_eq g (i + 1) l (by omega) (by simp at h2; omega) ?_
      intro t ht
      have := h (t + 1) (by simpa using ht)
      simp only [List.getElem_cons_succ] at this
      rw [this]
      split_ifs <;> omega
    · rw [if_neg hg] at h0
      rw [if_pos (by omega)]
      omega

/-- The pairs of index and key, sorted. -/
def qrSorted (items : List (UInt8 × Bytes)) : List (Nat × Bytes) :=
  sortPairs (items.map (fun it => (it.1.toNat, it.2)))

/-- The bytes of a QR code. -/
def qrBin (req : UInt8) (cs : Bytes) (S : List (Nat × Bytes)) : Bytes :=
  [0x84, 0x7c, 0x20] ++ [UInt8.ofNat (findMissing 0 S)] ++ [req] ++ cs ++ (S.map (·.2)).flatten

theorem decodeCheck_enc (H : Hashes) (req : UInt8) (cs : Bytes) (items : List (UInt8 × Bytes)) :
    (items.map (enc H req cs)).mapM (decodeCheck H) =
      .ok (items.map (fun it => some ([0x10, 0x01] ++ [it.1] ++ [req] ++ cs ++ it.2))) := by
  induction items with
  | nil => rfl
  | cons it items ih =>
    rw [List.map_cons, List.mapM_cons, ih, enc, decodeCheck_encodeCheck]
    rfl

theorem good_enc {req : UInt8} {cs : Bytes} (hcs : cs.length = 4) (it : UInt8 × Bytes) :
    QrGood req.toNat cs (some ([0x10, 0x01] ++ [it.1] ++ [req] ++ cs ++ it.2)) := by
  refine ⟨_, rfl, by simp, ⟨req, rfl, rfl⟩, ?_⟩
  show (cs ++ it.2).take 4 = cs
  rw [List.take_append_of_le_length (by omega), List.take_of_length_le (by omega)]

theorem pair_enc {req : UInt8} {cs : Bytes} (hcs : cs.length = 4) (it : UInt8 × Bytes) :
    qrPair (some ([0x10, 0x01] ++ [it.1] ++ [req] ++ cs ++ it.2)) = (it.1.toNat, it.2) := by
  have : ([0x10, 0x01] ++ [it.1] ++ [req] ++ cs ++ it.2).drop 8 = it.2 := by
    show (cs ++ it.2).drop 4 = it.2
    rw [List.drop_append_of_le_length (by omega), List.drop_of_length_le (by omega), List.nil_append]
  rw [qrPair, this]
  rfl

theorem qrEncode_items (H : Hashes) (req : UInt8) (cs : Bytes) (hcs : cs.length = 4)
    (items : List (UInt8 × Bytes)) (hne : items ≠ []) (hlen : items.length < 256) :
    qrEncode .py2 H (items.map (enc H req cs)) =
      .ok ((digits32 (qrBin req cs (qrSorted items))).map b32Char) := by
  have hl : (qrSorted items).length = items.length := by
    rw [qrSorted, (sortPairs_perm _).length_eq, List.length_map]
  have hm : findMissing 0 (qrSorted items) < 256 := by
    have := findMissing_le 0 (qrSorted items)
    omega
  have hf := qrFold_good (ks := items.map (fun it => some ([0x10, 0x01] ++ [it.1] ++ [req] ++ cs ++ it.2)))
    (r := req.toNat) (c := cs) (st := ⟨none, none, []⟩) (by
      intro k hk
      obtain ⟨it, _, rfl⟩ := List.mem_map.1 hk
      exact good_enc hcs it) rfl rfl (by simpa using hne)
  have hb : (items.map (fun it => some ([0x10, 0x01] ++ [it.1] ++ [req] ++ cs ++ it.2))).map qrPair =
      items.map (fun it => (it.1.toNat, it.2)) := by
    rw [List.map_map]
    exact List.map_congr_left (fun it _ => pair_enc hcs it)
  rw [hb, List.nil_append] at hf
  unfold qrEncode
  simp only [decodeCheck_enc, ok_bind, hf]
  rw [show sortPairs (items.map (fun it => (it.1.toNat, it.2))) = qrSorted items from rfl, CHR, if_pos hm, ok_bind,
    CHR, if_pos req.toNat_lt, ok_bind, UInt8.ofNat_toNat, stripPad_encode]
  rfl

/-! ### Decoding -/

theorem qrBin_length (req : UInt8) (cs : Bytes) (hcs : cs.length = 4) (S : List (Nat × Bytes))
    (h32 : ∀ p ∈ S, p.2.length = 32) : (qrBin req cs S).length = 9 + 32 * S.length := by
  have : ((S.map (·.2)).flatten).length = 32 * S.length := by
    induction S with
    | nil => rfl
    | cons p S ih =>
      rw [List.map_cons, List.flatten_cons, List.length_append, ih (fun q hq => h32 q (by simp [hq])),
        h32 p (by simp), List.length_cons]
      omega
  rw [qrBin, List.length_append, this]
  simp [hcs]

/-- The new index of the key in place `t`. -/
def lab (g t : Nat) : Nat := if t < g then t else t + 1

theorem qrLoop_spec (H : Hashes) (g : Nat) (req : UInt8) (cs : Bytes) : ∀ (ps : List Bytes) (i : Nat)
    (keys : List Bytes), (∀ p ∈ ps, p.length = 32) → (i + ps.length < 256 ∨ (g < i ∧ i + ps.length ≤ 256)) →
    ∃ ks : List Bytes, qrLoop H g req.toNat cs ps.length i ps.flatten keys = .ok ks ∧
      ∀ x, x ∈ ks ↔ x ∈ keys ∨ ∃ t, ∃ ht : t < ps.length, x = enc H req cs
        (UInt8.ofNat (if i + t < g then i + t else if i ≤ g then i + t + 1 else i + t), ps[t])
  | [], i, keys, _, _ => ⟨keys, rfl, fun x => by simp⟩
  | p :: ps, i, keys, h32, hb => by
    have hp : p.length = 32 := h32 p (by simp)
    have htake : ((p :: ps).flatten).take 32 = p := by
      rw [List.flatten_cons, List.take_left' hp]
    have hdrop : ((p :: ps).flatten).drop 32 = ps.flatten := by
      rw [List.flatten_cons, List.drop_left' hp]
    rw [List.length_cons] at hb
    have hi' : (if i = g then i + 1 else i) < 256 := by split_ifs <;> omega
    have hstep : qrLoop H g req.toNat cs (p :: ps).length i (p :: ps).flatten keys =
        qrLoop H g req.toNat cs ps.length ((if i = g then i + 1 else i) + 1) ps.flatten
          (setAdd keys (enc H req cs (UInt8.ofNat (if i = g then i + 1 else i), p))) := by
      rw [List.length_cons, qrLoop]
      simp only [CHR, if_pos hi', ok_bind, if_pos req.toNat_lt, UInt8.ofNat_toNat, htake, hdrop]
      rfl
    obtain ⟨ks, h1, h2⟩ := qrLoop_spec H g req cs ps ((if i = g then i + 1 else i) + 1)
      (setAdd keys (enc H req cs (UInt8.ofNat (if i = g then i + 1 else i), p)))
      (fun q hq => h32 q (by simp [hq])) (by split_ifs <;> omega)
    refine ⟨ks, hstep.trans h1, fun x => ?_⟩
    rw [h2, mem_setAdd, or_assoc]
    refine or_congr_right ?_
    have e0 : (if i = g then i + 1 else i) = (if i + 0 < g then i + 0 else if i ≤ g then i + 0 + 1 else i + 0) := by
      split_ifs <;> omega
    have es : ∀ t, (if (if i = g then i + 1 else i) + 1 + t < g then (if i = g then i + 1 else i) + 1 + t
        else if (if i = g then i + 1 else i) + 1 ≤ g then (if i = g then i + 1 else i) + 1 + t + 1
        else (if i = g then i + 1 else i) + 1 + t) =
        (if i + (t + 1) < g then i + (t + 1) else if i ≤ g then i + (t + 1) + 1 else i + (t + 1)) := by
      intro t
      split_ifs <;> omega
    constructor
    · rintro (rfl | ⟨t, ht, rfl⟩)
      · exact ⟨0, by simp, by rw [e0]; rfl⟩
      · exact ⟨t + 1, by simpa using ht, by rw [es]; rfl⟩
    · rintro ⟨t, ht, rfl⟩
      cases t with
      | zero => exact .inl (by rw [e0]; rfl)
      | succ t => exact .inr ⟨t, by simpa using ht, by rw [es]; rfl⟩

/-- Decoding the text of the bytes of a QR code. -/
theorem qrDecode_bin (H : Hashes) (req : UInt8) (cs : Bytes) (hcs : cs.length = 4) (S : List (Nat × Bytes))
    (h32 : ∀ p ∈ S, p.2.length = 32) (hlen : S.length < 256) :
    ((S.length % 5 = 3 ∨ S.length % 5 = 4) → ∃ ks : List Bytes,
      qrDecode H ((digits32 (qrBin req cs S)).map b32Char) = .ok ks ∧
      ∀ x, x ∈ ks ↔ ∃ t, ∃ ht : t < S.length, x = enc H req cs (UInt8.ofNat (lab (findMissing 0 S) t), S[t].2)) ∧
    (¬ (S.length % 5 = 3 ∨ S.length % 5 = 4) →
      qrDecode H ((digits32 (qrBin req cs S)).map b32Char) = .error .typeError) := by
  have hL := qrBin_length req cs hcs S h32
  have hD := digits32_length (qrBin req cs S)
  rw [hL] at hD
  have hd : ((digits32 (qrBin req cs S)).map b32Char).length = (8 * (9 + 32 * S.length) + 4) / 5 := by
    rw [List.length_map, hD]
  have hg : findMissing 0 S < 256 := by
    have := findMissing_le 0 S
    omega
  constructor
  · intro hm
    have hpad : ((((digits32 (qrBin req cs S)).map b32Char).length * 5 - 9 * 8 : Int) % 32).toNat =
        pad32 ((qrBin req cs S).length % 5) := by
      rw [hd, hL]
      rcases hm with hm | hm
      · rw [show (9 + 32 * S.length) % 5 = 0 by omega]
        show _ = 0
        omega
      · rw [show (9 + 32 * S.length) % 5 = 2 by omega]
        show _ = 4
        omega
    obtain ⟨ks, h1, h2⟩ := qrLoop_spec H (findMissing 0 S) req cs (S.map (·.2)) 0 []
      (by intro p hp; obtain ⟨q, hq, rfl⟩ := List.mem_map.1 hp; exact h32 q hq)
      (.inl (by rw [List.length_map]; omega))
    refine ⟨ks, ?_, fun x => ?_⟩
    · unfold qrDecode
      simp only [hpad, b32decode_encode, ok_bind]
      have e1 : (qrBin req cs S).take 3 = [0x84, 0x7c, 0x20] := rfl
      have e2 : pyIndex (qrBin req cs S) 3 = .ok (UInt8.ofNat (findMissing 0 S)) := rfl
      have e3 : pyIndex (qrBin req cs S) 4 = .ok req := rfl
      have e4 : ((qrBin req cs S).drop 5).take 4 = cs := by
        show (cs ++ (S.map (·.2)).flatten).take 4 = cs
        rw [List.take_append_of_le_length (by omega), List.take_of_length_le (by omega)]
      have e5 : (qrBin req cs S).drop 9 = (S.map (·.2)).flatten := by
        show (cs ++ (S.map (·.2)).flatten).drop 4 = _
        rw [List.drop_append_of_le_length (by omega), List.drop_of_length_le (by omega), List.nil_append]
      have e6 : ((qrBin req cs S).length - 9) / 32 = (S.map (·.2)).length := by
        rw [hL, List.length_map]; omega
      have e7 : (UInt8.ofNat (findMissing 0 S)).toNat = findMissing 0 S := by
        rw [UInt8.toNat_ofNat']; omega
      rw [e1, if_neg (by simp), e2, ok_bind, e3, ok_bind, e4, e5, e6, e7]
      exact h1
    · rw [h2]
      simp only [List.not_mem_nil, false_or, Nat.zero_add, Nat.zero_le, if_true, List.length_map,
        List.getElem_map]
      rfl
  · intro hm
    have hpad : (((digits32 (qrBin req cs S)).map b32Char) ++ List.replicate
        ((((digits32 (qrBin req cs S)).map b32Char).length * 5 - 9 * 8 : Int) % 32).toNat 61).length % 8 ≠ 0 := by
      rw [List.length_append, List.length_replicate, hd]
      have hr : S.length % 5 = 0 ∨ S.length % 5 = 1 ∨ S.length % 5 = 2 := by omega
      have hq := Nat.div_add_mod S.length 5
      generalize S.length / 5 = q at hq
      rcases hr with hr | hr | hr
      · have e1 : (8 * (9 + 32 * S.length) + 4) / 5 = 256 * q + 15 := by omega
        have e2 : ((((256 * q + 15 : Nat) : Int) * 5 - 9 * 8) % 32).toNat = 3 := by omega
        rw [e1, e2]; omega
      · have e1 : (8 * (9 + 32 * S.length) + 4) / 5 = 256 * q + 66 := by omega
        have e2 : ((((256 * q + 66 : Nat) : Int) * 5 - 9 * 8) % 32).toNat = 2 := by omega
        rw [e1, e2]; omega
      · have e1 : (8 * (9 + 32 * S.length) + 4) / 5 = 256 * q + 117 := by omega
        have e2 : ((((256 * q + 117 : Nat) : Int) * 5 - 9 * 8) % 32).toNat = 1 := by omega
        rw [e1, e2]; omega
    unfold qrDecode
    simp only
    rw [b32decode, if_pos hpad]
    rfl

/-! ### C108 -/

theorem sorted_facts {items : List (UInt8 × Bytes)} (hnd : (items.map (·.1)).Nodup) :
    (qrSorted items).length = items.length ∧ ((qrSorted items).map (·.1)).Pairwise (· < ·) ∧
    ∀ p, p ∈ qrSorted items ↔ ∃ it ∈ items, p = (it.1.toNat, it.2) := by
  have hperm := sortPairs_perm (items.map (fun it => (it.1.toNat, it.2)))
  have hl : (qrSorted items).length = items.length := by rw [qrSorted, hperm.length_eq, List.length_map]
  have hmem : ∀ p, p ∈ qrSorted items ↔ ∃ it ∈ items, p = (it.1.toNat, it.2) := by
    intro p
    rw [qrSorted, hperm.mem_iff, List.mem_map]
    constructor <;> (rintro ⟨it, h1, h2⟩; exact ⟨it, h1, h2.symm⟩)
  refine ⟨hl, ?_, hmem⟩
  have hnd' : ((qrSorted items).map (·.1)).Nodup := by
    rw [qrSorted, (hperm.map _).nodup_iff, List.map_map]
    have : (items.map ((fun x => x.1) ∘ fun it : UInt8 × Bytes => (it.1.toNat, it.2))) =
        (items.map (·.1)).map UInt8.toNat := by rw [List.map_map]; rfl
    rw [this]
    exact hnd.map (fun a b h => UInt8.toNat_inj.1 h)
  have hs : ((qrSorted items).map (·.1)).Pairwise (· ≤ ·) := by
    rw [List.pairwise_map]
    refine (sortPairs_sorted _).imp ?_
    intro a b h
    rw [pairLe_iff] at h
    rcases h with h | h
    · exact h.le
    · exact h.1.le
  exact (hs.and hnd').imp (fun h => Nat.lt_of_le_of_ne h.1 h.2)

/-- C108: the text of a QR code does not depend on the order in which the set of keys is listed. -/
theorem C108_order (H : Hashes) (ks ks' : List Bytes) (q : Bytes) (h : qrEncode .py2 H ks = .ok q)
    (hp : ks.Perm ks') : qrEncode .py2 H ks' = .ok q := by
  unfold qrEncode at h ⊢
  simp only at h ⊢
  obtain ⟨ds, h1, h⟩ := bind_ok_iff.1 h
  obtain ⟨ds', h2, hpd⟩ := mapM_perm hp h1
  obtain ⟨st, h3, h⟩ := bind_ok_iff.1 h
  by_cases hne : ds = []
  · subst hne
    rw [List.foldlM_nil, pure_ok_iff] at h3
    subst h3
    obtain ⟨_, _, h⟩ := bind_ok_iff.1 h
    cases h
  have hne' : ds' ≠ [] := fun h0 => hne (by rw [h0] at hpd; exact hpd.eq_nil)
  obtain ⟨r, c, hg⟩ := qrFold_ok h3 hne
  rw [qrFold_good hg rfl rfl hne] at h3
  rw [← Except.ok.inj h3] at h
  rw [h2, ok_bind, qrFold_good (fun k hk => hg k (hpd.mem_iff.2 hk)) rfl rfl hne', ok_bind]
  simp only [List.nil_append] at h ⊢
  rw [sortPairs_congr (hpd.symm.map qrPair)]
  exact h

/-- C108, in Python 2, for a set of `m` partial keys with different indices, `m < 256` and `m % 5` 3 or 4:
the text is decoded, and the keys come back exactly if their indices are the numbers up to `m` but one.
Missing: other numbers of keys (`C108_padding_false`), other indices (`C108_gap_false`) and Python 3
(`C108_python3_false`). -/
theorem C108_roundtrip_partial (H : Hashes) (req : UInt8) (cs : Bytes) (items : List (UInt8 × Bytes))
    (hcs : cs.length = 4) (h32 : ∀ it ∈ items, it.2.length = 32) (hnd : (items.map (·.1)).Nodup)
    (hlen : items.length < 256) (hm : items.length % 5 = 3 ∨ items.length % 5 = 4) :
    ∃ q ks, qrEncode .py2 H (items.map (enc H req cs)) = .ok q ∧ qrDecode H q = .ok ks ∧
      ((∀ x, x ∈ ks ↔ x ∈ items.map (enc H req cs)) ↔
        ∃ g ≤ items.length, ∀ i : UInt8, i ∈ items.map (·.1) ↔ i.toNat ≤ items.length ∧ i.toNat ≠ g) := by
  obtain ⟨hl, hsort, hmem⟩ := sorted_facts hnd
  have hne : items ≠ [] := by rintro rfl; simp at hm
  have hS32 : ∀ p ∈ qrSorted items, p.2.length = 32 := by
    intro p hp
    obtain ⟨it, h1, rfl⟩ := (hmem p).1 hp
    exact h32 it h1
  obtain ⟨ks, hk1, hk2⟩ := (qrDecode_bin H req cs hcs (qrSorted items) hS32 (by omega)).1 (by rw [hl]; exact hm)
  refine ⟨_, ks, qrEncode_items H req cs hcs items hne hlen, hk1, ?_⟩
  generalize hS : qrSorted items = S at hl hsort hmem hk2
  have hgm := findMissing_le 0 S
  rw [Nat.zero_add] at hgm
  have hlab : ∀ g t, t < S.length → lab g t < 256 := by
    intro g t ht
    unfold lab
    split_ifs <;> omega
  have hof : ∀ v, v < 256 → (UInt8.ofNat v).toNat = v := by
    intro v hv
    rw [UInt8.toNat_ofNat']
    omega
  constructor
  · intro hx
    refine ⟨findMissing 0 S, by omega, fun i => ?_⟩
    have hidx : i ∈ items.map (·.1) ↔ ∃ t, t < S.length ∧ lab (findMissing 0 S) t = i.toNat := by
      constructor
      · intro hi
        obtain ⟨it, h1, rfl⟩ := List.mem_map.1 hi
        obtain ⟨t, ht, h2⟩ := (hk2 _).1 ((hx _).2 (List.mem_map_of_mem h1))
        have := enc_inj h2
        refine ⟨t, ht, ?_⟩
        rw [this, hof _ (hlab _ t ht)]
      · rintro ⟨t, ht, h2⟩
        obtain ⟨it, h3, h4⟩ := List.mem_map.1 ((hx _).1 ((hk2 _).2 ⟨t, ht, rfl⟩))
        have := enc_inj h4
        rw [h2, UInt8.ofNat_toNat] at this
        exact List.mem_map.2 ⟨it, h3, by rw [this]⟩
    rw [hidx]
    constructor
    · rintro ⟨t, ht, h⟩
      unfold lab at h
      split_ifs at h <;> omega
    · rintro ⟨h1, h2⟩
      rcases Nat.lt_or_ge i.toNat (findMissing 0 S) with h | h
      · exact ⟨i.toNat, by omega, by rw [lab, if_pos h]⟩
      · exact ⟨i.toNat - 1, by omega, by rw [lab, if_neg (by omega)]; omega⟩
  · rintro ⟨g, hg, hi⟩
    have hlist : S.map (·.1) = (List.range S.length).map (lab g) := by
      have hs2 : ((List.range S.length).map (lab g)).Pairwise (· < ·) := by
        rw [List.pairwise_map]
        refine List.pairwise_lt_range.imp ?_
        intro a b hab
        unfold lab
        split_ifs <;> omega
      refine List.Perm.eq_of_pairwise (le := (· < ·)) (fun a b _ _ h1 h2 => by omega) hsort hs2 ?_
      rw [List.perm_ext_iff_of_nodup (hsort.imp Nat.ne_of_lt) (hs2.imp Nat.ne_of_lt)]
      intro a
      constructor
      · intro ha
        obtain ⟨p, hp, rfl⟩ := List.mem_map.1 ha
        obtain ⟨it, h1, rfl⟩ := (hmem p).1 hp
        obtain ⟨h2, h3⟩ := (hi it.1).1 (List.mem_map_of_mem h1)
        rw [List.mem_map]
        rcases Nat.lt_or_ge it.1.toNat g with h | h
        · exact ⟨it.1.toNat, List.mem_range.2 (by omega), by rw [lab, if_pos h]⟩
        · exact ⟨it.1.toNat - 1, List.mem_range.2 (by omega), by rw [lab, if_neg (by omega)]; simp only; omega⟩
      · intro ha
        obtain ⟨t, ht, rfl⟩ := List.mem_map.1 ha
        rw [List.mem_range] at ht
        have hv := hof _ (hlab g t ht)
        have : UInt8.ofNat (lab g t) ∈ items.map (·.1) := by
          rw [hi, hv]
          unfold lab
          split_ifs <;> omega
        obtain ⟨it, h1, h2⟩ := List.mem_map.1 this
        refine List.mem_map.2 ⟨(it.1.toNat, it.2), (hmem _).2 ⟨it, h1, rfl⟩, ?_⟩
        simp only
        rw [h2, hv]
    have hidx : ∀ t (ht : t < S.length), S[t].1 = lab g t := by
      intro t ht
      have h1 : (S.map (·.1))[t]? = ((List.range S.length).map (lab g))[t]? := by rw [hlist]
      rw [List.getElem?_map, List.getElem?_map, List.getElem?_range ht, List.getElem?_eq_getElem ht] at h1
      simpa using h1
    have hgm : findMissing 0 S = g := by
      refine findMissing_eq g 0 S (by omega) (by omega) ?_
      intro t ht
      rw [hidx t ht, Nat.zero_add]
      rfl
    rw [hgm] at hk2
    intro x
    rw [hk2, List.mem_map]
    constructor
    · rintro ⟨t, ht, rfl⟩
      obtain ⟨it, h1, h2⟩ := (hmem S[t]).1 (List.getElem_mem ht)
      refine ⟨it, h1, ?_⟩
      rw [← hidx t ht, h2, UInt8.ofNat_toNat]
    · rintro ⟨it, h1, rfl⟩
      obtain ⟨t, ht, h2⟩ := List.getElem_of_mem ((hmem (it.1.toNat, it.2)).2 ⟨it, h1, rfl⟩)
      refine ⟨t, ht, ?_⟩
      rw [← hidx t ht, h2, UInt8.ofNat_toNat]

/-- C108 fails for every other number of keys: the text is written but cannot be decoded, since the wrong
number of `=` is put back. -/
theorem C108_padding_false (H : Hashes) (req : UInt8) (cs : Bytes) (items : List (UInt8 × Bytes))
    (hcs : cs.length = 4) (h32 : ∀ it ∈ items, it.2.length = 32) (hnd : (items.map (·.1)).Nodup)
    (hne : items ≠ []) (hlen : items.length < 256) (hm : ¬ (items.length % 5 = 3 ∨ items.length % 5 = 4)) :
    ∃ q, qrEncode .py2 H (items.map (enc H req cs)) = .ok q ∧ qrDecode H q = .error .typeError := by
  obtain ⟨hl, _, hmem⟩ := sorted_facts hnd
  refine ⟨_, qrEncode_items H req cs hcs items hne hlen,
    (qrDecode_bin H req cs hcs (qrSorted items) ?_ (by omega)).2 (by rw [hl]; exact hm)⟩
  intro p hp
  obtain ⟨it, h1, rfl⟩ := (hmem p).1 hp
  exact h32 it h1

/-- C108 fails in Python 3: no key-set at all is encoded. -/
theorem C108_python3_false (H : Hashes) (ks : List Bytes) (q : Bytes) : qrEncode .py3 H ks ≠ .ok q := by
  intro h
  cases ks with
  | nil => cases h
  | cons k ks =>
    unfold qrEncode at h
    simp only at h
    obtain ⟨o, _, h⟩ := bind_ok_iff.1 h
    cases o <;> cases h

/-- The text of a set of keys, listed as `ks`, is decoded to the same set. -/
def QrRecovers (H : Hashes) (ks : List Bytes) : Prop :=
  ∃ q ks', qrEncode .py2 H ks = .ok q ∧ qrDecode H q = .ok ks' ∧ ∀ x, x ∈ ks' ↔ x ∈ ks

/-- The groups of a partial split, as sets of keys with different indices. -/
theorem group_items {H : Hashes} {w : Bytes} {required total : Nat} {ent : Nat → Nat → Nat → Nat → Bytes}
    {gs : List (List Bytes)} (h1 : 1 ≤ required) (h : partialSplit .py2 H w required total ent = .ok gs)
    (i : Nat) (hi : i < gs.length) (ks : List Bytes) (hnd : ks.Nodup) (hks : ∀ x, x ∈ ks ↔ x ∈ gs[i]) :
    required ≤ total ∧ gs.length = total ∧ total ≤ 256 ∧
    ∃ (cs : Bytes) (items : List (UInt8 × Bytes)), cs.length = 4 ∧ items.length = required ∧ required < 256 ∧
      (∀ it ∈ items, it.2.length = 32) ∧ (items.map (·.1)).Nodup ∧
      items.map (·.1) = (List.range required).map (fun j => UInt8.ofNat ((i + j) % total)) ∧
      (items.map (enc H (UInt8.ofNat required) cs)).Perm ks := by
  obtain ⟨k, V, _, hrt, hgl, ht, hr, hV, hmem⟩ := partialSplit_inv h1 h
  refine ⟨hrt, hgl, ht, (H.sha256d k).take 4, (List.range required).map (fun j => (UInt8.ofNat ((i + j) % total),
    beBytes 32 ((V ((i + j) % total)).getD j 0))), sha256d_take4 H k, by simp, hr, ?_, ?_, ?_, ?_⟩
  · intro it hit
    obtain ⟨j, _, rfl⟩ := List.mem_map.1 hit
    exact beBytes_length _ _
  · rw [List.map_map]
    refine List.Nodup.map_on ?_ List.nodup_range
    intro a ha b hb hab
    rw [List.mem_range] at ha hb
    have := congrArg UInt8.toNat hab
    simp only [Function.comp_apply, UInt8.toNat_ofNat'] at this
    have m1 : (i + a) % total < total := Nat.mod_lt _ (by omega)
    have m2 : (i + b) % total < total := Nat.mod_lt _ (by omega)
    rw [Nat.mod_eq_of_lt (by omega : (i + a) % total < 2 ^ 8), Nat.mod_eq_of_lt (by omega : (i + b) % total < 2 ^ 8)] at this
    have h3 : a ≡ b [MOD total] := Nat.ModEq.add_left_cancel' i this
    rwa [Nat.ModEq, Nat.mod_eq_of_lt (by omega), Nat.mod_eq_of_lt (by omega)] at h3
  · rw [List.map_map]
    rfl
  · have hni : ((List.range required).map (fun j => (UInt8.ofNat ((i + j) % total),
        beBytes 32 ((V ((i + j) % total)).getD j 0)))).Nodup := by
      refine List.Nodup.map_on ?_ List.nodup_range
      intro a ha b hb hab
      rw [List.mem_range] at ha hb
      have := congrArg (fun p => UInt8.toNat p.1) hab
      simp only [UInt8.toNat_ofNat'] at this
      have m1 : (i + a) % total < total := Nat.mod_lt _ (by omega)
      have m2 : (i + b) % total < total := Nat.mod_lt _ (by omega)
      rw [Nat.mod_eq_of_lt (by omega : (i + a) % total < 2 ^ 8),
        Nat.mod_eq_of_lt (by omega : (i + b) % total < 2 ^ 8)] at this
      have h3 : a ≡ b [MOD total] := Nat.ModEq.add_left_cancel' i this
      rwa [Nat.ModEq, Nat.mod_eq_of_lt (by omega), Nat.mod_eq_of_lt (by omega)] at h3
    rw [List.perm_ext_iff_of_nodup (hni.map (fun a b h => enc_inj h)) hnd]
    intro x
    rw [hks, hmem i hi, List.mem_map]
    have hlen : ∀ j, j < required → (V ((i + j) % total)).length = required := fun j _ =>
      (hV _ (Nat.mod_lt _ (by omega))).2.1
    constructor
    · rintro ⟨it, hit, rfl⟩
      obtain ⟨j, hj, rfl⟩ := List.mem_map.1 hit
      rw [List.mem_range] at hj
      refine ⟨j, hj, _, ?_, rfl⟩
      rw [List.getD_eq_getElem?_getD, List.getElem?_eq_getElem (by rw [hlen j hj]; exact hj)]
      rfl
    · rintro ⟨j, hj, v, hv, rfl⟩
      refine ⟨_, List.mem_map.2 ⟨j, List.mem_range.2 hj, rfl⟩, ?_⟩
      rw [List.getD_eq_getElem?_getD, hv]
      rfl

/-- C108 for the groups of `partial_split_private_key`, whatever the key and the draws: if `required % 5` is 3
or 4, the text of every group can be decoded, and each comes back exactly when `total` is at most
`required + 1`; see `C108_gap_false` for the others.  `ks i` is any listing of the set of group `i`. -/
theorem C108_groups_partial (H : Hashes) (w : Bytes) (required total : Nat)
    (ent : Nat → Nat → Nat → Nat → Bytes) (gs : List (List Bytes)) (h1 : 1 ≤ required)
    (h : partialSplit .py2 H w required total ent = .ok gs) (hm : required % 5 = 3 ∨ required % 5 = 4)
    (ks : Nat → List Bytes) (hks : ∀ i (hi : i < gs.length), (ks i).Nodup ∧ ∀ x, x ∈ ks i ↔ x ∈ gs[i]) :
    (∀ i, i < gs.length → QrRecovers H (ks i)) ↔ total ≤ required + 1 := by
  have key : ∀ i (hi : i < gs.length), required ≤ total ∧ gs.length = total ∧ total ≤ 256 ∧
      (QrRecovers H (ks i) ↔ ∃ g ≤ required, ∀ v : UInt8,
        v ∈ (List.range required).map (fun j => UInt8.ofNat ((i + j) % total)) ↔
          v.toNat ≤ required ∧ v.toNat ≠ g) := by
    intro i hi
    obtain ⟨e1, e2, e3, cs, items, hcs, hl, hr, h32, hnd, hidx, hperm⟩ :=
      group_items h1 h i hi (ks i) (hks i hi).1 (hks i hi).2
    refine ⟨e1, e2, e3, ?_⟩
    obtain ⟨q, ks', h2, h3, h4⟩ := C108_roundtrip_partial H (UInt8.ofNat required) cs items hcs h32 hnd
      (by omega) (by rw [hl]; exact hm)
    rw [hl, hidx] at h4
    have h2' := C108_order H _ _ q h2 hperm
    rw [← h4]
    constructor
    · rintro ⟨q', ks'', a1, a2, a3⟩
      rw [h2'] at a1
      cases a1
      rw [h3] at a2
      cases a2
      intro x
      rw [a3, hperm.mem_iff]
    · intro hx
      exact ⟨q, ks', h2', h3, fun x => by rw [hx, hperm.mem_iff]⟩
  obtain ⟨k, V, _, hrt, hgl, ht, _⟩ := partialSplit_inv h1 h
  have hmemr : ∀ i (v : UInt8), v ∈ (List.range required).map (fun j => UInt8.ofNat ((i + j) % total)) ↔
      ∃ j, j < required ∧ (i + j) % total = v.toNat := by
    intro i v
    rw [List.mem_map]
    constructor
    · rintro ⟨j, hj, rfl⟩
      have m1 : (i + j) % total < total := Nat.mod_lt _ (by omega)
      exact ⟨j, List.mem_range.1 hj, by rw [UInt8.toNat_ofNat']; omega⟩
    · rintro ⟨j, hj, hv⟩
      exact ⟨j, List.mem_range.2 hj, by rw [hv, UInt8.ofNat_toNat]⟩
  constructor
  · intro hall
    by_contra hc
    obtain ⟨_, _, _, hiff⟩ := key (total - required) (by omega)
    obtain ⟨g, hg, hv⟩ := hiff.1 (hall _ (by omega))
    have hlast : (UInt8.ofNat (total - 1)).toNat = total - 1 := by rw [UInt8.toNat_ofNat']; omega
    have := (hv (UInt8.ofNat (total - 1))).1 ((hmemr _ _).2 ⟨required - 1, by omega, by
      rw [hlast, Nat.mod_eq_of_lt (by omega)]; omega⟩)
    rw [hlast] at this
    omega
  · intro htot i hi
    obtain ⟨_, _, _, hiff⟩ := key i hi
    rw [hiff]
    have hit : i < total := by omega
    rcases Nat.lt_or_ge required total with hlt | hge
    · have htot' : total = required + 1 := by omega
      refine ⟨(i + required) % total, ?_, fun v => ?_⟩
      · have := Nat.mod_lt (i + required) (show 0 < total by omega); omega
      rw [hmemr]
      constructor
      · rintro ⟨j, hj, hv⟩
        have := Nat.mod_lt (i + j) (show 0 < total by omega)
        refine ⟨by omega, ?_⟩
        rw [← hv]
        intro he
        have h3 : j ≡ required [MOD total] := Nat.ModEq.add_left_cancel' i he
        rw [Nat.ModEq, Nat.mod_eq_of_lt (by omega), Nat.mod_eq_of_lt (by omega)] at h3
        omega
      · rintro ⟨hv1, hv2⟩
        have hm := mod_add (i := v.toNat) (j := i) (t := total) (by omega) (by omega)
        refine ⟨(v.toNat + total - i) % total, ?_, by rw [Nat.add_comm]; exact hm⟩
        have hb := Nat.mod_lt (v.toNat + total - i) (show 0 < total by omega)
        by_contra hcon
        have he : (v.toNat + total - i) % total = required := by omega
        rw [he] at hm
        rw [Nat.add_comm] at hm
        exact hv2 hm.symm
    · have htot' : total = required := by omega
      refine ⟨required, le_refl _, fun v => ?_⟩
      rw [hmemr]
      constructor
      · rintro ⟨j, hj, hv⟩
        have := Nat.mod_lt (i + j) (show 0 < total by omega)
        omega
      · rintro ⟨hv1, hv2⟩
        have hm := mod_add (i := v.toNat) (j := i) (t := total) (by omega) (by omega)
        exact ⟨(v.toNat + total - i) % total, by
          have := Nat.mod_lt (v.toNat + total - i) (show 0 < total by omega); omega,
          by rw [Nat.add_comm]; exact hm⟩

/-- C108 fails when more than one index is missing: for every key and all draws, some group of a three-of-five
split does not come back. -/
theorem C108_gap_false (H : Hashes) (w : Bytes) (ent : Nat → Nat → Nat → Nat → Bytes) (gs : List (List Bytes))
    (h : partialSplit .py2 H w 3 5 ent = .ok gs) (ks : Nat → List Bytes)
    (hks : ∀ i (hi : i < gs.length), (ks i).Nodup ∧ ∀ x, x ∈ ks i ↔ x ∈ gs[i]) :
    ∃ i, i < gs.length ∧ ¬ QrRecovers H (ks i) := by
  by_contra hc
  have := (C108_groups_partial H w 3 5 ent gs (by omega) h (.inl rfl) ks hks).1 (by
    intro i hi
    by_contra hn
    exact hc ⟨i, hi, hn⟩)
  omega

/-- A three-of-four split of the key 7 whose groups come back, by `C108_groups_partial`. -/
example : ∃ gs, partialSplit .py2 Hashes.toy (wifOf Hashes.toy 7) 3 4 (fun i j _ len => beBytes len (i + j)) =
    .ok gs ∧ ∀ g ∈ gs, g.Nodup := by
  have : (match partialSplit .py2 Hashes.toy (wifOf Hashes.toy 7) 3 4 (fun i j _ len => beBytes len (i + j)) with
    | .ok gs => decide (∀ g ∈ gs, g.Nodup)
    | .error _ => false) = true := by decide +kernel
  cases h : partialSplit .py2 Hashes.toy (wifOf Hashes.toy 7) 3 4 (fun i j _ len => beBytes len (i + j)) with
  | ok gs => rw [h] at this; exact ⟨gs, rfl, by simpa using this⟩
  | error e => rw [h] at this; cases this

/-- Three keys with the indices 0, 2 and 3 (as of a three-of-four split), listed out of order. -/
example : (match qrEncode .py2 Hashes.toy ([(3, beBytes 32 9), (0, beBytes 32 7), (2, beBytes 32 8)].map
      (enc Hashes.toy 3 [1, 2, 3, 4])) with
    | .ok q => decide (qrDecode Hashes.toy q = .ok ([(0, beBytes 32 7), (2, beBytes 32 8), (3, beBytes 32 9)].map
        (enc Hashes.toy 3 [1, 2, 3, 4])))
    | .error _ => false) = true := by decide +kernel

end NBC.Props
