import Verif.Proofs.Piecewise
import Verif.Props.Piecewise

/-!
# C125: pieces of different keys are not combined
-/

namespace NBC.Props
open NBC Key Ecdsa Base58 EC Aes Spec NBC.Secp Piecewise

/-- What a partial key says: the number of its key-set, how many keys the key-set has, the first four bytes
of the checksum of the private key, and its share. -/
structure Piece where
  set : UInt8
  required : UInt8
  checksum : Bytes
  share : Bytes

/-- The text of a partial key, as its format is described at `piecewise.py:190-198`. -/
def Piece.text (H : Hashes) (P : Piece) : Bytes :=
  encodeCheck H (0x10 :: 0x01 :: P.set :: P.required :: (P.checksum ++ P.share))

/-- Two pieces that may come from the same private key. -/
def Piece.Fits (P Q : Piece) : Prop := P.required = Q.required ∧ P.checksum = Q.checksum

instance (P Q : Piece) : Decidable (P.Fits Q) := by unfold Piece.Fits; infer_instance

theorem Piece.text_eq (H : Hashes) (P : Piece) :
    P.text H = enc H P.required P.checksum (P.set, P.share) := rfl

/-- One turn of the loop after the piece `P0`. -/
theorem combineStep_other (H : Hashes) (ie : Bool) (P0 P : Piece) (hP : P.checksum.length = 4)
    (parts : List (UInt8 × List Bytes)) (hf : ¬ P.Fits P0) :
    combineStep .py2 H ie ⟨parts, some P0.required.toNat, some P0.checksum⟩ (P.text H) =
      if ie then .ok ⟨parts, some P0.required.toNat, some P0.checksum⟩ else .error .valueError := by
  unfold combineStep Piece.text
  rw [decodeCheck_encodeCheck, ok_bind]
  have hd4 : ((0x10 :: 0x01 :: P.set :: P.required :: (P.checksum ++ P.share)).drop 4).take 4 = P.checksum := by
    show (P.checksum ++ P.share).take 4 = P.checksum
    rw [List.take_append_of_le_length (by omega), List.take_of_length_le (by omega)]
  have hi3 : pyIndex (0x10 :: 0x01 :: P.set :: P.required :: (P.checksum ++ P.share)) 3 = .ok P.required := rfl
  have ht2 : (0x10 :: 0x01 :: P.set :: P.required :: (P.checksum ++ P.share)).take 2 = [0x10, 0x01] := rfl
  simp only [hi3, ok_bind, hd4, ht2, ne_eq, not_true_eq_false, if_false, reduceCtorEq, Option.getD_some]
  by_cases hr : P0.required.toNat = P.required.toNat
  · have hr' : P.required = P0.required := UInt8.toNat_inj.1 hr.symm
    have hc : P0.checksum ≠ P.checksum := fun h => hf ⟨hr', h.symm⟩
    simp only [hr, not_true_eq_false, if_false, hc, not_false_eq_true, if_true]
  · simp only [hr, not_false_eq_true, if_true]

/-- The pieces that fit, as items. -/
def fitting (P0 : Piece) (Ps : List Piece) : List (UInt8 × Bytes) :=
  (Ps.filter (fun P => decide (P.Fits P0))).map (fun P => (P.set, P.share))

theorem loop_ignoring (H : Hashes) (P0 : Piece) (Ps : List Piece) (h4 : ∀ P ∈ Ps, P.checksum.length = 4)
    (parts : List (UInt8 × List Bytes)) :
    (Ps.map (Piece.text H)).foldlM (combineStep .py2 H true)
        ⟨parts, some P0.required.toNat, some P0.checksum⟩ =
      .ok ⟨(fitting P0 Ps).foldl (fun p it => partsAdd p it.1 it.2) parts, some P0.required.toNat,
        some P0.checksum⟩ := by
  induction Ps generalizing parts with
  | nil => rfl
  | cons P Ps ih =>
    rw [List.map_cons, List.foldlM_cons]
    by_cases hf : P.Fits P0
    · have hs := combineStep_enc H true P0.required P0.checksum (by rw [← hf.2]; exact h4 P (by simp))
        (P.set, P.share) ⟨parts, some P0.required.toNat, some P0.checksum⟩ (.inr rfl) (.inr rfl)
      rw [← hf.1, ← hf.2, ← Piece.text_eq, hf.1, hf.2] at hs
      rw [hs, ok_bind, ih (fun Q hQ => h4 Q (by simp [hQ]))]
      simp only [fitting, List.filter_cons, decide_eq_true hf, if_true, List.map_cons, List.foldl_cons]
    · rw [combineStep_other H true P0 P (h4 P (by simp)) parts hf, if_pos rfl, ok_bind,
        ih (fun Q hQ => h4 Q (by simp [hQ]))]
      simp only [fitting, List.filter_cons, decide_eq_false hf, if_false, Bool.false_eq_true]

theorem loop_strict (H : Hashes) (P0 : Piece) (Ps : List Piece) (h4 : ∀ P ∈ Ps, P.checksum.length = 4)
    (parts : List (UInt8 × List Bytes)) :
    (Ps.map (Piece.text H)).foldlM (combineStep .py2 H false)
        ⟨parts, some P0.required.toNat, some P0.checksum⟩ =
      if ∀ P ∈ Ps, P.Fits P0 then
        .ok ⟨(fitting P0 Ps).foldl (fun p it => partsAdd p it.1 it.2) parts, some P0.required.toNat,
          some P0.checksum⟩
      else .error .valueError := by
  induction Ps generalizing parts with
  | nil => rfl
  | cons P Ps ih =>
    rw [List.map_cons, List.foldlM_cons]
    by_cases hf : P.Fits P0
    · have hs := combineStep_enc H false P0.required P0.checksum (by rw [← hf.2]; exact h4 P (by simp))
        (P.set, P.share) ⟨parts, some P0.required.toNat, some P0.checksum⟩ (.inr rfl) (.inr rfl)
      rw [← hf.1, ← hf.2, ← Piece.text_eq, hf.1, hf.2] at hs
      rw [hs, ok_bind, ih (fun Q hQ => h4 Q (by simp [hQ]))]
      simp only [fitting, List.filter_cons, List.forall_mem_cons, hf, true_and, decide_true, if_true,
        List.map_cons, List.foldl_cons]
    · rw [combineStep_other H false P0 P (h4 P (by simp)) parts hf]
      simp only [Bool.false_eq_true, if_false, List.forall_mem_cons, hf, false_and]
      rfl

theorem combine_cons (H : Hashes) (order : List (List Bytes) → List (List Bytes)) (ie : Bool) (P0 : Piece)
    (Ps : List Piece) (h4 : ∀ P ∈ P0 :: Ps, P.checksum.length = 4) :
    partialCombine .py2 H order ((P0 :: Ps).map (Piece.text H)) ie =
      if ie = true ∨ ∀ P ∈ Ps, P.Fits P0 then
        combineFind H (some P0.required.toNat) (some P0.checksum)
          (order (((fitting P0 (P0 :: Ps)).foldl (fun p it => partsAdd p it.1 it.2) []).map (·.2)))
      else .error .valueError := by
  have h0 : P0.Fits P0 := ⟨rfl, rfl⟩
  have hs := combineStep_enc H ie P0.required P0.checksum (h4 P0 (by simp))
    (P0.set, P0.share) ⟨[], none, none⟩ (.inl rfl) (.inl rfl)
  rw [← Piece.text_eq] at hs
  have hfit : fitting P0 (P0 :: Ps) = (P0.set, P0.share) :: fitting P0 Ps := by
    simp only [fitting, List.filter_cons, decide_eq_true h0, if_true, List.map_cons]
  rw [partialCombine, List.map_cons, List.foldlM_cons, hs, ok_bind, hfit, List.foldl_cons]
  cases ie
  · rw [loop_strict H P0 Ps (fun Q hQ => h4 Q (by simp [hQ]))]
    by_cases ha : ∀ P ∈ Ps, P.Fits P0
    · rw [if_pos ha, if_pos (.inr ha), ok_bind]
    · rw [if_neg ha, if_neg (by simpa using ha)]
      rfl
  · rw [loop_ignoring H P0 Ps (fun Q hQ => h4 Q (by simp [hQ])), if_pos (.inl rfl), ok_bind]

theorem combineFind_inv {H : Hashes} {r : Nat} {cs w : Bytes} {groups : List (List Bytes)}
    (h : combineFind H (some r) (some cs) groups = .ok (some w)) :
    ∃ g ∈ groups, g.length = r ∧
      w = privkeyToWif H (beBytes 32 ((g.map bytesVal).sum % n)) ∧
      (H.sha256d (beBytes 32 ((g.map bytesVal).sum % n))).take 4 = cs := by
  induction groups with
  | nil => cases h
  | cons g groups ih =>
    rw [combineFind] at h
    split_ifs at h with hr
    · obtain ⟨xs, h1, h⟩ := bind_ok_iff.1 h
      obtain ⟨pk, h2, h⟩ := bind_ok_iff.1 h
      have hxs : xs = g.map bytesVal := by
        have h1' := mapM_inv h1
        refine List.ext_getElem (by rw [List.length_map]; exact h1'.1) (fun i hi hj => ?_)
        have := h1'.2 i (by simpa using hj) hi
        rw [List.getElem_map]
        by_cases h0 : g[i]'(by simpa using hj) = []
        · rw [h0, stringToNumber_nil] at this
          cases this
        · rw [stringToNumber_eq _ h0] at this
          exact (Except.ok.inj this).symm
      rw [hxs] at h2
      have hlt : (g.map bytesVal).sum % n < n := Nat.mod_lt _ (by decide)
      have h3 := toString_n hlt
      rw [show secp256k1.order = n from rfl] at h2 h3
      rw [h3] at h2
      cases h2
      split_ifs at h with hc
      · refine ⟨g, by simp, Option.some.inj hr, ?_, Option.some.inj (not_not.1 hc)⟩
        exact (Option.some.inj (Except.ok.inj h)).symm
    · obtain ⟨g', h1, h2⟩ := ih h
      exact ⟨g', by simp [h1], h2⟩

/-- C125: pieces that do not fit each other are refused with `ValueError`. -/
theorem C125_mixed_refused (H : Hashes) (order : List (List Bytes) → List (List Bytes)) (Ps : List Piece)
    (h4 : ∀ P ∈ Ps, P.checksum.length = 4) (P Q : Piece) (hP : P ∈ Ps) (hQ : Q ∈ Ps) (h : ¬ P.Fits Q) :
    partialCombine .py2 H order (Ps.map (Piece.text H)) = .error .valueError := by
  cases Ps with
  | nil => cases hP
  | cons P0 Ps =>
    rw [combine_cons H order false P0 Ps h4, if_neg]
    rintro (h' | h')
    · cases h'
    · have hall : ∀ P ∈ P0 :: Ps, P.Fits P0 := List.forall_mem_cons.2 ⟨⟨rfl, rfl⟩, h'⟩
      exact h ⟨(hall P hP).1.trans (hall Q hQ).1.symm, (hall P hP).2.trans (hall Q hQ).2.symm⟩

/-- C125: with `ignore_errors`, pieces that do not fit the first one have no influence. -/
theorem C125_others_ignored (H : Hashes) (order : List (List Bytes) → List (List Bytes)) (P0 : Piece)
    (Ps : List Piece) (h4 : ∀ P ∈ P0 :: Ps, P.checksum.length = 4) :
    partialCombine .py2 H order ((P0 :: Ps).map (Piece.text H)) true =
      partialCombine .py2 H order ((P0 :: Ps.filter (fun P => decide (P.Fits P0))).map (Piece.text H)) true := by
  have h0 : P0.Fits P0 := ⟨rfl, rfl⟩
  rw [combine_cons H order true P0 Ps h4, combine_cons H order true P0 _ (fun P hP => h4 P (by
    rcases List.mem_cons.1 hP with rfl | hP
    · simp
    · exact List.mem_cons_of_mem _ (List.mem_of_mem_filter hP))), if_pos (.inl rfl), if_pos (.inl rfl)]
  simp only [fitting, List.filter_cons, decide_eq_true h0, if_true, List.filter_filter, Bool.and_self]

/-- C125: a key that is returned is the sum of the different shares of one key-set, among the pieces that
fit the first one; these are as many as the pieces say, and the checksum of the key is the one they carry.
Without `ignore_errors` all pieces fit each other. -/
theorem C125_result (H : Hashes) (order : List (List Bytes) → List (List Bytes))
    (hord : ∀ l, (order l).Perm l) (ie : Bool) (P0 : Piece) (Ps : List Piece)
    (h4 : ∀ P ∈ P0 :: Ps, P.checksum.length = 4) (w : Bytes)
    (h : partialCombine .py2 H order ((P0 :: Ps).map (Piece.text H)) ie = .ok (some w)) :
    (∃ i : UInt8, ∃ shares : List Bytes, shares.Nodup ∧
      (∀ x, x ∈ shares ↔ ∃ P ∈ P0 :: Ps, P.Fits P0 ∧ P.set = i ∧ P.share = x) ∧
      shares.length = P0.required.toNat ∧
      w = privkeyToWif H (beBytes 32 ((shares.map bytesVal).sum % n)) ∧
      (H.sha256d (beBytes 32 ((shares.map bytesVal).sum % n))).take 4 = P0.checksum) ∧
    (ie = false → ∀ P ∈ P0 :: Ps, ∀ Q ∈ P0 :: Ps, P.Fits Q) := by
  have hstrict : ie = false → ∀ P ∈ P0 :: Ps, ∀ Q ∈ P0 :: Ps, P.Fits Q := by
    rintro rfl P hP Q hQ
    by_contra hf
    rw [C125_mixed_refused H order _ h4 P Q hP hQ hf] at h
    cases h
  refine ⟨?_, hstrict⟩
  rw [combine_cons H order ie P0 Ps h4] at h
  split_ifs at h
  obtain ⟨g, hg, h1, h2, h3⟩ := combineFind_inv h
  rw [(hord _).mem_iff] at hg
  obtain ⟨p, hp, rfl⟩ := List.mem_map.1 hg
  have hinv := foldl_inv (fitting P0 (P0 :: Ps)) [] inv_nil
  rw [List.nil_append] at hinv
  refine ⟨p.1, p.2, hinv.nodup p hp, fun x => ?_, h1, h2, h3⟩
  rw [hinv.mem p hp x, fitting, List.mem_map]
  constructor
  · rintro ⟨P, hP, he⟩
    rw [List.mem_filter, decide_eq_true_eq] at hP
    obtain ⟨h5, h6⟩ := Prod.mk.injEq .. ▸ he
    exact ⟨P, hP.1, hP.2, h5, h6⟩
  · rintro ⟨P, hP, hf, hs, hx⟩
    exact ⟨P, List.mem_filter.2 ⟨hP, decide_eq_true hf⟩, by rw [hs, hx]⟩

/-- The key 7 in two shares. -/
def sevenPiece (v : Nat) : Piece := ⟨0, 2, (Hashes.toy.sha256d (beBytes 32 7)).take 4, beBytes 32 v⟩

/-- A piece of another key. -/
def strangePiece : Piece := ⟨0, 2, [1, 2, 3, 4], beBytes 32 9⟩

example : partialCombine .py2 Hashes.toy id ([sevenPiece 3, sevenPiece 4].map (Piece.text Hashes.toy)) =
    .ok (some (privkeyToWif Hashes.toy (beBytes 32 7))) := by decide +kernel

example : partialCombine .py2 Hashes.toy id
    ([sevenPiece 3, strangePiece, sevenPiece 4].map (Piece.text Hashes.toy)) = .error .valueError ∧
    ¬ (sevenPiece 3).Fits strangePiece := by decide +kernel

example : partialCombine .py2 Hashes.toy id
    ([sevenPiece 3, strangePiece, sevenPiece 4].map (Piece.text Hashes.toy)) true =
    .ok (some (privkeyToWif Hashes.toy (beBytes 32 7))) := by decide +kernel

end NBC.Props
