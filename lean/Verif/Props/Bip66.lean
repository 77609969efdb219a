import Verif.Spec.Bip66
import Verif.Proofs.Der
import Verif.Proofs.Ecc
import Verif.Props.Keys
import Verif.Props.Scalars
import Verif.Props.Ecdsa

/-!
# C127, C128: the texts of signatures
-/

namespace NBC.Props
open NBC Der Ecdsa Key Ecc Spec EC NBC.Secp
open Spec.Bip66

/-! ### Contents of integers -/

/-- Non-negative and as short as possible. -/
def MinInt (R : Bytes) : Prop :=
  R ≠ [] ∧ (R.getD 0 0).toNat < 128 ∧ (1 < R.length → (R.getD 0 0).toNat = 0 → 128 ≤ (R.getD 1 0).toNat)

theorem minInt_bounds {R : Bytes} (h : MinInt R) (k : Nat) (hk : 0 < k) :
    bytesVal R < 2 ^ (8 * k - 1) ↔ R.length ≤ k := by
  obtain ⟨h0, h1, h2⟩ := h
  obtain ⟨c, t, rfl⟩ := List.exists_cons_of_ne_nil h0
  simp only [List.getD_cons_zero, List.getD_cons_succ, List.length_cons] at h1 h2 ⊢
  constructor
  · intro hv
    by_contra hl
    have ht : 0 < t.length := by omega
    obtain ⟨d, u, rfl⟩ := List.exists_cons_of_ne_nil (List.ne_nil_of_length_pos ht)
    simp only [List.getD_cons_zero, List.length_cons] at h2 hl
    have hlow : 128 * 256 ^ u.length ≤ bytesVal (c :: d :: u) := by
      rw [bytesVal_cons, bytesVal_cons, List.length_cons, pow_succ]
      have hP : (0:Nat) < 256 ^ u.length := by positivity
      by_cases hc : c.toNat = 0
      · have := h2 (by omega) hc
        nlinarith
      · have : 1 ≤ c.toNat := by omega
        nlinarith
    have hpow : (128 : Nat) * 256 ^ u.length = 2 ^ (8 * (u.length + 1) - 1) := by
      rw [show (256:Nat) = 2 ^ 8 by norm_num, ← pow_mul, show (128:Nat) = 2 ^ 7 by norm_num, ← pow_add]
      congr 1
      omega
    rw [hpow] at hlow
    have : 2 ^ (8 * k - 1) ≤ 2 ^ (8 * (u.length + 1) - 1) := Nat.pow_le_pow_right (by norm_num) (by omega)
    omega
  · intro hl
    exact lt_of_lt_of_le (bytesVal_lt_of_head (t := t) h1) (Nat.pow_le_pow_right (by norm_num) (by omega))

theorem minInt_intBody (m : Nat) : MinInt (intBody m) := by
  obtain ⟨c, t, hb, hc⟩ := intBody_head m
  have hv := bytesVal_intBody m
  rw [hb] at hv ⊢
  refine ⟨by simp, by simpa using hc, fun hl h0 => ?_⟩
  simp only [List.getD_cons_zero, List.getD_cons_succ, List.length_cons] at h0 hl ⊢
  obtain ⟨d, u, rfl⟩ := List.exists_cons_of_ne_nil (List.ne_nil_of_length_pos (l := t) (by omega))
  simp only [List.getD_cons_zero]
  by_contra hd
  rw [bytesVal_cons, h0, zero_mul, zero_add] at hv
  have hlt := bytesVal_lt_of_head (t := u) (c := d) (by omega)
  rw [hv] at hlt
  have := (intBody_length_le m (u.length + 1) (by omega)).2 hlt
  rw [hb] at this
  simp only [List.length_cons] at this
  omega

theorem intBody_of_minInt {R : Bytes} (h : MinInt R) : intBody (bytesVal R) = R := by
  have hl : (intBody (bytesVal R)).length = R.length := by
    have h1 := fun k hk => minInt_bounds h k hk
    have h2 := fun k hk => intBody_length_le (bytesVal R) k hk
    have p1 : 0 < R.length := List.length_pos_iff.2 h.1
    have p2 : 0 < (intBody (bytesVal R)).length := by
      obtain ⟨c, t, hb, -⟩ := intBody_head (bytesVal R)
      rw [hb]; simp
    exact le_antisymm ((h2 _ p1).2 ((h1 _ p1).2 le_rfl)) ((h1 _ p2).1 ((h2 _ p2).1 le_rfl))
  rw [← beBytes_bytesVal' (rfl : (intBody (bytesVal R)).length = _), bytesVal_intBody, hl,
    beBytes_bytesVal' rfl]

/-! ### The form of a strict signature -/

/-- A signature with the contents `R` and `S`. -/
def sigText (R S : Bytes) : Bytes :=
  0x30 :: UInt8.ofNat (R.length + S.length + 4) :: 0x02 :: UInt8.ofNat R.length ::
    (R ++ 0x02 :: UInt8.ofNat S.length :: S)

theorem sigText_length (R S : Bytes) : (sigText R S).length = R.length + S.length + 6 := by
  simp [sigText]; omega

theorem at_eq {sig : Bytes} {i : Nat} (a b : Bytes) (h : sig = a ++ b) (ha : a.length ≤ i) :
    at' sig i = at' b (i - a.length) := by
  unfold at'
  rw [h, List.getD_eq_getElem?_getD, List.getD_eq_getElem?_getD, List.getElem?_append_right ha]

theorem at_app (a b : Bytes) {i : Nat} (ha : i < a.length) : at' (a ++ b) i = at' a i := by
  unfold at'
  rw [List.getD_eq_getElem?_getD, List.getD_eq_getElem?_getD, List.getElem?_append_left ha]

theorem valid_sigText {R S : Bytes} (hR : MinInt R) (hS : MinInt S) (hl : R.length + S.length ≤ 66)
    (t : UInt8) : Valid (sigText R S ++ [t]) := by
  have pR : 0 < R.length := List.length_pos_iff.2 hR.1
  have pS : 0 < S.length := List.length_pos_iff.2 hS.1
  have hlen : (sigText R S ++ [t]).length = R.length + S.length + 7 := by
    rw [List.length_append, sigText_length]; rfl
  have e0 : sigText R S ++ [t] = [0x30, UInt8.ofNat (R.length + S.length + 4), 0x02, UInt8.ofNat R.length] ++
      (R ++ ([0x02, UInt8.ofNat S.length] ++ (S ++ [t]))) := by simp [sigText]
  have a1 : at' (sigText R S ++ [t]) 1 = R.length + S.length + 4 := by
    show (UInt8.ofNat (R.length + S.length + 4)).toNat = _
    rw [UInt8.toNat_ofNat']; omega
  have a3 : at' (sigText R S ++ [t]) 3 = R.length := by
    show (UInt8.ofNat R.length).toNat = _
    rw [UInt8.toNat_ofNat']; omega
  have aR : ∀ i < R.length, at' (sigText R S ++ [t]) (i + 4) = at' R i := by
    intro i hi
    rw [at_eq _ _ e0 (by simp), show i + 4 - _ = i by simp, at_app _ _ hi]
  have e1 : sigText R S ++ [t] = ([0x30, UInt8.ofNat (R.length + S.length + 4), 0x02, UInt8.ofNat R.length] ++ R) ++
      ([0x02, UInt8.ofNat S.length] ++ (S ++ [t])) := by simp [sigText]
  have hl1 : ([0x30, UInt8.ofNat (R.length + S.length + 4), 0x02, UInt8.ofNat R.length] ++ R).length =
      R.length + 4 := by simp
  have aT : at' (sigText R S ++ [t]) (R.length + 4) = 2 := by
    rw [at_eq _ _ e1 (by rw [hl1]), hl1, Nat.sub_self]; rfl
  have aL : at' (sigText R S ++ [t]) (5 + R.length) = S.length := by
    rw [at_eq _ _ e1 (by rw [hl1]; omega), hl1, show 5 + R.length - (R.length + 4) = 1 by omega]
    show (UInt8.ofNat S.length).toNat = _
    rw [UInt8.toNat_ofNat']; omega
  have e2 : sigText R S ++ [t] = ([0x30, UInt8.ofNat (R.length + S.length + 4), 0x02, UInt8.ofNat R.length] ++ R ++
      [0x02, UInt8.ofNat S.length]) ++ (S ++ [t]) := by simp [sigText]
  have hl2 : ([0x30, UInt8.ofNat (R.length + S.length + 4), 0x02, UInt8.ofNat R.length] ++ R ++
      [0x02, UInt8.ofNat S.length]).length = R.length + 6 := by simp
  have aS : ∀ i < S.length, at' (sigText R S ++ [t]) (R.length + 6 + i) = at' S i := by
    intro i hi
    rw [at_eq _ _ e2 (by rw [hl2]; omega), hl2, show R.length + 6 + i - (R.length + 6) = i by omega, at_app _ _ hi]
  constructor
  · omega
  · omega
  · rfl
  · rw [a1, hlen]; omega
  · rw [a3, hlen]; omega
  · rw [a3, aL, hlen]
  · rfl
  · rw [a3]; omega
  · have := aR 0 pR
    rw [show 0 + 4 = 4 from rfl] at this
    rw [this]; exact hR.2.1
  · rw [a3]
    intro h1
    have := aR 0 pR
    rw [show 0 + 4 = 4 from rfl] at this
    have h5 := aR 1 h1
    rw [show 1 + 4 = 5 from rfl] at h5
    rw [this, h5]
    exact hR.2.2 h1
  · rw [a3, aT]
  · rw [a3, aL]; omega
  · rw [a3, show R.length + 6 = R.length + 6 + 0 from rfl, aS 0 pS]; exact hS.2.1
  · rw [a3, aL]
    intro h1
    rw [show R.length + 6 = R.length + 6 + 0 from rfl, aS 0 pS, show R.length + 7 = R.length + 6 + 1 from rfl,
      aS 1 h1]
    exact hS.2.2 h1

theorem ofNat_at (b : Bytes) (i : Nat) : UInt8.ofNat (at' b i) = b.getD i 0 := by
  unfold at'; simp

theorem take_four (b : Bytes) (h : 4 ≤ b.length) :
    b.take 4 = [b.getD 0 0, b.getD 1 0, b.getD 2 0, b.getD 3 0] := by
  rcases b with _ | ⟨a0, _ | ⟨a1, _ | ⟨a2, _ | ⟨a3, r⟩⟩⟩⟩ <;> first | rfl | (simp at h)

theorem take_two (b : Bytes) (h : 2 ≤ b.length) : b.take 2 = [b.getD 0 0, b.getD 1 0] := by
  rcases b with _ | ⟨a0, _ | ⟨a1, r⟩⟩ <;> first | rfl | (simp at h)

theorem sigText_of_valid {b : Bytes} {t : UInt8} (h : Valid (b ++ [t])) :
    ∃ R S, b = sigText R S ∧ MinInt R ∧ MinInt S ∧ R.length + S.length ≤ 66 := by
  have hl : (b ++ [t]).length = b.length + 1 := by simp
  have h9 := h.long
  have h73 := h.short
  have hroom := h.room
  have hfits := h.fits
  rw [hl] at h9 h73 hroom hfits
  have hat : ∀ i < b.length, at' (b ++ [t]) i = at' b i := fun i hi => at_app _ _ hi
  have hseq := h.seq
  have hsl := h.seqLen
  have hrt := h.rTag
  have hrl := h.rLen
  have hrp := h.rPos
  have hrm := h.rMin
  have hst := h.sTag
  have hsn := h.sLen
  have hsp := h.sPos
  have hsm := h.sMin
  rw [hl] at hsl
  clear h
  rw [hat 3 (by omega)] at *
  rw [hat 0 (by omega)] at hseq
  rw [hat 1 (by omega)] at hsl
  rw [hat 2 (by omega)] at hrt
  rw [hat 4 (by omega)] at hrp hrm
  generalize hr : at' b 3 = lr at *
  have hb6 : 6 + lr ≤ b.length := by
    by_contra hlt
    have : at' (b ++ [t]) (5 + lr) = at' [t] (5 + lr - b.length) := at_eq _ _ rfl (by omega)
    omega
  rw [hat (5 + lr) (by omega)] at *
  rw [hat (lr + 4) (by omega)] at hst
  generalize hs : at' b (5 + lr) = ls at *
  have hbl : b.length = lr + ls + 6 := by omega
  rw [hat 5 (by omega)] at hrm
  rw [hat (lr + 6) (by omega)] at hsp hsm
  -- cut it
  have c1 : b = b.take 4 ++ b.drop 4 := (List.take_append_drop 4 b).symm
  have c2 : b.drop 4 = (b.drop 4).take lr ++ b.drop (4 + lr) := by
    rw [← List.drop_drop]; exact (List.take_append_drop lr _).symm
  have c3 : b.drop (4 + lr) = (b.drop (4 + lr)).take 2 ++ b.drop (lr + 6) := by
    rw [show lr + 6 = 4 + lr + 2 by omega, ← List.drop_drop (i := 2) (j := 4 + lr)]; exact (List.take_append_drop 2 _).symm
  have d1 := take_four b (by omega)
  have d3 : (b.drop (4 + lr)).take 2 = [b.getD (lr + 4) 0, b.getD (5 + lr) 0] := by
    have hdl : (b.drop (4 + lr)).length = ls + 2 := by rw [List.length_drop]; omega
    have g0 : b.getD (lr + 4) 0 = (b.drop (4 + lr)).getD 0 0 := by
      simp only [List.getD_eq_getElem?_getD, List.getElem?_drop]; congr 2; omega
    have g1 : b.getD (5 + lr) 0 = (b.drop (4 + lr)).getD 1 0 := by
      simp only [List.getD_eq_getElem?_getD, List.getElem?_drop]; congr 2; omega
    rw [g0, g1]
    exact take_two _ (by omega)
  have eR : ((b.drop 4).take lr).length = lr := by
    rw [List.length_take, List.length_drop]; omega
  have eS : (b.drop (lr + 6)).length = ls := by rw [List.length_drop]; omega
  have gR : ∀ i < lr, ((b.drop 4).take lr).getD i 0 = b.getD (4 + i) 0 := by
    intro i hi
    simp only [List.getD_eq_getElem?_getD, List.getElem?_take_of_lt hi, List.getElem?_drop]
  have gS : ∀ i, (b.drop (lr + 6)).getD i 0 = b.getD (lr + 6 + i) 0 := by
    intro i
    simp only [List.getD_eq_getElem?_getD, List.getElem?_drop]
  refine ⟨(b.drop 4).take lr, b.drop (lr + 6), ?_, ⟨?_, ?_, ?_⟩, ⟨?_, ?_, ?_⟩, ?_⟩
  · conv_lhs => rw [c1, c2, c3, d1, d3]
    unfold sigText
    rw [eR, eS, ← ofNat_at b 0, ← ofNat_at b 1, ← ofNat_at b 2, ← ofNat_at b 3, ← ofNat_at b (lr + 4),
      ← ofNat_at b (5 + lr), hseq, hsl, hrt, hr, hst, hs, hbl]
    rw [show lr + ls + 6 + 1 - 3 = lr + ls + 4 by omega]
    simp
  · intro h0; rw [h0] at eR; simp at eR; omega
  · rw [gR 0 (by omega)]; exact hrp
  · rw [eR]
    intro h1
    rw [gR 0 (by omega), gR 1 h1]
    exact hrm h1
  · intro h0; rw [h0] at eS; simp at eS; omega
  · rw [gS 0]; exact hsp
  · rw [eS]
    intro h1
    rw [gS 0, gS 1]
    rw [hat (lr + 7) (by omega)] at hsm
    exact hsm h1
  · rw [eR, eS]; omega

theorem sigencodeDer_eq (r s : Nat) (hr : (intBody r).length + (intBody s).length ≤ 66) :
    sigencodeDer r s = .ok (sigText (intBody r) (intBody s)) := by
  have e : ∀ m : Nat, (intBody m).length < 128 → encodeInteger m = .ok (tlv 2 (intBody m)) := by
    intro m hm
    rw [encodeInteger_unfold, int2byte_ok (by omega)]
    simp [Except.map, tlv, lenBytes, hm]
  have hlen : ([tlv 2 (intBody r), tlv 2 (intBody s)].flatten).length =
      (intBody r).length + (intBody s).length + 4 := by
    have h1 : (intBody r).length < 128 := by omega
    have h2 : (intBody s).length < 128 := by omega
    simp [tlv, lenBytes, h1, h2]; omega
  have henc := encodeSequence_eq (ps := [tlv 2 (intBody r), tlv 2 (intBody s)]) (by
    rw [hlen]; exact lt_of_le_of_lt (by omega : _ ≤ 1000) (by decide +kernel))
  simp only [sigencodeDer, e r (by omega), e s (by omega), ok_bind]
  rw [henc]
  have h1 : (intBody r).length < 128 := by omega
  have h2 : (intBody s).length < 128 := by omega
  have h3 : (intBody r).length + (intBody s).length + 4 < 128 := by omega
  rw [tlv, hlen]
  simp [sigText, tlv, lenBytes, h1, h2, h3]

theorem small_bodies {r s : Nat} (hr : r < 2 ^ 263) (hs : s < 2 ^ 263) :
    (intBody r).length + (intBody s).length ≤ 66 := by
  have h1 := (intBody_length_le r 33 (by omega)).2 hr
  have h2 := (intBody_length_le s 33 (by omega)).2 hs
  omega

/-! ### C127 -/

/-- C127: the DER text of two numbers below `2^263` (so of every signature on a curve of 256 bits) is in the
strict form. -/
theorem C127_encoding (r s : Nat) (hr : r < 2 ^ 263) (hs : s < 2 ^ 263) :
    ∃ sig, sigencodeDer r s = .ok sig ∧ ∀ hashType, Valid (sig ++ [hashType]) :=
  ⟨_, sigencodeDer_eq r s (small_bodies hr hs),
    fun t => valid_sigText (minInt_intBody r) (minInt_intBody s) (small_bodies hr hs) t⟩

/-- C127: what `sign` returns, with any hash type behind it, is accepted by the test of BIP 66. -/
theorem C127_sign (H : Hashes) (data priv : Bytes) (ent : Nat → Nat → Bytes) (sig : Bytes)
    (h : Ecc.sign H data priv ent = .ok sig) (hashType : UInt8) : Valid (sig ++ [hashType]) := by
  obtain ⟨-, hd, x, y, o, ho, hp, hx, hy, k, r, s, hk, hs, he⟩ := sign_inv h
  have hs' : Ecdsa.sign ⟨K, secp256k1.generator, .aff x y (some n)⟩ (bytesVal priv)
      (hashNum H data) k = .ok (r, s) := hs
  obtain ⟨r1, r2, s1, s2, hv⟩ := sign_verifies genOk (hp.keyOk (Or.inr rfl)) hs'
  obtain ⟨r, rfl⟩ := Int.eq_ofNat_of_zero_le (by omega : 0 ≤ r)
  obtain ⟨s, rfl⟩ := Int.eq_ofNat_of_zero_le (by omega : 0 ≤ s)
  have hpb : p < 2 ^ 263 := by decide +kernel
  obtain ⟨sig', h1, h2⟩ := C127_encoding r s (lt_trans (show r < p by exact_mod_cast r2) hpb)
    (lt_trans (lt_trans (show s < n by exact_mod_cast s2) n_lt_p) hpb)
  rw [h1] at he
  cases he
  exact h2 hashType

/-- The signature `(1, 200)`, with the hash type 1, and what the test refuses: a useless zero, a negative
number, a length that does not fit. -/
example : sigencodeDer 1 200 = .ok [0x30, 7, 2, 1, 1, 2, 2, 0, 200] ∧
    Valid [0x30, 7, 2, 1, 1, 2, 2, 0, 200, 1] ∧ ¬ Valid [0x30, 7, 2, 2, 0, 1, 2, 1, 20, 1] ∧
    ¬ Valid [0x30, 6, 2, 1, 1, 2, 1, 200, 1] ∧ ¬ Valid [0x30, 9, 2, 1, 1, 2, 2, 0, 200, 1] := by
  refine ⟨by decide +kernel, ⟨?_, ?_, ?_, ?_, ?_, ?_, ?_, ?_, ?_, ?_, ?_, ?_, ?_, ?_⟩, fun h => ?_, fun h => ?_,
    fun h => ?_⟩
  any_goals decide +kernel
  · exact absurd (h.rMin (by decide +kernel) (by decide +kernel)) (by decide +kernel)
  · exact absurd h.sPos (by decide +kernel)
  · exact absurd h.seqLen (by decide +kernel)

/-! ### C128 -/

/-- C128, for strict texts: both decoders accept one, its numbers encode to it again, and so two of them with
the same numbers are equal.  Missing: texts that are not strict and other numbers
(`C128_texts_false`, `C128_negated_false`). -/
theorem C128_strict_partial (b : Bytes) (t : UInt8) (h : Valid (b ++ [t])) :
    ∃ r s : Nat, eccSigdecodeDer b = .ok (r, s) ∧ sigdecodeDer b = .ok (r, s) ∧ sigencodeDer r s = .ok b ∧
      ∀ b' t', Valid (b' ++ [t']) →
        eccSigdecodeDer b' = .ok (r, s) ∨ sigdecodeDer b' = .ok (r, s) → b' = b := by
  have key : ∀ (b : Bytes) (t : UInt8), Valid (b ++ [t]) → ∃ r s : Nat, eccSigdecodeDer b = .ok (r, s) ∧
      sigdecodeDer b = .ok (r, s) ∧ sigencodeDer r s = .ok b := by
    intro b t h
    obtain ⟨R, S, rfl, hR, hS, hl⟩ := sigText_of_valid h
    have e := sigencodeDer_eq (bytesVal R) (bytesVal S) (by
      rw [intBody_of_minInt hR, intBody_of_minInt hS]; exact hl)
    rw [intBody_of_minInt hR, intBody_of_minInt hS] at e
    have hb : ∀ {X : Bytes}, MinInt X → X.length ≤ 66 → bytesVal X < 2 ^ 1015 := by
      intro X hX hx
      exact (minInt_bounds hX 127 (by omega)).2 (by omega)
    obtain ⟨sig, e1, e2, e3⟩ := sig_roundtrip (bytesVal R) (bytesVal S) (hb hR (by omega)) (hb hS (by omega))
    rw [e] at e1
    cases e1
    have e3 := e3 []
    rw [List.append_nil] at e3
    exact ⟨_, _, e3, e2, e⟩
  obtain ⟨r, s, h1, h2, h3⟩ := key b t h
  refine ⟨r, s, h1, h2, h3, fun b' t' h' hd => ?_⟩
  obtain ⟨r', s', h1', h2', h3'⟩ := key b' t' h'
  have : r = r' ∧ s = s' := by
    rcases hd with hd | hd
    · rw [h1'] at hd; cases hd; exact ⟨rfl, rfl⟩
    · rw [h2'] at hd; cases hd; exact ⟨rfl, rfl⟩
  obtain ⟨rfl, rfl⟩ := this
  rw [h3] at h3'
  exact (Except.ok.inj h3').symm

/-- What an accepted signature tells. -/
theorem verify_true_inv {H : Hashes} {data pk sig : Bytes} (h : verify H data pk sig = .ok true) :
    ∃ x y r s : Nat, x < n ∧ y < n ∧ OnCurve K x y ∧ decompressPublicKey pk = .ok (uncompressedKey x y) ∧
      eccSigdecodeDer sig = .ok (r, s) ∧ 1 ≤ r ∧ r < n ∧ 1 ≤ s ∧ s < n ∧
      PublicKey.verifies ⟨K, secp256k1.generator, .aff x y (some n)⟩ (hashNum H data) r s = .ok true := by
  cases hd : decompressPublicKey pk with
  | error e =>
    simp only [verify, hd] at h
    split_ifs at h
    cases h
  | ok k =>
    obtain ⟨x, y, hx, -, hyp, hon, rfl, -⟩ := decompress_sound hd
    by_cases hy : y < n
    · rw [verify_key H data pk sig hx hy hon hd] at h
      cases he : eccSigdecodeDer sig with
      | error e => rw [he] at h; cases h
      | ok rs =>
        obtain ⟨r, s⟩ := rs
        rw [he] at h
        simp only at h
        have hrange : 1 ≤ (r : Int) ∧ (r : Int) < n ∧ 1 ≤ (s : Int) ∧ (s : Int) < n := by
          by_contra hc
          rw [C22_out_of_range K secp256k1.generator _ n rfl _ _ _ (by omega)] at h
          cases h
        exact ⟨x, y, r, s, hx, hy, hon, rfl, rfl, by omega, by omega, by omega, by omega, h⟩
    · simp only [verify, hd, drop_uncompressedKey,
        fromString_secp_bad (lt_trans hx n_lt_p) hyp (fun h => hy h.2.1), error_bind] at h
      cases h

/-- C128 is false: every signature that is accepted has infinitely many other texts that are accepted. -/
theorem C128_texts_false (H : Hashes) (data pk sig : Bytes) (h : verify H data pk sig = .ok true) :
    {sig' | verify H data pk sig' = .ok true}.Infinite := by
  obtain ⟨x, y, r, s, hx, hy, hon, hpk, he, -, hr, -, hs, hv⟩ := verify_true_inv h
  have hnb : n < 2 ^ 1015 := by decide +kernel
  obtain ⟨t, -, -, ht⟩ := sig_roundtrip r s (lt_trans hr hnb) (lt_trans hs hnb)
  refine Set.infinite_of_injective_forall_mem (f := fun i : Nat => t ++ List.replicate i 0) ?_ ?_
  · intro i j hij
    have := congrArg List.length hij
    simpa using this
  · intro i
    show verify H data pk (t ++ List.replicate i 0) = .ok true
    rw [verify_key H data pk _ hx hy hon hpk, ht]
    exact hv

/-- C128 is false for strict texts, too: next to an accepted signature `(r, s)` the strict text of
`(r, n - s)` is accepted, which is a different one. -/
theorem C128_negated_false (H : Hashes) (data pk sig : Bytes) (h : verify H data pk sig = .ok true) :
    ∃ sig₁ sig₂ : Bytes, sig₁ ≠ sig₂ ∧ (∀ t, Valid (sig₁ ++ [t])) ∧ (∀ t, Valid (sig₂ ++ [t])) ∧
      verify H data pk sig₁ = .ok true ∧ verify H data pk sig₂ = .ok true := by
  obtain ⟨x, y, r, s, hx, hy, hon, hpk, he, -, hr, hs1, hs, hv⟩ := verify_true_inv h
  have hnb : n < 2 ^ 263 := by decide +kernel
  have hnb' : n < 2 ^ 1015 := by decide +kernel
  obtain ⟨q, hq⟩ := keyOk_of_on (lt_trans hx n_lt_p) hon (o := some n) (Or.inr rfl)
  have hs' : n - s < n := by omega
  obtain ⟨t1, a1, a2⟩ := C127_encoding r s (lt_trans hr hnb) (lt_trans hs hnb)
  obtain ⟨t2, b1, b2⟩ := C127_encoding r (n - s) (lt_trans hr hnb) (lt_trans hs' hnb)
  obtain ⟨t1', c1, -, c2⟩ := sig_roundtrip r s (lt_trans hr hnb') (lt_trans hs hnb')
  obtain ⟨t2', d1, -, d2⟩ := sig_roundtrip r (n - s) (lt_trans hr hnb') (lt_trans hs' hnb')
  rw [a1] at c1
  rw [b1] at d1
  cases c1
  cases d1
  have c2 := c2 []
  have d2 := d2 []
  rw [List.append_nil] at c2 d2
  refine ⟨t1, t2, ?_, a2, b2, ?_, ?_⟩
  · rintro rfl
    rw [c2] at d2
    have h2 : s = n - s := (Prod.mk.inj (Except.ok.inj d2)).2
    have : n % 2 = 1 := by decide +kernel
    omega
  · rw [verify_key H data pk _ hx hy hon hpk, c2]
    exact hv
  · rw [verify_key H data pk _ hx hy hon hpk, d2]
    simp only
    have := C88_negated_s genOk hq (hashNum H data) r s
    rw [hv] at this
    rw [← this]
    congr 1
    push_cast [hs.le]
    rfl

/-- A signature that is accepted: that of the key 1 with the nonce 1. -/
example : ∃ sig, verify Hashes.toy [] keyOne sig = .ok true := by
  have hb : bytesVal (beBytes 32 1) = 1 := bytesVal_beBytes_of_lt (by decide)
  have hp := pubPoint_one
  have hp' := pubPoint_one
  rw [show (1 : Int) = ((bytesVal (beBytes 32 1) : Nat) : Int) by rw [hb]; rfl] at hp
  have hrr := randrange_first (k := 1) (by decide) (by decide)
  obtain ⟨sig, hsig⟩ := (C24_sign_total_partial Hashes.toy [] (beBytes 32 1) _ 1 (beBytes_length _ _)
    (by rw [hb]) (by rw [hb]; decide) _ _ hp hrr _ _ hp' (by decide) (by rw [hb]; decide +kernel)).1
    ⟨by decide, by decide⟩
  obtain ⟨x, y, k', r, h1, hk', ⟨ky, hr⟩, hv⟩ := C24_sign_verify_partial _ _ _ _ _ hsig
  rw [hrr] at hk'
  cases hk'
  obtain ⟨rfl, -⟩ := hr.unique hp'
  obtain ⟨rfl, rfl⟩ := h1.unique hp
  have h2 := (hv []).1
  rw [List.append_nil] at h2
  exact ⟨sig, h2.trans (congrArg Except.ok (decide_eq_true (by decide)))⟩

end NBC.Props
