import Verif.Model.Der
import Verif.Proofs.Hex

/-! # Lemmas about the DER model -/

namespace NBC.Der
open NBC NBC.Spec

theorem orderlen_le_iff (n k : Nat) (hk : 0 < k) : orderlen n ≤ k ↔ n < 256 ^ k := by
  have h := hexDigits_length_le_iff n (2 * k) (by omega)
  rw [pow_mul] at h
  rw [orderlen, fmtHexNat_length]
  norm_num at h
  rw [← h]; omega

theorem minimalBytes_eq (n : Nat) : minimalBytes n = .ok (beBytes (orderlen n) n) := by
  have e : (let h := fmtHexNat n; if h.length % 2 ≠ 0 then 48 :: h else h)
      = fmtHexPad (2 * orderlen n) (n : Int) := by
    have hp := hexDigits_length_pos n
    simp only [fmtHexPad, orderlen, fmtHexNat_length]
    have hn : ¬ ((n : Int) < 0) := by omega
    simp only [hn, if_false, Int.natAbs_natCast, fmtHexNat_length]
    split
    · have : 2 * ((1 + (hexDigits n).length) / 2) - (hexDigits n).length = 1 := by omega
      simp [this]
    · have : 2 * ((1 + (hexDigits n).length) / 2) - (hexDigits n).length = 0 := by omega
      simp [this]
  have := unhexlify_fmtHexPad (orderlen_pos n) (lt_256_pow_orderlen n)
  rw [← e] at this
  exact this

theorem int2byte_ok {n : Nat} (h : n < 256) : int2byte n = .ok [UInt8.ofNat n] := by
  have h1 : (0 : Int) ≤ n ∧ (n : Int) < 256 := by omega
  simp [int2byte, h1]

theorem int2byte_big {n : Nat} (h : 256 ≤ n) : int2byte n = .error .structError := by
  have h1 : ¬ ((0 : Int) ≤ n ∧ (n : Int) < 256) := by omega
  simp only [int2byte, h1, if_false]

theorem or_128 : ∀ k < 128, 0x80 ||| k = 128 + k := by decide +kernel

/-- The bytes of a DER length. -/
def lenBytes (l : Nat) : Bytes :=
  if l < 128 then [UInt8.ofNat l] else UInt8.ofNat (128 + orderlen l) :: beBytes (orderlen l) l

theorem encodeLength_eq {l : Nat} (h : l < 256 ^ 127) : encodeLength l = .ok (lenBytes l) := by
  unfold encodeLength lenBytes
  split
  · exact int2byte_ok (by omega)
  · have hk : orderlen l ≤ 127 := (orderlen_le_iff l 127 (by omega)).2 h
    simp only [minimalBytes_eq, Bind.bind, Except.bind, Pure.pure, Except.pure, beBytes_length]
    rw [or_128 _ (by omega), int2byte_ok (by omega)]
    rfl

theorem lenBytes_ne_nil (l : Nat) : lenBytes l ≠ [] := by unfold lenBytes; split <;> simp

theorem and_128 : ∀ c < 256, (c &&& 0x80 = 0 ↔ c < 128) ∧ c &&& 0x7f = c % 128 := by decide +kernel

theorem readLength_lenBytes {l : Nat} (h : l < 256 ^ 127) (rest : Bytes) :
    readLength (lenBytes l ++ rest) = .ok (l, (lenBytes l).length) := by
  unfold lenBytes
  split
  · rename_i hl
    have := and_128 l (by omega)
    have hm : l % 256 = l := by omega
    have hm' : l % 128 = l := by omega
    simp [readLength, pyIndex, Bind.bind, Except.bind, Pure.pure, Except.pure, hm, this, hl, hm']
  · have hk : orderlen l ≤ 127 := (orderlen_le_iff l 127 (by omega)).2 h
    have hp := orderlen_pos l
    have := and_128 (128 + orderlen l) (by omega)
    have hm : (128 + orderlen l) % 256 = 128 + orderlen l := by omega
    have hm' : (128 + orderlen l) % 128 = orderlen l := by omega
    have hne : beBytes (orderlen l) l ≠ [] := by
      intro h0; have := congrArg List.length h0; simp at this; omega
    have hs := stringToNumber_eq _ hne
    rw [bytesVal_beBytes_of_lt (lt_256_pow_orderlen l)] at hs
    simp only [stringToNumber] at hs
    have h2 : ¬ ((orderlen l : Int) > (((UInt8.ofNat (128 + orderlen l) :: beBytes (orderlen l) l)
        ++ rest).length : Int) - 1) := by simp
    have htake : ((beBytes (orderlen l) l ++ rest).take (orderlen l)) = beBytes (orderlen l) l := by
      rw [List.take_append_of_le_length (by simp)]
      exact List.take_of_length_le (by simp)
    simp only [readLength, List.cons_append, pyIndex, List.getElem?_cons_zero, Bind.bind,
      Except.bind, Pure.pure, Except.pure, UInt8.toNat_ofNat', List.drop_succ_cons, List.drop_zero]
    rw [show (2:Nat) ^ 8 = 256 from rfl, hm, this.2, hm', htake, hs]
    have h3 : ¬ (128 + orderlen l &&& 128 = 0) := by rw [this.1]; omega
    rw [if_neg h3]
    simp only [List.cons_append] at h2
    rw [if_neg h2]
    simp; omega

/-- What any decoder reads after the tag byte. -/
theorem cutBody_eq (tag : UInt8) (body rest : Bytes) (h : body.length < 256 ^ 127) :
    cutBody (tag :: (lenBytes body.length ++ (body ++ rest))) = .ok (body, rest) := by
  simp only [cutBody, List.drop_succ_cons, List.drop_zero, readLength_lenBytes h, Bind.bind,
    Except.bind, Pure.pure, Except.pure]
  generalize lenBytes body.length = lb
  rw [show 1 + lb.length + body.length = (lb.length + body.length) + 1 by omega,
    show 1 + lb.length = lb.length + 1 by omega]
  simp only [List.drop_succ_cons, ← List.drop_drop]
  simp

/-- `tag, length, body`. -/
def tlv (tag : UInt8) (body : Bytes) : Bytes := tag :: (lenBytes body.length ++ body)

theorem cutBody_tlv (tag : UInt8) (body rest : Bytes) (h : body.length < 256 ^ 127) :
    cutBody (tlv tag body ++ rest) = .ok (body, rest) := by
  simpa [tlv] using cutBody_eq tag body rest h

theorem expectTag_tlv (tag : UInt8) (body rest : Bytes) :
    expectTag tag (tlv tag body ++ rest) = .ok () := by simp [expectTag, tlv]

theorem encodeOctetString_eq {s : Bytes} (h : s.length < 256 ^ 127) :
    encodeOctetString s = .ok (tlv 4 s) := by
  simp only [encodeOctetString, encodeLength_eq h]; rfl

theorem encodeBitstring_eq {s : Bytes} (h : s.length < 256 ^ 127) :
    encodeBitstring s = .ok (tlv 3 s) := by
  simp only [encodeBitstring, encodeLength_eq h]; rfl

theorem encodeSequence_eq {ps : List Bytes} (h : ps.flatten.length < 256 ^ 127) :
    encodeSequence ps = .ok (tlv 0x30 ps.flatten) := by
  rw [List.length_flatten] at h
  simp only [encodeSequence, encodeLength_eq h]
  simp [tlv, List.length_flatten, Bind.bind, Except.bind, Pure.pure, Except.pure]

theorem encodeConstructed_eq {tag : Nat} (ht : tag < 96) {s : Bytes} (h : s.length < 256 ^ 127) :
    encodeConstructed tag s = .ok (tlv (UInt8.ofNat (0xa0 + tag)) s) := by
  simp only [encodeConstructed, encodeLength_eq h, int2byte_ok (show 0xa0 + tag < 256 by omega)]
  rfl

theorem removeSequence_tlv (body rest : Bytes) (h : body.length < 256 ^ 127) :
    removeSequence (tlv 0x30 body ++ rest) = .ok (body, rest) := by
  simp only [removeSequence, expectTag_tlv, cutBody_tlv _ _ _ h, Bind.bind, Except.bind]

theorem removeOctetString_tlv (body rest : Bytes) (h : body.length < 256 ^ 127) :
    removeOctetString (tlv 4 body ++ rest) = .ok (body, rest) := by
  simp only [removeOctetString, expectTag_tlv, cutBody_tlv _ _ _ h, Bind.bind, Except.bind]

theorem removeBitstring_tlv (body rest : Bytes) (h : body.length < 256 ^ 127) :
    removeBitstring (tlv 3 body ++ rest) = .ok (body, rest) := by
  simp only [removeBitstring, expectTag_tlv, cutBody_tlv _ _ _ h, Bind.bind, Except.bind]

theorem constructed_bits : ∀ tag < 32, (0xa0 + tag) &&& 0xe0 = 0xa0 ∧ (0xa0 + tag) &&& 0x1f = tag := by
  decide +kernel

theorem removeConstructed_tlv {tag : Nat} (ht : tag < 32) (body rest : Bytes)
    (h : body.length < 256 ^ 127) :
    removeConstructed (tlv (UInt8.ofNat (0xa0 + tag)) body ++ rest) = .ok (tag, body, rest) := by
  have hb := constructed_bits tag ht
  have hm : (160 + tag) % 256 = 160 + tag := by omega
  have h0 : pyIndex (tlv (UInt8.ofNat (0xa0 + tag)) body ++ rest) 0
      = .ok (UInt8.ofNat (0xa0 + tag)) := by simp [tlv, pyIndex]
  simp only [removeConstructed, h0, cutBody_tlv _ _ _ h, Bind.bind, Except.bind, Pure.pure,
    Except.pure, UInt8.toNat_ofNat']
  rw [show (2:Nat) ^ 8 = 256 from rfl, hm, hb.1, hb.2]
  simp

/-! ### Integers -/

/-- Content bytes of `encode_integer`. -/
def intBody (n : Nat) : Bytes :=
  let s := beBytes (orderlen n) n
  if (s.headD 0).toNat ≤ 0x7f then s else 0 :: s

theorem encodeInteger_unfold (n : Nat) :
    encodeInteger n = (int2byte ((intBody n).length : Nat)).map fun l => [2] ++ l ++ intBody n := by
  have hp := orderlen_pos n
  cases hs : beBytes (orderlen n) n with
  | nil => have := congrArg List.length hs; simp at this; omega
  | cons c t =>
    simp only [encodeInteger, minimalBytes_eq, hs, pyAssert, pyIndex, intBody, Bind.bind,
      Except.bind, Pure.pure, Except.pure, Int.toNat_natCast, List.headD_cons,
      List.getElem?_cons_zero]
    have h0 : decide ((n : Int) ≥ 0) = true := by simp
    simp only [h0, if_true]
    split
    · cases int2byte _ <;> rfl
    · have : (((c :: t).length : Int) + 1) = (((0 : UInt8) :: c :: t).length : Nat) := by simp
      rw [this]
      cases int2byte _ <;> simp [Except.map]

theorem intBody_head (n : Nat) : ∃ c t, intBody n = c :: t ∧ c.toNat < 128 := by
  have hp := orderlen_pos n
  cases hs : beBytes (orderlen n) n with
  | nil => have := congrArg List.length hs; simp at this; omega
  | cons c t =>
    simp only [intBody, hs, List.headD_cons]
    split
    · exact ⟨c, t, rfl, by omega⟩
    · exact ⟨0, c :: t, rfl, by simp⟩

theorem bytesVal_intBody (n : Nat) : bytesVal (intBody n) = n := by
  simp only [intBody]
  split
  · exact bytesVal_beBytes_of_lt (lt_256_pow_orderlen n)
  · rw [bytesVal_cons]; simp [bytesVal_beBytes_of_lt (lt_256_pow_orderlen n)]

theorem stringToNumber_intBody (n : Nat) : intOfHex (hexlify (intBody n)) = .ok n := by
  obtain ⟨c, t, h, _⟩ := intBody_head n
  have := stringToNumber_eq (intBody n) (by rw [h]; simp)
  rwa [bytesVal_intBody] at this

theorem intBody_length_le (n k : Nat) (hk : 0 < k) :
    (intBody n).length ≤ k ↔ n < 2 ^ (8 * k - 1) := by
  have hp := orderlen_pos n
  have hb : bytesVal (beBytes (orderlen n) n) = n := bytesVal_beBytes_of_lt (lt_256_pow_orderlen n)
  have hol := orderlen_le_iff n k hk
  have hol1 := fun h => orderlen_le_iff n (k - 1) h
  cases hs : beBytes (orderlen n) n with
  | nil => have := congrArg List.length hs; simp at this; omega
  | cons c t =>
    have hlen := congrArg List.length hs
    simp only [beBytes_length, List.length_cons] at hlen
    rw [hs, bytesVal_cons] at hb
    have ht := bytesVal_lt t
    have hpow : (256 : Nat) ^ k = 2 * 2 ^ (8 * k - 1) := by
      rw [show (256:Nat) = 2 ^ 8 by norm_num, ← pow_mul, ← pow_succ']
      congr 1; omega
    simp only [intBody, hs, List.headD_cons]
    have hP : (0:Nat) < 256 ^ t.length := by positivity
    split
    · rename_i hc
      have hub : n < 2 ^ (8 * (t.length + 1) - 1) := by
        have : (2:Nat) ^ (8 * (t.length + 1) - 1) = 128 * 256 ^ t.length := by
          rw [show (256:Nat) = 2 ^ 8 by norm_num, ← pow_mul, show (128:Nat) = 2 ^ 7 by norm_num,
            ← pow_add]; congr 1; omega
        rw [this]; nlinarith
      simp only [List.length_cons]
      constructor
      · intro h
        exact lt_of_lt_of_le hub (Nat.pow_le_pow_right (by norm_num) (by omega))
      · intro h
        have := hol.2 (by rw [hpow]; omega)
        omega
    · rename_i hc
      have hlb : 2 ^ (8 * (t.length + 1) - 1) ≤ n := by
        have : (2:Nat) ^ (8 * (t.length + 1) - 1) = 128 * 256 ^ t.length := by
          rw [show (256:Nat) = 2 ^ 8 by norm_num, ← pow_mul, show (128:Nat) = 2 ^ 7 by norm_num,
            ← pow_add]; congr 1; omega
        rw [this]; nlinarith
      simp only [List.length_cons]
      constructor
      · intro h
        have h1 := (hol1 (by omega)).1 (by omega)
        refine lt_of_lt_of_le h1 ?_
        rw [show (256:Nat) = 2 ^ 8 by norm_num, ← pow_mul]
        exact Nat.pow_le_pow_right (by norm_num) (by omega)
      · intro h
        have h1 := hol.2 (by rw [hpow]; omega)
        by_contra h2
        have : t.length + 1 = k := by omega
        rw [this] at hlb; omega

/-- Up to 127 content bytes the encoding is a proper TLV. -/
theorem encodeInteger_eq {n : Nat} (h : n < 2 ^ 1015) : encodeInteger n = .ok (tlv 2 (intBody n)) := by
  have hl := (intBody_length_le n 127 (by omega)).2 h
  rw [encodeInteger_unfold, int2byte_ok (by omega)]
  have h2 : (intBody n).length < 128 := by omega
  clear h hl
  simp [Except.map, tlv, lenBytes, h2]

theorem removeInteger_tlv (n : Nat) (rest : Bytes) (h : (intBody n).length < 256 ^ 127) :
    removeInteger (tlv 2 (intBody n) ++ rest) = .ok (n, rest) := by
  obtain ⟨c, t, hb, hc⟩ := intBody_head n
  have hi : pyIndex (intBody n) 0 = .ok c := by simp [hb, pyIndex]
  simp only [removeInteger, expectTag_tlv, cutBody_tlv _ _ _ h, Bind.bind, Except.bind, hi,
    pyAssert, hc, decide_true, if_true, stringToNumber_intBody]
  rfl

theorem eccRemoveInteger_tlv (n : Nat) (rest : Bytes) (h : (intBody n).length < 256 ^ 127) :
    eccRemoveInteger (tlv 2 (intBody n) ++ rest) = .ok (n, rest) := by
  have hc := cutBody_tlv 2 (intBody n) rest h
  simp only [tlv, List.cons_append] at hc ⊢
  simp only [eccRemoveInteger, hc, ne_eq, not_true, if_false, Bind.bind, Except.bind,
    stringToNumber_intBody]
  rfl

theorem bytesVal_lt_of_head {c : UInt8} {t : Bytes} (hc : c.toNat < 128) :
    bytesVal (c :: t) < 2 ^ (8 * (t.length + 1) - 1) := by
  have : (2:Nat) ^ (8 * (t.length + 1) - 1) = 128 * 256 ^ t.length := by
    rw [show (256:Nat) = 2 ^ 8 by norm_num, ← pow_mul, show (128:Nat) = 2 ^ 7 by norm_num,
      ← pow_add]; congr 1; omega
  rw [this, bytesVal_cons]
  have ht := bytesVal_lt t
  have hP : (0:Nat) < 256 ^ t.length := by positivity
  nlinarith

/-- From 128 content bytes on, the single length byte is read as a long form and the integer is
never recovered. -/
theorem removeInteger_long {n : Nat} (h : 128 ≤ (intBody n).length) (h2 : (intBody n).length < 256)
    (rest : Bytes) :
    removeInteger (2 :: UInt8.ofNat (intBody n).length :: (intBody n ++ rest)) ≠ .ok (n, rest) := by
  have hval := (intBody_length_le n ((intBody n).length - 1) (by omega)).not.1 (by omega)
  generalize hb : intBody n = body at *
  have h3 := and_128 body.length h2
  have hm : body.length % 256 = body.length := by omega
  intro hr
  have e1 : expectTag 2 (2 :: UInt8.ofNat body.length :: (body ++ rest)) = .ok () := by
    simp [expectTag]
  have hidx : pyIndex (UInt8.ofNat body.length :: (body ++ rest)) 0
      = .ok (UInt8.ofNat body.length) := by simp [pyIndex]
  simp only [removeInteger, e1, cutBody, readLength, Bind.bind, Except.bind,
    List.drop_succ_cons, List.drop_zero, hidx, UInt8.toNat_ofNat',
    Pure.pure, Except.pure] at hr
  rw [show (2:Nat) ^ 8 = 256 from rfl, hm, if_neg (by rw [h3.1]; omega), h3.2] at hr
  have hng : ¬ (((body.length % 128 : Nat) : Int) >
      ((UInt8.ofNat body.length :: (body ++ rest)).length : Int) - 1) := by
    simp; omega
  rw [if_neg hng] at hr
  rcases Nat.eq_zero_or_pos (body.length % 128) with hz | hz
  · rw [hz] at hr
    simp [hexlify, intOfHex] at hr
  · cases hl : intOfHex (hexlify (List.take (body.length % 128) (body ++ rest))) with
    | error e => rw [hl] at hr; cases hr
    | ok len =>
      rw [hl] at hr
      simp only at hr
      rw [show 1 + (1 + body.length % 128) + len = (body.length % 128 + len) + 1 + 1 by omega,
        show 1 + (1 + body.length % 128) = body.length % 128 + 1 + 1 by omega] at hr
      simp only [List.drop_succ_cons] at hr
      cases hnb : List.take len (List.drop (body.length % 128) (body ++ rest)) with
      | nil => rw [hnb] at hr; simp [pyIndex] at hr
      | cons c t =>
        rw [hnb] at hr
        simp only [pyIndex, List.getElem?_cons_zero, pyAssert] at hr
        by_cases hc : c.toNat < 128
        · have hs := stringToNumber_eq (c :: t) (by simp)
          simp only [stringToNumber] at hs
          simp only [hc, decide_true, if_true, hs, Except.ok.injEq, Prod.mk.injEq] at hr
          have hlt := bytesVal_lt_of_head (t := t) hc
          have hd := congrArg List.length hr.2
          have ht := congrArg List.length hnb
          simp only [List.length_drop, List.length_append, List.length_take, List.length_cons] at hd ht
          rw [hr.1] at hlt
          apply hval
          exact lt_of_lt_of_le hlt (Nat.pow_le_pow_right (by norm_num) (by omega))
        · simp [hc] at hr

/-! ### Base-128 numbers -/

theorem and_7f (n : Nat) : n &&& 0x7f = n % 128 := Nat.and_two_pow_sub_one_eq_mod n 7

theorem or_80 (n : Nat) : (n &&& 0x7f) ||| 0x80 = 128 + n % 128 := by
  rw [and_7f, Nat.or_comm, or_128 _ (Nat.mod_lt _ (by omega))]

/-- The base-128 digits of `n > 0`, all with the continuation bit. -/
theorem b128Loop_acc (fuel n : Nat) (acc : List Nat) :
    b128Loop fuel n acc = b128Loop fuel n [] ++ acc := by
  induction fuel generalizing n acc with
  | zero => simp [b128Loop]
  | succ f ih =>
    simp only [b128Loop]
    split
    · simp
    · rw [ih, ih _ [_]]; simp

theorem b128Loop_fuel (f : Nat) : ∀ (g n : Nat), n ≤ f → n ≤ g → b128Loop f n [] = b128Loop g n [] := by
  induction f with
  | zero => intro g n h1 h2; obtain rfl : n = 0 := by omega
            cases g <;> simp [b128Loop]
  | succ f ih =>
    intro g n h1 h2
    cases g with
    | zero => obtain rfl : n = 0 := by omega
              simp [b128Loop]
    | succ g =>
      simp only [b128Loop]
      split
      · rfl
      · have : n >>> 7 < n := by rw [Nat.shiftRight_eq_div_pow]; apply Nat.div_lt_self <;> omega
        rw [b128Loop_acc f, b128Loop_acc g, ih g _ (by omega) (by omega)]

/-- Continuation digits, most significant first: every one has bit 7 set. -/
theorem readNumberLoop_cont (ds : List Nat) (hd : ∀ d ∈ ds, d < 128) (tl : Bytes) (num k : Nat) :
    readNumberLoop (ds.map (fun d => UInt8.ofNat (128 + d)) ++ tl) num k =
      readNumberLoop tl (num * 128 ^ ds.length + beVal 128 ds) (k + ds.length) := by
  induction ds generalizing num k with
  | nil => simp [beVal]
  | cons d ds ih =>
    have h1 : d < 128 := hd d (by simp)
    have h2 := and_128 (128 + d) (by omega)
    have hm : (128 + d) % 256 = 128 + d := by omega
    simp only [List.map_cons, List.cons_append, readNumberLoop, UInt8.toNat_ofNat']
    rw [show (2:Nat) ^ 8 = 256 from rfl, hm, if_neg (by rw [h2.1]; omega), h2.2,
      ih (fun x hx => hd x (by simp [hx]))]
    have hm' : (128 + d) % 128 = d := by omega
    rw [hm', Nat.shiftLeft_eq]
    congr 1
    · simp only [List.length_cons, beVal]; ring
    · simp only [List.length_cons]; omega

theorem readNumberLoop_last (d : Nat) (hd : d < 128) (tl : Bytes) (num k : Nat) :
    readNumberLoop (UInt8.ofNat d :: tl) num k = .ok (num * 128 + d, k + 1) := by
  have h2 := and_128 d (by omega)
  have hm : d % 256 = d := by omega
  have hm' : d % 128 = d := by omega
  simp only [readNumberLoop, UInt8.toNat_ofNat']
  rw [show (2:Nat) ^ 8 = 256 from rfl, hm, if_pos (by rw [h2.1]; omega), h2.2, hm', Nat.shiftLeft_eq]

theorem b128Loop_eq (f n : Nat) (h : n ≤ f) :
    b128Loop f n [] = (digitsBE 128 n).map (128 + ·) := by
  induction n using Nat.strong_induction_on generalizing f with
  | _ n ih =>
    by_cases h0 : n = 0
    · subst h0
      rw [show digitsBE 128 0 = [] from rfl]
      cases f <;> simp [b128Loop]
    · cases f with
      | zero => omega
      | succ f =>
        have hlt : n / 128 < n := Nat.div_lt_self (by omega) (by omega)
        simp only [b128Loop, h0, if_false]
        rw [b128Loop_acc, Nat.shiftRight_eq_div_pow, ih (n / 128) hlt f (by omega), or_80,
          digitsBE_step 128 n (by omega) h0]
        simp

theorem clearLast_append (l : List Nat) (d : Nat) : clearLast (l ++ [d]) = l ++ [d &&& 0x7f] := by
  induction l with
  | nil => rfl
  | cons a l ih =>
    cases l with
    | nil => rfl
    | cons b l => simp only [List.cons_append] at ih ⊢; simp only [clearLast, ih]

theorem encodeNumber_eq (n : Nat) :
    encodeNumber n = (digitsBE 128 (n / 128)).map (fun d => UInt8.ofNat (128 + d))
      ++ [UInt8.ofNat (n % 128)] := by
  unfold encodeNumber
  by_cases h0 : n = 0
  · subst h0; rfl
  · simp only [b128Loop_eq n n le_rfl]
    rw [digitsBE_step 128 n (by omega) h0]
    simp only [List.map_append, List.map_cons, List.map_nil]
    rw [if_neg (by simp), clearLast_append, List.map_append, and_7f]
    simp only [List.map_map, List.map_cons, List.map_nil, Nat.add_mod_left, Nat.mod_mod]
    rfl

theorem readNumber_encodeNumber (n : Nat) (rest : Bytes) :
    readNumber (encodeNumber n ++ rest) = .ok (n, (encodeNumber n).length) := by
  rw [readNumber, encodeNumber_eq, List.append_assoc,
    readNumberLoop_cont _ (digitsBE_lt 128 _ (by omega)), List.singleton_append,
    readNumberLoop_last _ (Nat.mod_lt _ (by omega)), beVal_digitsBE 128 _ (by omega)]
  simp; omega

theorem encodeNumber_ne_nil (n : Nat) : encodeNumber n ≠ [] := by rw [encodeNumber_eq]; simp

theorem readNumbers_flatMap (ns : List Nat) (fuel : Nat)
    (h : (ns.flatMap encodeNumber).length ≤ fuel) :
    readNumbers fuel (ns.flatMap encodeNumber) = .ok ns := by
  induction ns generalizing fuel with
  | nil => cases fuel <;> simp [readNumbers]
  | cons n ns ih =>
    have hne := encodeNumber_ne_nil n
    have hpos : 0 < (encodeNumber n).length := List.length_pos_of_ne_nil hne
    rw [List.flatMap_cons] at h ⊢
    rw [List.length_append] at h
    cases fuel with
    | zero => omega
    | succ f =>
      have he : (encodeNumber n ++ List.flatMap encodeNumber ns).isEmpty = false := by
        simp [hne]
      simp only [readNumbers, he, readNumber_encodeNumber, Bind.bind, Except.bind, Pure.pure,
        Except.pure, List.drop_left, ih f (by omega)]
      simp

/-- One byte below 128 is its own base-128 encoding. -/
theorem encodeNumber_small {n : Nat} (h : n < 128) : encodeNumber n = [UInt8.ofNat n] := by
  rw [encodeNumber_eq, show n / 128 = 0 by omega, Nat.mod_eq_of_lt h]; rfl

theorem encodeOid_eq {first second : Nat} {pieces : List Nat} (h1 : first ≤ 2) (h2 : second ≤ 39)
    (h : (((40 * first + second) :: pieces).flatMap encodeNumber).length < 256 ^ 127) :
    encodeOid first second pieces =
      .ok (tlv 6 (((40 * first + second) :: pieces).flatMap encodeNumber)) := by
  rw [List.flatMap_cons, encodeNumber_small (by omega)] at h ⊢
  simp only [encodeOid, pyAssert, h1, h2, decide_true, if_true, Bind.bind, Except.bind, Pure.pure,
    Except.pure, int2byte_ok (show 40 * first + second < 256 by omega), encodeLength_eq h]
  rfl

theorem removeObject_tlv (n0 : Nat) (ns : List Nat) (rest : Bytes)
    (h : ((n0 :: ns).flatMap encodeNumber).length < 256 ^ 127) :
    removeObject (tlv 6 ((n0 :: ns).flatMap encodeNumber) ++ rest) =
      .ok (n0 / 40 :: (n0 - 40 * (n0 / 40)) :: ns, rest) := by
  simp only [removeObject, expectTag_tlv, cutBody_tlv _ _ _ h, Bind.bind, Except.bind,
    readNumbers_flatMap (n0 :: ns) _ le_rfl]
  rfl

theorem sig_roundtrip (r s : Nat) (hr : r < 2 ^ 1015) (hs : s < 2 ^ 1015) :
    ∃ sig, sigencodeDer r s = .ok sig ∧ sigdecodeDer sig = .ok (r, s) ∧
      ∀ junk, eccSigdecodeDer (sig ++ junk) = .ok (r, s) := by
  have lr := (intBody_length_le r 127 (by omega)).2 hr
  have ls := (intBody_length_le s 127 (by omega)).2 hs
  have er := encodeInteger_eq hr
  have es := encodeInteger_eq hs
  clear hr hs
  have big : 1000 < 256 ^ 127 := by decide +kernel
  have hlen : ([tlv 2 (intBody r), tlv 2 (intBody s)].flatten).length < 256 ^ 127 := by
    refine lt_trans ?_ big
    have h1 : (intBody r).length < 128 := by omega
    have h2 : (intBody s).length < 128 := by omega
    simp [tlv, lenBytes, h1, h2]; omega
  have lr' : (intBody r).length < 256 ^ 127 := lt_of_le_of_lt lr (lt_trans (by omega) big)
  have ls' : (intBody s).length < 256 ^ 127 := lt_of_le_of_lt ls (lt_trans (by omega) big)
  have henc := encodeSequence_eq hlen
  have hf : [tlv 2 (intBody r), tlv 2 (intBody s)].flatten
      = tlv 2 (intBody r) ++ tlv 2 (intBody s) := by simp
  rw [hf] at hlen henc
  refine ⟨tlv 0x30 (tlv 2 (intBody r) ++ tlv 2 (intBody s)), ?_, ?_, ?_⟩
  · simp only [sigencodeDer, er, es, Bind.bind, Except.bind]
    exact henc
  · have h0 := removeSequence_tlv _ [] hlen
    rw [List.append_nil] at h0
    have h1 := removeInteger_tlv r (tlv 2 (intBody s)) lr'
    have h2 := removeInteger_tlv s [] ls'
    rw [List.append_nil] at h2
    simp only [sigdecodeDer, h0, Bind.bind, Except.bind, ne_eq, not_true, if_false, h1, h2]
    rfl
  · intro junk
    have h1 := eccRemoveInteger_tlv r (tlv 2 (intBody s)) lr'
    have h2 := eccRemoveInteger_tlv s [] ls'
    rw [List.append_nil] at h2
    simp only [eccSigdecodeDer, removeSequence_tlv _ junk hlen, Bind.bind, Except.bind, h1, h2]
    rfl

end NBC.Der
