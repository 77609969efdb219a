import Verif.Proofs.Digits

/-! # Lemmas on hexadecimal text and fixed-width byte strings -/

namespace NBC
open Spec

theorem bytesVal_append (s t : Bytes) :
    bytesVal (s ++ t) = bytesVal s * 256 ^ t.length + bytesVal t := by
  simp [bytesVal, beVal_append]

theorem bytesVal_cons (c : UInt8) (t : Bytes) :
    bytesVal (c :: t) = c.toNat * 256 ^ t.length + bytesVal t := by
  simp [bytesVal, beVal]

@[simp] theorem bytesVal_nil : bytesVal [] = 0 := rfl

theorem toNat_lt_256 (s : Bytes) : ∀ d ∈ s.map UInt8.toNat, d < 256 := by
  intro d hd
  obtain ⟨c, _, rfl⟩ := List.mem_map.1 hd
  exact c.toNat_lt

theorem bytesVal_lt (s : Bytes) : bytesVal s < 256 ^ s.length := by
  have := beVal_lt 256 (s.map UInt8.toNat) (toNat_lt_256 s)
  simpa [bytesVal] using this

theorem bytesVal_inj {s t : Bytes} (hl : s.length = t.length) (h : bytesVal s = bytesVal t) :
    s = t := by
  have := beVal_inj 256 (s.map UInt8.toNat) (t.map UInt8.toNat) (by simpa using hl)
    (toNat_lt_256 s) (toNat_lt_256 t) h
  exact List.map_injective_iff.2 (fun a b hab => UInt8.toNat_inj.1 hab) this

@[simp] theorem beBytes_length (l n : Nat) : (beBytes l n).length = l := by
  induction l with
  | zero => rfl
  | succ l ih => simp [beBytes, ih]

theorem bytesVal_beBytes (l n : Nat) : bytesVal (beBytes l n) = n % 256 ^ l := by
  induction l with
  | zero => simp [beBytes, Nat.mod_one]
  | succ l ih =>
    rw [beBytes, bytesVal_cons, ih, beBytes_length, UInt8.toNat_ofNat']
    rw [show 2 ^ 8 = 256 from rfl, pow_succ 256 l, Nat.mod_mul]
    ring

theorem bytesVal_beBytes_of_lt {l n : Nat} (h : n < 256 ^ l) : bytesVal (beBytes l n) = n := by
  rw [bytesVal_beBytes, Nat.mod_eq_of_lt h]

theorem beBytes_bytesVal (s : Bytes) : beBytes s.length (bytesVal s) = s := by
  apply bytesVal_inj (by simp)
  rw [bytesVal_beBytes_of_lt (bytesVal_lt s)]

theorem beBytes_bytesVal' {l : Nat} {s : Bytes} (h : s.length = l) : beBytes l (bytesVal s) = s := by
  subst h; exact beBytes_bytesVal s

theorem eq_beBytes {l n : Nat} {s : Bytes} (h : s.length = l) (hv : bytesVal s = n) :
    s = beBytes l n := by rw [← hv, beBytes_bytesVal' h]

/-! ## hexadecimal digits -/

theorem hexVal_hexDigit : ∀ d < 16, hexVal (hexDigit d) = some d := by decide

theorem unhexlify_odd : ∀ (s : Bytes), s.length % 2 = 1 → unhexlify s = .error .binasciiError
  | [], h => by simp at h
  | [_], _ => rfl
  | a :: b :: rest, h => by
    have := unhexlify_odd rest (by simp at h; omega)
    simp only [unhexlify, this]
    cases hexVal a <;> cases hexVal b <;> rfl

theorem unhexlify_map_hexDigit : ∀ (ds : List Nat), ds.length % 2 = 0 → (∀ d ∈ ds, d < 16) →
    unhexlify (ds.map hexDigit) = .ok (beBytes (ds.length / 2) (beVal 16 ds))
  | [], _, _ => rfl
  | [_], h, _ => by simp at h
  | a :: b :: rest, h, hd => by
    have ha := hd a (by simp)
    have hb := hd b (by simp)
    have hrest : ∀ d ∈ rest, d < 16 := fun d h => hd d (by simp [h])
    have ih := unhexlify_map_hexDigit rest (by simp at h; omega) hrest
    have hlen : (a :: b :: rest).length / 2 = rest.length / 2 + 1 := by
      simp only [List.length_cons]; omega
    simp only [List.map_cons, unhexlify, hexVal_hexDigit a ha, hexVal_hexDigit b hb, ih, hlen]
    have hev : rest.length = 2 * (rest.length / 2) := by simp at h; omega
    have hp : (16 : Nat) ^ rest.length = 256 ^ (rest.length / 2) := by
      conv_lhs => rw [hev, pow_mul]
      norm_num
    have hlt := beVal_lt 16 rest hrest
    refine congrArg _ (eq_beBytes (by simp) ?_)
    rw [bytesVal_cons, bytesVal_beBytes_of_lt (by rw [← hp]; exact hlt), beBytes_length,
      UInt8.toNat_ofNat_of_lt' (by simp only [UInt8.size]; omega), ← hp]
    simp only [beVal, List.length_cons, pow_succ]
    ring

theorem foldlM_hex (ds : List Nat) (hd : ∀ d ∈ ds, d < 16) (a : Nat) :
    (ds.map hexDigit).foldlM hexStep a = .ok (a * 16 ^ ds.length + beVal 16 ds) := by
  induction ds generalizing a with
  | nil => simp [beVal]; rfl
  | cons d ds ih =>
    have h1 := hexVal_hexDigit d (hd d (by simp))
    have h2 : hexStep a (hexDigit d) = .ok (16 * a + d) := by simp [hexStep, h1]
    rw [List.map_cons, List.foldlM_cons, h2]
    show List.foldlM hexStep (16 * a + d) (List.map hexDigit ds) = _
    rw [ih (fun x hx => hd x (by simp [hx]))]
    simp only [beVal, List.length_cons, pow_succ]
    congr 1; ring

theorem intOfHex_map_hexDigit (ds : List Nat) (hne : ds ≠ []) (hd : ∀ d ∈ ds, d < 16) :
    intOfHex (ds.map hexDigit) = .ok (beVal 16 ds) := by
  have := foldlM_hex ds hd 0
  cases ds with
  | nil => exact absurd rfl hne
  | cons d ds =>
    rw [intOfHex]
    · rw [this]; simp
    · simp

/-- The two nibbles of each byte. -/
def nibbles (s : Bytes) : List Nat := s.flatMap fun c => [c.toNat / 16, c.toNat % 16]

theorem hexlify_eq (s : Bytes) : hexlify s = (nibbles s).map hexDigit := by
  simp [hexlify, nibbles, List.map_flatMap]

theorem nibbles_lt (s : Bytes) : ∀ d ∈ nibbles s, d < 16 := by
  intro d hd
  obtain ⟨c, _, hc⟩ := List.mem_flatMap.1 hd
  have := c.toNat_lt
  simp at hc; omega

@[simp] theorem nibbles_length (s : Bytes) : (nibbles s).length = 2 * s.length := by
  induction s with
  | nil => rfl
  | cons c s ih =>
    have : nibbles (c :: s) = c.toNat / 16 :: c.toNat % 16 :: nibbles s := rfl
    rw [this]; simp [ih]; omega

theorem beVal_nibbles (s : Bytes) : beVal 16 (nibbles s) = bytesVal s := by
  induction s with
  | nil => rfl
  | cons c s ih =>
    have : nibbles (c :: s) = c.toNat / 16 :: c.toNat % 16 :: nibbles s := rfl
    rw [this, bytesVal_cons]
    simp only [beVal, ih, List.length_cons, nibbles_length]
    rw [pow_succ, pow_mul]
    norm_num
    have h := Nat.div_add_mod c.toNat 16
    generalize 256 ^ s.length = q at *
    rw [← Nat.add_assoc]
    conv_rhs => rw [← h]
    ring

theorem stringToNumber_eq (s : Bytes) (h : s ≠ []) : stringToNumber s = .ok (bytesVal s) := by
  rw [stringToNumber, hexlify_eq, intOfHex_map_hexDigit _ _ (nibbles_lt s), beVal_nibbles]
  intro h0
  have := nibbles_length s
  rw [h0] at this
  apply h
  exact List.length_eq_zero_iff.1 (by simp at this; simp [this])

theorem stringToNumber_nil : stringToNumber [] = .error .valueError := rfl

theorem unhexlify_hexlify (s : Bytes) : unhexlify (hexlify s) = .ok s := by
  rw [hexlify_eq, unhexlify_map_hexDigit _ (by simp) (nibbles_lt s), beVal_nibbles]
  simp [beBytes_bytesVal]

/-- Digits of `"%x" % n`. -/
def hexDigits (n : Nat) : List Nat := if n = 0 then [0] else digitsBE 16 n

theorem fmtHexNat_eq (n : Nat) : fmtHexNat n = (hexDigits n).map hexDigit := by
  unfold fmtHexNat hexDigits; split <;> rfl

theorem hexDigits_lt (n : Nat) : ∀ d ∈ hexDigits n, d < 16 := by
  unfold hexDigits; split
  · simp
  · exact digitsBE_lt 16 n (by omega)

theorem beVal_hexDigits (n : Nat) : beVal 16 (hexDigits n) = n := by
  unfold hexDigits; split
  · simp [beVal, *]
  · exact beVal_digitsBE 16 n (by omega)

theorem hexDigits_length_pos (n : Nat) : 0 < (hexDigits n).length := by
  unfold hexDigits; split
  · simp
  · rename_i h
    by_contra h0
    have := (digitsBE_length_le_iff 16 n 0 (by omega)).1 (by omega)
    simp at this; omega

theorem hexDigits_length_le_iff (n k : Nat) (hk : 0 < k) :
    (hexDigits n).length ≤ k ↔ n < 16 ^ k := by
  unfold hexDigits; split
  · rename_i h; subst h
    simp; omega
  · exact digitsBE_length_le_iff 16 n k (by omega)

theorem fmtHexNat_length (n : Nat) : (fmtHexNat n).length = (hexDigits n).length := by
  simp [fmtHexNat_eq]

theorem orderlen_pos (order : Nat) : 0 < orderlen order := by
  have := hexDigits_length_pos order
  rw [orderlen, fmtHexNat_length]; omega

theorem lt_256_pow_orderlen (order : Nat) : order < 256 ^ orderlen order := by
  have h := (hexDigits_length_le_iff order (2 * orderlen order)
    (by have := orderlen_pos order; omega)).1 (by rw [orderlen, fmtHexNat_length]; omega)
  rw [pow_mul] at h
  simpa using h

theorem hexDigit_zero : hexDigit 0 = 48 := rfl

/-- `unhexlify ("%0<2l>x" % n)` when `n` fits. -/
theorem unhexlify_fmtHexPad {l : Nat} (hl : 0 < l) {n : Nat} (h : n < 256 ^ l) :
    unhexlify (fmtHexPad (2 * l) n) = .ok (beBytes l n) := by
  have hlen : (hexDigits n).length ≤ 2 * l :=
    (hexDigits_length_le_iff n _ (by omega)).2 (by rw [pow_mul]; simpa using h)
  have e : fmtHexPad (2 * l) (n : Int) =
      (List.replicate (2 * l - (hexDigits n).length) 0 ++ hexDigits n).map hexDigit := by
    simp [fmtHexPad, fmtHexNat_eq, hexDigit_zero]
  rw [e, unhexlify_map_hexDigit]
  · simp only [List.length_append, List.length_replicate, beVal_replicate_zero, beVal_hexDigits]
    congr 2; omega
  · simp; omega
  · intro d hd
    rcases List.mem_append.1 hd with hd | hd
    · rw [List.eq_of_mem_replicate hd]; omega
    · exact hexDigits_lt n d hd

theorem numberToString_eq {n : Nat} {order : Nat} (h : n < 256 ^ orderlen order) :
    numberToString n order = .ok (beBytes (orderlen order) n) := by
  simp only [numberToString, unhexlify_fmtHexPad (orderlen_pos order) h]
  simp [pyAssert, Bind.bind, Except.bind, Pure.pure, Except.pure]

theorem numberToString_neg {n : Int} (hn : n < 0) (order : Nat) :
    numberToString n order = .error .binasciiError := by
  have : ∃ c t, fmtHexPad (2 * orderlen order) n = 45 :: c :: t := by
    simp only [fmtHexPad, hn, if_true]
    have hp := hexDigits_length_pos n.natAbs
    rw [← fmtHexNat_length] at hp
    cases hh : List.replicate (2 * orderlen order - 1 - (fmtHexNat n.natAbs).length) (48 : UInt8)
        ++ fmtHexNat n.natAbs with
    | nil =>
      have := congrArg List.length hh
      simp at this
      simp [this.2] at hp
    | cons c t => exact ⟨c, t, rfl⟩
  obtain ⟨c, t, ht⟩ := this
  have h2 : unhexlify (45 :: c :: t) = .error .binasciiError := by
    have : hexVal 45 = none := by decide
    simp [unhexlify, this]
  simp [numberToString, ht, h2, Bind.bind, Except.bind]

theorem numberToString_big {n : Nat} {order : Nat} (h : 256 ^ orderlen order ≤ n) :
    ∃ e, numberToString n order = .error e := by
  have hlen : ¬ (hexDigits n).length ≤ 2 * orderlen order := fun hc => by
    have := (hexDigits_length_le_iff n _ (by have := orderlen_pos order; omega)).1 hc
    rw [pow_mul] at this
    norm_num at this; omega
  have e : fmtHexPad (2 * orderlen order) (n : Int) = (hexDigits n).map hexDigit := by
    simp only [fmtHexPad, Int.natAbs_natCast, fmtHexNat_eq, List.length_map]
    rw [if_neg (by omega), Nat.sub_eq_zero_of_le (by omega)]; simp
  simp only [numberToString, e]
  rcases Nat.mod_two_eq_zero_or_one (hexDigits n).length with h2 | h2
  · rw [unhexlify_map_hexDigit _ h2 (hexDigits_lt n)]
    refine ⟨.assertionError, ?_⟩
    have : (beBytes ((hexDigits n).length / 2) (beVal 16 (hexDigits n))).length ≠ orderlen order := by
      simp; omega
    simp [Bind.bind, Except.bind, pyAssert, -beBytes_length, this]
  · rw [unhexlify_odd _ (by simpa using h2)]
    exact ⟨_, rfl⟩

end NBC
