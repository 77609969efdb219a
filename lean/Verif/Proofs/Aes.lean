import Verif.Proofs.AesTables
import Verif.Proofs.PyBind

/-!
# The model of `pyaes` refines FIPS-197
-/

namespace NBC.Aes

open NBC.Spec.Aes

/-! ### Python integers and bytes -/

theorem testBit_byteAt (x : Int) (k i : Nat) :
    (byteAt x k).testBit i = (decide (i < 8) && x.testBit (k + i)) := by
  have h256 : (256 : Nat) = 2 ^ 8 := by decide
  unfold byteAt
  cases x with
  | ofNat m =>
    have : ((Int.ofNat m >>> k) % 256).toNat = (m >>> k) % 256 := by
      show (((m >>> k : Nat) : Int) % 256).toNat = _
      omega
    rw [this, h256, Nat.testBit_mod_two_pow, Nat.testBit_shiftRight]
    rfl
  | negSucc m =>
    have : ((Int.negSucc m >>> k) % 256).toNat = 2 ^ 8 - ((m >>> k) % 256 + 1) := by
      show ((Int.negSucc (m >>> k)) % 256).toNat = _
      omega
    rw [this, Nat.testBit_two_pow_sub_succ (by omega), h256, Nat.testBit_mod_two_pow,
      Nat.testBit_shiftRight]
    show _ = (decide (i < 8) && !(m.testBit (k + i)))
    by_cases h : i < 8 <;> simp [h]

theorem toNat_byteU (x : Int) (k : Nat) : (byteU x k).toNat = byteAt x k :=
  ofNat_toNat_lt (byteAt_lt x k)

theorem byteU_xor (a b : Int) (k : Nat) : byteU (Int.xor a b) k = byteU a k ^^^ byteU b k := by
  apply UInt8.toNat_inj.1
  rw [UInt8.toNat_xor, toNat_byteU, toNat_byteU, toNat_byteU]
  apply Nat.eq_of_testBit_eq
  intro i
  rw [Nat.testBit_xor, testBit_byteAt, testBit_byteAt, testBit_byteAt, Int.testBit_lxor]
  by_cases h : i < 8 <;> simp [h]

theorem toWord_xor (a b : Int) : toWord (Int.xor a b) = (toWord a).xor (toWord b) := by
  simp [toWord, Word.xor, byteU_xor]

theorem byteAt_shift (x : Int) (k : Nat) : byteAt (x >>> k) 0 = byteAt x k := by
  simp [byteAt]

theorem maskByte_eq (x : Int) : maskByte x = byteU x 0 := rfl

/-! ### Lookups, for every index the code can compute -/

theorem S_eq (x : Int) (k : Nat) : UInt8.ofNat (look tableS (byteAt x k)) = sbox (byteU x k) := by
  rw [sbox_tab _ (byteAt_lt x k), UInt8.ofNat_toNat]; rfl

theorem Si_eq (x : Int) (k : Nat) :
    UInt8.ofNat (look tableSi (byteAt x k)) = invSbox (byteU x k) := by
  rw [invSbox_tab _ (byteAt_lt x k), UInt8.ofNat_toNat]; rfl

theorem byteU_natCast {n : Nat} (h : n < 256) : byteU (n : Int) 0 = UInt8.ofNat n := by
  have := (shift_tab n h).2.2.2
  exact congrArg Word.b3 this

theorem invSbox_sbox (b : UInt8) : invSbox (sbox b) = b := by
  refine forall_byte (P := fun b => invSbox (sbox b) = b) (fun n hn => ?_) b
  have h1 := sbox_tab n hn
  have h2 := si_s_tab n hn
  have h3 := invSbox_tab (look tableS n) (s_lt_tab n hn).1
  rw [h2.1, h1, UInt8.ofNat_toNat] at h3
  show invSbox (sbox (UInt8.ofNat n)) = UInt8.ofNat n
  apply UInt8.toNat_inj.1
  rw [← h3, ofNat_toNat_lt hn]

theorem sbox_invSbox (b : UInt8) : sbox (invSbox b) = b := by
  refine forall_byte (P := fun b => sbox (invSbox b) = b) (fun n hn => ?_) b
  have h1 := invSbox_tab n hn
  have h2 := si_s_tab n hn
  have h3 := sbox_tab (look tableSi n) (s_lt_tab n hn).2
  rw [h2.2, h1, UInt8.ofNat_toNat] at h3
  apply UInt8.toNat_inj.1
  rw [← h3, ofNat_toNat_lt hn]

/-! ### GF(2^8) is linear over exclusive or -/

theorem xor_self_cancel (a : UInt8) : a ^^^ a = 0 := UInt8.xor_self

theorem xtime_xor (a b : UInt8) : xtime (a ^^^ b) = xtime a ^^^ xtime b := by
  unfold xtime
  have hs : (a ^^^ b) <<< 1 = (a <<< 1) ^^^ (b <<< 1) := by
    apply UInt8.toBitVec_inj.1
    simp [BitVec.shiftLeft_xor_distrib]
  rw [hs, UInt8.toNat_xor, Nat.testBit_xor]
  have h3 : ∀ x y c : UInt8, x ^^^ c ^^^ (y ^^^ c) = x ^^^ y := by
    intro x y c
    have : x ^^^ c ^^^ (y ^^^ c) = (x ^^^ y) ^^^ (c ^^^ c) := by ac_rfl
    rw [this, UInt8.xor_self, UInt8.xor_zero]
  cases a.toNat.testBit 7 <;> cases b.toNat.testBit 7 <;> simp [h3] <;> ac_rfl

theorem xtimes_xor (n : Nat) (a b : UInt8) : xtimes n (a ^^^ b) = xtimes n a ^^^ xtimes n b := by
  induction n with
  | zero => rfl
  | succ n ih => simp only [xtimes, ih, xtime_xor]

theorem gmul_xor (a b c : UInt8) : gmul (a ^^^ b) c = gmul a c ^^^ gmul b c := by
  unfold gmul
  generalize 8 = n
  induction n with
  | zero => simp [gmulLoop]
  | succ n ih =>
    simp only [gmulLoop, ih]
    by_cases h : c.toNat.testBit n
    · simp only [h, if_true, xtimes_xor]; ac_rfl
    · simp only [h]; simp

theorem word_xor_assoc (a b c : Word) : (a.xor b).xor c = a.xor (b.xor c) := by
  simp [Word.xor, UInt8.xor_assoc]

theorem word_xor_comm (a b : Word) : a.xor b = b.xor a := by
  simp [Word.xor, UInt8.xor_comm]

theorem word_xor_cancel (a b : Word) : (a.xor b).xor b = a := by
  simp [Word.xor, UInt8.xor_assoc]

theorem invMixColumn_xor (a b : Word) :
    invMixColumn (a.xor b) = (invMixColumn a).xor (invMixColumn b) := by
  ext : 1 <;> simp only [invMixColumn, Word.xor, gmul_xor] <;> ac_rfl

/-- The products of the coefficients of the two matrices, on every byte. -/
theorem gmul_tab : ∀ n < 256,
    (gmul (gmul (UInt8.ofNat n) 2) 0x0e ^^^ gmul (UInt8.ofNat n) 0x0b ^^^ gmul (UInt8.ofNat n) 0x0d
      ^^^ gmul (gmul (UInt8.ofNat n) 3) 0x09 = UInt8.ofNat n) ∧
    (gmul (gmul (UInt8.ofNat n) 3) 0x0e ^^^ gmul (gmul (UInt8.ofNat n) 2) 0x0b ^^^
      gmul (UInt8.ofNat n) 0x0d ^^^ gmul (UInt8.ofNat n) 0x09 = 0) ∧
    (gmul (UInt8.ofNat n) 0x0e ^^^ gmul (gmul (UInt8.ofNat n) 3) 0x0b ^^^
      gmul (gmul (UInt8.ofNat n) 2) 0x0d ^^^ gmul (UInt8.ofNat n) 0x09 = 0) ∧
    (gmul (UInt8.ofNat n) 0x0e ^^^ gmul (UInt8.ofNat n) 0x0b ^^^
      gmul (gmul (UInt8.ofNat n) 3) 0x0d ^^^ gmul (gmul (UInt8.ofNat n) 2) 0x09 = 0) := by
  decide +kernel

/-- The products in the other order. -/
theorem gmul_tab' : ∀ n < 256,
    (gmul (gmul (UInt8.ofNat n) 0x0e) 2 ^^^ gmul (gmul (UInt8.ofNat n) 0x09) 3 ^^^
      gmul (UInt8.ofNat n) 0x0d ^^^ gmul (UInt8.ofNat n) 0x0b = UInt8.ofNat n) ∧
    (gmul (gmul (UInt8.ofNat n) 0x0b) 2 ^^^ gmul (gmul (UInt8.ofNat n) 0x0e) 3 ^^^
      gmul (UInt8.ofNat n) 0x09 ^^^ gmul (UInt8.ofNat n) 0x0d = 0) ∧
    (gmul (gmul (UInt8.ofNat n) 0x0d) 2 ^^^ gmul (gmul (UInt8.ofNat n) 0x0b) 3 ^^^
      gmul (UInt8.ofNat n) 0x0e ^^^ gmul (UInt8.ofNat n) 0x09 = 0) ∧
    (gmul (gmul (UInt8.ofNat n) 0x09) 2 ^^^ gmul (gmul (UInt8.ofNat n) 0x0d) 3 ^^^
      gmul (UInt8.ofNat n) 0x0b ^^^ gmul (UInt8.ofNat n) 0x0e = 0) := by
  decide +kernel

theorem xor4 {p q r s a : UInt8} (hp : p = a) (hq : q = 0) (hr : r = 0) (hs : s = 0) :
    p ^^^ q ^^^ r ^^^ s = a := by
  subst hp hq hr hs; simp

theorem invMix_mix (w : Word) : invMixColumn (mixColumn w) = w := by
  have key := fun b => forall_byte (P := fun b =>
    (gmul (gmul b 2) 0x0e ^^^ gmul b 0x0b ^^^ gmul b 0x0d ^^^ gmul (gmul b 3) 0x09 = b) ∧
    (gmul (gmul b 3) 0x0e ^^^ gmul (gmul b 2) 0x0b ^^^ gmul b 0x0d ^^^ gmul b 0x09 = 0) ∧
    (gmul b 0x0e ^^^ gmul (gmul b 3) 0x0b ^^^ gmul (gmul b 2) 0x0d ^^^ gmul b 0x09 = 0) ∧
    (gmul b 0x0e ^^^ gmul b 0x0b ^^^ gmul (gmul b 3) 0x0d ^^^ gmul (gmul b 2) 0x09 = 0)) gmul_tab b
  obtain ⟨a, b, c, d⟩ := w
  obtain ⟨a1, a2, a3, a4⟩ := key a
  obtain ⟨b1, b2, b3, b4⟩ := key b
  obtain ⟨c1, c2, c3, c4⟩ := key c
  obtain ⟨d1, d2, d3, d4⟩ := key d
  ext : 1 <;> simp only [invMixColumn, mixColumn, gmul_xor]
  · refine Eq.trans ?_ (xor4 a1 b2 c3 d4); ac_rfl
  · refine Eq.trans ?_ (xor4 b1 c2 d3 a4); ac_rfl
  · refine Eq.trans ?_ (xor4 c1 d2 a3 b4); ac_rfl
  · refine Eq.trans ?_ (xor4 d1 a2 b3 c4); ac_rfl

theorem mix_invMix (w : Word) : mixColumn (invMixColumn w) = w := by
  have key := fun b => forall_byte (P := fun b =>
    (gmul (gmul b 0x0e) 2 ^^^ gmul (gmul b 0x09) 3 ^^^ gmul b 0x0d ^^^ gmul b 0x0b = b) ∧
    (gmul (gmul b 0x0b) 2 ^^^ gmul (gmul b 0x0e) 3 ^^^ gmul b 0x09 ^^^ gmul b 0x0d = 0) ∧
    (gmul (gmul b 0x0d) 2 ^^^ gmul (gmul b 0x0b) 3 ^^^ gmul b 0x0e ^^^ gmul b 0x09 = 0) ∧
    (gmul (gmul b 0x09) 2 ^^^ gmul (gmul b 0x0d) 3 ^^^ gmul b 0x0b ^^^ gmul b 0x0e = 0)) gmul_tab' b
  obtain ⟨a, b, c, d⟩ := w
  obtain ⟨a1, a2, a3, a4⟩ := key a
  obtain ⟨b1, b2, b3, b4⟩ := key b
  obtain ⟨c1, c2, c3, c4⟩ := key c
  obtain ⟨d1, d2, d3, d4⟩ := key d
  ext : 1 <;> simp only [invMixColumn, mixColumn, gmul_xor]
  · refine Eq.trans ?_ (xor4 a1 b2 c3 d4); ac_rfl
  · refine Eq.trans ?_ (xor4 b1 c2 d3 a4); ac_rfl
  · refine Eq.trans ?_ (xor4 c1 d2 a3 b4); ac_rfl
  · refine Eq.trans ?_ (xor4 d1 a2 b3 c4); ac_rfl

/-! ### `InvCipher` inverts `Cipher` -/

theorem invMixColumns_mixColumns (s : State) : invMixColumns (mixColumns s) = s := by
  simp [invMixColumns, mixColumns, State.map, invMix_mix]

theorem mixColumns_invMixColumns (s : State) : mixColumns (invMixColumns s) = s := by
  simp [invMixColumns, mixColumns, State.map, mix_invMix]

theorem invSubBytes_subBytes (s : State) : invSubBytes (subBytes s) = s := by
  simp [invSubBytes, subBytes, State.map, Word.map, invSbox_sbox]

theorem subBytes_invSubBytes (s : State) : subBytes (invSubBytes s) = s := by
  simp [invSubBytes, subBytes, State.map, Word.map, sbox_invSbox]

theorem invShiftRows_shiftRows (s : State) : invShiftRows (shiftRows s) = s := rfl

theorem shiftRows_invShiftRows (s : State) : shiftRows (invShiftRows s) = s := rfl

theorem addRoundKey_addRoundKey (w : List Word) (r : Nat) (s : State) :
    addRoundKey w r (addRoundKey w r s) = s := by
  simp [addRoundKey, word_xor_cancel]

theorem invRounds_rounds (w : List Word) (s : State) (n : Nat) :
    invSubBytes (invShiftRows (invRounds w n (shiftRows (subBytes (rounds w s n))))) = s := by
  induction n with
  | zero => simp [invRounds, rounds, invShiftRows_shiftRows, invSubBytes_subBytes]
  | succ n ih =>
    rw [invRounds, invShiftRows_shiftRows, invSubBytes_subBytes, rounds, addRoundKey_addRoundKey,
      invMixColumns_mixColumns]
    exact ih

theorem invCipher_cipher (w : List Word) (nr : Nat) (s : State) :
    invCipher w nr (cipher w nr s) = s := by
  rw [invCipher, cipher, addRoundKey_addRoundKey, invRounds_rounds, addRoundKey_addRoundKey]

theorem rounds_invRounds (w : List Word) (n : Nat) (s : State) :
    shiftRows (subBytes (rounds w (invSubBytes (invShiftRows (invRounds w n s))) n)) = s := by
  induction n generalizing s with
  | zero => simp [invRounds, rounds, shiftRows_invShiftRows, subBytes_invSubBytes]
  | succ n ih =>
    rw [invRounds, rounds, ih, mixColumns_invMixColumns, addRoundKey_addRoundKey,
      subBytes_invSubBytes, shiftRows_invShiftRows]

theorem cipher_invCipher (w : List Word) (nr : Nat) (s : State) :
    cipher w nr (invCipher w nr s) = s := by
  rw [invCipher, cipher, addRoundKey_addRoundKey, rounds_invRounds, addRoundKey_addRoundKey]

/-! ### The rounds of the model -/

/-- The state held by the four integers of the model. -/
def stOf (t : List Int) : State :=
  ⟨toWord (t.getD 0 0), toWord (t.getD 1 0), toWord (t.getD 2 0), toWord (t.getD 3 0)⟩

/-- The round key `r` of the model's key arrays. -/
def keyOf (K : List (List Int)) (r : Nat) : State :=
  ⟨toWord (getRC K r 0), toWord (getRC K r 1), toWord (getRC K r 2), toWord (getRC K r 3)⟩

/-- Columnwise exclusive or. -/
def _root_.NBC.Spec.Aes.State.xor (a b : State) : State :=
  ⟨a.c0.xor b.c0, a.c1.xor b.c1, a.c2.xor b.c2, a.c3.xor b.c3⟩

/-- The round key `r` of the schedule. -/
def rk (w : List Word) (r : Nat) : State :=
  let z : Word := ⟨0, 0, 0, 0⟩
  ⟨w.getD (4 * r) z, w.getD (4 * r + 1) z, w.getD (4 * r + 2) z, w.getD (4 * r + 3) z⟩

theorem addRoundKey_eq (w : List Word) (r : Nat) (s : State) : addRoundKey w r s = s.xor (rk w r) :=
  rfl

theorem encWord (x0 x1 x2 x3 k : Int) :
    toWord (Int.xor (Int.xor (Int.xor (Int.xor
      (look tableT1 (byteAt x0 24) : Int) (look tableT2 (byteAt x1 16) : Int))
      (look tableT3 (byteAt x2 8) : Int)) (look tableT4 (byteAt x3 0) : Int)) k) =
    (mixColumn ⟨sbox (byteU x0 24), sbox (byteU x1 16), sbox (byteU x2 8), sbox (byteU x3 0)⟩).xor
      (toWord k) := by
  simp only [toWord_xor]
  rw [t1_tab _ (byteAt_lt _ _), t2_tab _ (byteAt_lt _ _), t3_tab _ (byteAt_lt _ _),
    t4_tab _ (byteAt_lt _ _)]
  simp only [S_eq]
  rfl

theorem decWord (x0 x1 x2 x3 k : Int) :
    toWord (Int.xor (Int.xor (Int.xor (Int.xor
      (look tableT5 (byteAt x0 24) : Int) (look tableT6 (byteAt x1 16) : Int))
      (look tableT7 (byteAt x2 8) : Int)) (look tableT8 (byteAt x3 0) : Int)) k) =
    (invMixColumn ⟨invSbox (byteU x0 24), invSbox (byteU x1 16), invSbox (byteU x2 8),
      invSbox (byteU x3 0)⟩).xor (toWord k) := by
  simp only [toWord_xor]
  rw [t5_tab _ (byteAt_lt _ _), t6_tab _ (byteAt_lt _ _), t7_tab _ (byteAt_lt _ _),
    t8_tab _ (byteAt_lt _ _)]
  simp only [Si_eq]
  rfl

theorem uWord_eq (x : Int) : toWord (uWord x) = invMixColumn (toWord x) := by
  unfold uWord
  simp only [toWord_xor]
  rw [u1_tab _ (byteAt_lt _ _), u2_tab _ (byteAt_lt _ _), u3_tab _ (byteAt_lt _ _),
    u4_tab _ (byteAt_lt _ _)]
  rfl

theorem tableRound_enc (K : List (List Int)) (r : Nat) (t : List Int) :
    stOf (tableRound tableT1 tableT2 tableT3 tableT4 1 2 3 K r t) =
      (mixColumns (shiftRows (subBytes (stOf t)))).xor (keyOf K r) := by
  have e : List.range 4 = [0, 1, 2, 3] := by decide
  unfold tableRound
  rw [e]
  simp only [stOf, List.map_cons, List.map_nil, List.getD_cons_zero, List.getD_cons_succ, encWord]
  rfl

theorem tableRound_dec (K : List (List Int)) (r : Nat) (t : List Int) :
    stOf (tableRound tableT5 tableT6 tableT7 tableT8 3 2 1 K r t) =
      (invMixColumns (invSubBytes (invShiftRows (stOf t)))).xor (keyOf K r) := by
  have e : List.range 4 = [0, 1, 2, 3] := by decide
  unfold tableRound
  rw [e]
  simp only [stOf, List.map_cons, List.map_nil, List.getD_cons_zero, List.getD_cons_succ, decWord]
  rfl

theorem byteU_shift (x : Int) (k : Nat) : byteU (x >>> k) 0 = byteU x k := by
  unfold byteU
  rw [byteAt_shift]

theorem lastByte0 (T : List Nat) (hT : ∀ n < 256, look T n < 256) (x : Int) (k : Nat) (tt : Int) :
    maskByte (Int.xor (look T (byteAt x k) : Int) tt) =
      UInt8.ofNat (look T (byteAt x k)) ^^^ byteU tt 0 := by
  rw [maskByte_eq, byteU_xor, byteU_natCast (hT _ (byteAt_lt x k))]

theorem lastRound_enc (K : List (List Int)) (r : Nat) (t : List Int) :
    lastRound tableS 1 2 3 K r t =
      ofState ((shiftRows (subBytes (stOf t))).xor (keyOf K r)) := by
  have e : List.range 4 = [0, 1, 2, 3] := by decide
  have hT : ∀ n < 256, look tableS n < 256 := fun n h => (s_lt_tab n h).1
  unfold lastRound
  rw [e]
  simp only [List.flatMap_cons, List.flatMap_nil, lastByte0 _ hT, S_eq, byteU_shift]
  rfl

theorem lastRound_dec (K : List (List Int)) (r : Nat) (t : List Int) :
    lastRound tableSi 3 2 1 K r t =
      ofState ((invSubBytes (invShiftRows (stOf t))).xor (keyOf K r)) := by
  have e : List.range 4 = [0, 1, 2, 3] := by decide
  have hT : ∀ n < 256, look tableSi n < 256 := fun n h => (s_lt_tab n h).2
  unfold lastRound
  rw [e]
  simp only [List.flatMap_cons, List.flatMap_nil, lastByte0 _ hT, Si_eq, byteU_shift]
  rfl

theorem compactWord_eq (a b c d : UInt8) : toWord (compactWord [a, b, c, d]) = ⟨a, b, c, d⟩ := by
  have cast_or : ∀ (m n : Nat) (k : Nat),
      byteU ((m ||| n : Nat) : Int) k = byteU (m : Int) k ||| byteU (n : Int) k := by
    intro m n k
    apply UInt8.toNat_inj.1
    rw [UInt8.toNat_or, toNat_byteU, toNat_byteU, toNat_byteU]
    apply Nat.eq_of_testBit_eq
    intro i
    rw [Nat.testBit_or, testBit_byteAt, testBit_byteAt, testBit_byteAt]
    show (decide (i < 8) && (m ||| n).testBit (k + i)) = (decide (i < 8) && m.testBit (k + i) ||
      decide (i < 8) && n.testBit (k + i))
    rw [Nat.testBit_or]
    by_cases h : i < 8 <;> simp [h]
  have ha := shift_tab a.toNat a.toNat_lt
  have hb := shift_tab b.toNat b.toNat_lt
  have hc := shift_tab c.toNat c.toNat_lt
  have hd := shift_tab d.toNat d.toNat_lt
  simp only [toWord, Word.mk.injEq, UInt8.ofNat_toNat] at ha hb hc hd
  unfold compactWord
  simp only [List.getD_cons_zero, List.getD_cons_succ, toWord, cast_or, ha, hb, hc, hd]
  simp

theorem unpackI_eq (a b c d : UInt8) : toWord (unpackI [a, b, c, d]) = ⟨a, b, c, d⟩ := by
  have ha := a.toNat_lt
  have hb := b.toNat_lt
  have hc := c.toNat_lt
  have hd := d.toNat_lt
  have hsh : ∀ (x : Int) (k : Nat), byteAt x k = ((x / (2 ^ k : Nat)) % 256).toNat := by
    intro x k
    rw [byteAt, Int.shiftRight_eq_div_pow]
  unfold unpackI toWord byteU
  simp only [List.getD_cons_zero, List.getD_cons_succ, hsh]
  congr 1 <;>
  · apply UInt8.toNat_inj.1
    rw [UInt8.toNat_ofNat']
    split_ifs <;> omega

theorem firstKey_eq {b : Bytes} {s : State} (h : toState b = some s) (K : List (List Int)) :
    stOf (firstKey b K) = s.xor (keyOf K 0) := by
  have e : List.range 4 = [0, 1, 2, 3] := by decide
  unfold toState at h
  split at h
  · injection h with h
    subst h
    unfold firstKey
    rw [e]
    simp only [stOf, List.map_cons, List.map_nil, List.getD_cons_zero, List.getD_cons_succ,
      toWord_xor, List.drop, List.take, compactWord_eq]
    simp only [compactWord_eq, State.xor, keyOf, Nat.mul_zero, Nat.reduceMul, List.drop_zero, List.take,
      List.drop_succ_cons]
  · cases h

theorem toState_isSome {b : Bytes} (h : b.length = 16) : ∃ s, toState b = some s ∧ ofState s = b := by
  match b, h with
  | [a0, a1, a2, a3, a4, a5, a6, a7, a8, a9, a10, a11, a12, a13, a14, a15], _ => exact ⟨_, rfl, rfl⟩

theorem toState_length {b : Bytes} {s : State} (h : toState b = some s) : b.length = 16 := by
  unfold toState at h
  split at h
  · rfl
  · cases h

theorem toState_ofState (s : State) : toState (ofState s) = some s := rfl

end NBC.Aes
