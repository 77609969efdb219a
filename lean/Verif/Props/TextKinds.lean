import Verif.Props.Infinity
import Verif.Props.HDWallet
import Verif.Proofs.Piecewise

/-!
C180: what the first letters of a text tell.
-/

namespace NBC.Props

open NBC Key Ecdsa EC Aes Spec NBC.Secp Wallet NT Base58

theorem digits_range {b q : Nat} (hb : 2 ≤ b) (hq : 0 < q) :
    ∀ (k x : Nat), q * b ^ k ≤ x → x < (q + 1) * b ^ k → ∃ t, t.length = k ∧ digitsBE b x = digitsBE b q ++ t := by
  intro k
  induction k with
  | zero =>
    intro x h1 h2
    have : x = q := by simp only [pow_zero, Nat.mul_one] at h1 h2; omega
    exact ⟨[], rfl, by rw [this, List.append_nil]⟩
  | succ k ih =>
    intro x h1 h2
    have hx : x ≠ 0 := by
      have : 0 < q * b ^ (k + 1) := Nat.mul_pos hq (Nat.pow_pos (by omega))
      omega
    rw [pow_succ, ← Nat.mul_assoc] at h1 h2
    obtain ⟨t, hl, ht⟩ := ih (x / b) ((Nat.le_div_iff_mul_le (by omega)).2 h1)
      ((Nat.div_lt_iff_lt_mul (by omega)).2 h2)
    exact ⟨t ++ [x % b], by simp [hl], by rw [digitsBE_step b x hb hx, ht, List.append_assoc]⟩

/-- The text of a number of which the first digits are known. -/
theorem b58_range (z : Nat) {s : Bytes} {q k : Nat} (hs : ∀ x, s.head? = some x → x ≠ 0) (hq : 0 < q)
    (lo : q * 58 ^ k ≤ bytesVal s) (hi : bytesVal s < (q + 1) * 58 ^ k) :
    ∃ t, t.length = k ∧ b58encode (List.replicate z 0 ++ s) =
      (List.replicate z 0).map alphaAt ++ (digitsBE 58 q).map alphaAt ++ t := by
  obtain ⟨t, hl, ht⟩ := digits_range (b := 58) (by omega) hq k _ lo hi
  refine ⟨t.map alphaAt, by simp [hl], ?_⟩
  rw [b58encode_eq z s hs, ht]
  simp

/-- The names BIP 32 gives to the four kinds of extended keys. -/
def kindName : Bool → Bool → Bytes
  | false, false => ascii "xpub"
  | false, true => ascii "xprv"
  | true, false => ascii "tpub"
  | true, true => ascii "tprv"

theorem extData_length {w : HDWallet} {b : Bool} {d : Bytes} (h : w.extData b = .ok d) : d.length = 33 := by
  unfold HDWallet.extData at h
  cases b with
  | true =>
    rw [if_pos rfl] at h
    split at h
    · cases h
    · obtain ⟨t, ht, h⟩ := bind_ok_iff.1 h
      cases h
      have := (number_text ht).1
      rw [show orderlen secp256k1.order = 32 by decide +kernel] at this
      simp [this]
  | false =>
    rw [if_neg (by decide)] at h
    obtain ⟨P, -, h⟩ := bind_ok_iff.1 h
    unfold pointCompress at h
    split at h
    · cases h
    · obtain ⟨t, ht, h⟩ := bind_ok_iff.1 h
      cases h
      have := (number_text ht).1
      rw [show orderlen secp256k1.curve.p = 32 by decide +kernel] at this
      simp [this]

/-- C180: an extended key is a text of 111 letters that starts with `xpub` or `xprv` (`tpub`, `tprv` of the test
network). -/
theorem C180_extended (H : Hashes) (w : HDWallet) (he : Exportable w) (b : Bool) (s : Bytes)
    (h : w.toExtendedKey H b = .ok s) : s.length = 111 ∧ s.take 4 = kindName w.testnet b := by
  obtain ⟨d, hd⟩ : ∃ d, w.extData b = .ok d := by
    unfold HDWallet.toExtendedKey at h
    obtain ⟨_, -, h⟩ := bind_ok_iff.1 h
    obtain ⟨_, -, h⟩ := bind_ok_iff.1 h
    obtain ⟨_, -, h⟩ := bind_ok_iff.1 h
    obtain ⟨d, hd, -⟩ := bind_ok_iff.1 h
    exact ⟨d, hd⟩
  have hl := extData_length hd
  rw [ext_eq he b d hd] at h
  cases h
  unfold encodeCheck
  generalize hck : (H.sha256d (bip32Record (bip32Version w.testnet b) w.depth.toNat w.parentFp w.childnum.toNat w.chain d)).take 4 = ck
  have hckl : ck.length = 4 := by rw [← hck]; exact sha256d_take4 H _
  generalize hr : beBytes 1 w.depth.toNat ++ w.parentFp ++ beBytes 4 w.childnum.toNat ++ w.chain ++ d ++ ck = r
  have hrl : r.length = 78 := by
    rw [← hr]; simp [beBytes_length, he.fp, he.chain, hl, hckl]
  have e : bip32Record (bip32Version w.testnet b) w.depth.toNat w.parentFp w.childnum.toNat w.chain d ++ ck =
      beBytes 4 (bip32Version w.testnet b) ++ r := by
    rw [← hr]; simp [bip32Record]
  rw [e]
  have hv := bytesVal_lt r
  rw [hrl] at hv
  have hval := bytesVal_append (beBytes 4 (bip32Version w.testnet b)) r
  rw [hrl] at hval
  have fin : ∀ q : Nat, 0 < q → q * 58 ^ 107 ≤ bip32Version w.testnet b * 256 ^ 78 →
      (bip32Version w.testnet b + 1) * 256 ^ 78 ≤ (q + 1) * 58 ^ 107 →
      (digitsBE 58 q).map alphaAt = kindName w.testnet b →
      bytesVal (beBytes 4 (bip32Version w.testnet b)) = bip32Version w.testnet b →
      (∀ x, (beBytes 4 (bip32Version w.testnet b) ++ r).head? = some x → x ≠ 0) →
      (b58encode (beBytes 4 (bip32Version w.testnet b) ++ r)).length = 111 ∧
        (b58encode (beBytes 4 (bip32Version w.testnet b) ++ r)).take 4 = kindName w.testnet b := by
    intro q hq h1 h2 h3 h4 h5
    rw [h4] at hval
    obtain ⟨t, ht, hb⟩ := b58_range 0 h5 hq (k := 107) (by rw [hval]; exact le_trans h1 (Nat.le_add_right _ _))
      (by rw [hval]; refine lt_of_lt_of_le (Nat.add_lt_add_left hv _) ?_; rw [Nat.add_mul, Nat.one_mul] at h2; exact h2)
    rw [List.replicate_zero, List.nil_append, List.replicate_zero, List.map_nil, List.nil_append, h3] at hb
    have hk : (kindName w.testnet b).length = 4 := by cases w.testnet <;> cases b <;> rfl
    rw [hb]
    exact ⟨by rw [List.length_append, hk, ht], by rw [List.take_append_of_le_length (by omega), List.take_of_length_le (by omega)]⟩
  cases ht : w.testnet <;> cases b <;> rw [ht] at fin
  · exact fin 10892318 (by decide) (by decide +kernel) (by decide +kernel) (by decide +kernel) (by decide +kernel)
      (by intro x hx; rw [show beBytes 4 (bip32Version false false) = [4, 0x88, 0xB2, 0x1E] by decide +kernel] at hx; cases hx; decide)
  · exact fin 10892163 (by decide) (by decide +kernel) (by decide +kernel) (by decide +kernel) (by decide +kernel)
      (by intro x hx; rw [show beBytes 4 (bip32Version false true) = [4, 0x88, 0xAD, 0xE4] by decide +kernel] at hx; cases hx; decide)
  · exact fin 10111870 (by decide) (by decide +kernel) (by decide +kernel) (by decide +kernel) (by decide +kernel)
      (by intro x hx; rw [show beBytes 4 (bip32Version true false) = [4, 0x35, 0x87, 0xCF] by decide +kernel] at hx; cases hx; decide)
  · exact fin 10111715 (by decide) (by decide +kernel) (by decide +kernel) (by decide +kernel) (by decide +kernel)
      (by intro x hx; rw [show beBytes 4 (bip32Version true true) = [4, 0x35, 0x83, 0x94] by decide +kernel] at hx; cases hx; decide)

theorem hexChar_range : ∀ d < 16, (0x30 ≤ (hexChar d).toNat ∧ (hexChar d).toNat < 0x3a) ∨
    (0x61 ≤ (hexChar d).toNat ∧ (hexChar d).toNat < 0x67) := by decide +kernel

/-- C180: an address is a text of 56 letters; it starts with `13`, `15` or `16`, and on the test network with `R`. -/
theorem C180_address (H : Hashes) (key : Bytes) (vcn : Int) :
    ((publickeyToAddress H key vcn [0]).length = 56 ∧
      (publickeyToAddress H key vcn [0]).take 2 ∈ [ascii "13", ascii "15", ascii "16"]) ∧
    (publickeyToAddress H key vcn [0x6f]).length = 56 ∧ (publickeyToAddress H key vcn [0x6f]).take 1 = ascii "R" := by
  have main : ∀ v : Bytes, ∃ (d : Nat) (t : Bytes), d < 16 ∧ t.length = 39 ∧
      publickeyToAddress H key vcn v = b58encode (v ++ hexChar d :: t) := by
    intro v
    have h : (vcn % 65536) = (((vcn % 65536).toNat : Nat) : Int) := by omega
    unfold publickeyToAddress pubkeyhashToAddress encodeCheck
    rw [h, fmtHexPad4 _ (by omega)]
    generalize (vcn % 65536).toNat = n
    refine ⟨n / 4096 % 16, [hexChar (n / 256 % 16), hexChar (n / 16 % 16), hexChar (n % 16)] ++ publickeyDigest H key ++
      (H.sha256d (v ++ hex4 n ++ publickeyDigest H key)).take 4, by omega, ?_, ?_⟩
    · simp only [List.length_append, List.length_cons, List.length_nil, sha256d_take4]
      unfold publickeyDigest
      simp only [H.sha256_length]
    · simp [hex4]
  constructor
  · obtain ⟨d, t, hd, ht, e⟩ := main [0]
    rw [e]
    obtain ⟨lo, hi⟩ := bytesVal_bounds (hexChar d) t 39 ht
    have hne : ∀ x, (hexChar d :: t).head? = some x → x ≠ 0 := by
      intro x hx
      cases hx
      intro h0
      rcases hexChar_range d hd with h | h <;> rw [h0] at h <;> exact absurd h.1 (by decide)
    have fin : ∀ q : Nat, 0 < q → q * 58 ^ 54 ≤ bytesVal (hexChar d :: t) → bytesVal (hexChar d :: t) < (q + 1) * 58 ^ 54 →
        (digitsBE 58 q).map alphaAt ∈ [ascii "3", ascii "5", ascii "6"] →
        (b58encode ([0] ++ hexChar d :: t)).length = 56 ∧
          (b58encode ([0] ++ hexChar d :: t)).take 2 ∈ [ascii "13", ascii "15", ascii "16"] := by
      intro q hq h1 h2 h3
      obtain ⟨u, hu, hb⟩ := b58_range 1 hne hq h1 h2
      rw [show List.replicate 1 (0 : UInt8) = [0] from rfl] at hb
      rw [hb, show (List.replicate 1 0).map alphaAt = ascii "1" by decide +kernel]
      simp only [List.mem_cons, List.not_mem_nil, or_false] at h3
      rcases h3 with h3 | h3 | h3 <;> rw [h3] <;> refine ⟨by rw [List.length_append, hu]; rfl, ?_⟩ <;>
        rw [List.take_append_of_le_length (by decide)] <;> decide
    rcases hexChar_range d hd with ⟨a, b⟩ | ⟨a, b⟩
    · exact fin 2 (by decide)
        (le_trans (le_trans (by decide +kernel) (Nat.mul_le_mul_right (256 ^ 39) a)) lo)
        (lt_of_lt_of_le hi (le_trans (Nat.mul_le_mul_right (256 ^ 39) (show _ ≤ 0x3a from b)) (by decide +kernel))) (by decide +kernel)
    · have l4 : 4 * 58 ^ 54 ≤ bytesVal (hexChar d :: t) :=
        le_trans (le_trans (by decide +kernel) (Nat.mul_le_mul_right (256 ^ 39) a)) lo
      have l6 : bytesVal (hexChar d :: t) < 6 * 58 ^ 54 :=
        lt_of_lt_of_le hi (le_trans (Nat.mul_le_mul_right (256 ^ 39) (show _ ≤ 0x67 from b)) (by decide +kernel))
      by_cases hc : bytesVal (hexChar d :: t) < 5 * 58 ^ 54
      · exact fin 4 (by decide) l4 hc (by decide +kernel)
      · exact fin 5 (by decide) (Nat.le_of_not_lt hc) l6 (by decide +kernel)
  · obtain ⟨d, t, hd, ht, e⟩ := main [0x6f]
    rw [e]
    obtain ⟨lo, hi⟩ := bytesVal_bounds 0x6f (hexChar d :: t) 40 (by simp [ht])
    obtain ⟨u, hu, hb⟩ := b58_range 0 (s := 0x6f :: hexChar d :: t) (q := 24) (k := 55)
      (by intro x hx; cases hx; decide) (by decide) (le_trans (by decide +kernel) lo) (lt_of_lt_of_le hi (by decide +kernel))
    rw [List.replicate_zero, List.nil_append, List.replicate_zero] at hb
    rw [show ([0x6f] ++ hexChar d :: t : Bytes) = 0x6f :: hexChar d :: t from rfl, hb,
      show ([] : List Nat).map alphaAt ++ (digitsBE 58 24).map alphaAt = ascii "R" by decide +kernel]
    exact ⟨by rw [List.length_append, hu]; rfl, rfl⟩

/-- C180 for the objects of the library: `Address` and `HDWallet`. -/
theorem C180_objects (H : Hashes) :
    (∀ pub priv vcn rnd tn a, Address.init H pub priv vcn rnd tn = .ok a → a.address.length = 56 ∧
      (if tn then a.address.take 1 = ascii "R" else a.address.take 2 ∈ [ascii "13", ascii "15", ascii "16"])) ∧
    (∀ w s, HDWallet.address H w = .ok s → s.length = 56 ∧
      (if w.testnet then s.take 1 = ascii "R" else s.take 2 ∈ [ascii "13", ascii "15", ascii "16"])) := by
  constructor
  · intro pub priv vcn rnd tn a h
    unfold Address.init at h
    obtain ⟨⟨_, _, _⟩, -, h⟩ := bind_ok_iff.1 h
    obtain ⟨⟨_, _⟩, -, h⟩ := bind_ok_iff.1 h
    obtain ⟨key, -, h⟩ := bind_ok_iff.1 h
    cases h
    have := C180_address H key (vcnOf vcn rnd)
    cases tn
    · exact this.1
    · exact this.2
  · intro w s h
    unfold HDWallet.address at h
    obtain ⟨_, -, h⟩ := bind_ok_iff.1 h
    obtain ⟨key, -, h⟩ := bind_ok_iff.1 h
    cases h
    have := C180_address H key w.vcn
    cases hw : w.testnet
    · exact this.1
    · exact this.2

/-- The kinds of texts a user handles. -/
inductive TextKind
  | privateKey | partialKey | extendedKey | mainAddress | testAddress
  deriving DecidableEq

/-- What a user takes a text for by its first letter. -/
def textKind (s : Bytes) : Option TextKind :=
  if s.take 1 = ascii "5" ∨ s.take 1 = ascii "K" ∨ s.take 1 = ascii "L" then some .privateKey
  else if s.take 1 = ascii "6" then some .partialKey
  else if s.take 1 = ascii "x" ∨ s.take 1 = ascii "t" then some .extendedKey
  else if s.take 1 = ascii "1" then some .mainAddress
  else if s.take 1 = ascii "R" then some .testAddress
  else none

/-- C180: private keys, partial keys, extended keys and addresses are told apart by the first letter. -/
theorem C180_kinds (H : Hashes) :
    (∀ k : Bytes, k.length = 32 → textKind (privkeyToWif H k) = some .privateKey ∧
      textKind (privkeyToWif H (k ++ [1])) = some .privateKey) ∧
    (∀ (i r : UInt8) (cs pk : Bytes), cs.length = 4 → pk.length = 32 →
      textKind (encodeCheck H ([0x10, 0x01] ++ [i] ++ [r] ++ cs ++ pk)) = some .partialKey) ∧
    (∀ w b s, Exportable w → w.toExtendedKey H b = .ok s → textKind s = some .extendedKey) ∧
    (∀ key vcn, textKind (publickeyToAddress H key vcn [0]) = some .mainAddress ∧
      textKind (publickeyToAddress H key vcn [0x6f]) = some .testAddress) := by
  have hd : ∀ {s : Bytes} {c : UInt8}, s.head? = some c → s.take 1 = [c] := by
    intro s c h
    cases s with
    | nil => cases h
    | cons a t => cases h; rfl
  have pre : ∀ {s u : Bytes} {n : Nat}, 1 ≤ n → s.take n = u → s.take 1 = u.take 1 := by
    intro s u n hn h
    rw [← h, List.take_take, Nat.min_eq_left hn]
  refine ⟨fun k hk => ⟨?_, ?_⟩, fun i r cs pk hc hp => ?_, fun w b s he h => ?_, fun key vcn => ⟨?_, ?_⟩⟩
  · unfold textKind
    rw [hd (wif_head_uncompressed H k hk)]
    decide
  · unfold textKind
    rcases wif_head_compressed H (k ++ [1]) (by simp [hk]) with h | h <;> rw [hd h] <;> decide
  · unfold textKind
    rw [pre (by decide) (Piecewise.partial_prefix H i r cs pk hc hp)]
    decide
  · unfold textKind
    rw [pre (by decide) (C180_extended H w he b s h).2]
    cases w.testnet <;> cases b <;> decide
  · unfold textKind
    have := (C180_address H key vcn).1.2
    simp only [List.mem_cons, List.not_mem_nil, or_false] at this
    rcases this with h | h | h <;> rw [pre (by decide) h] <;> decide
  · unfold textKind
    rw [(C180_address H key vcn).2.2]
    decide

/-- Addresses with each of the three beginnings, and one of the test network. -/
example : (publickeyToAddress Hashes.toy [2] 0 [0]).take 2 = ascii "13" ∧
    (publickeyToAddress Hashes.toy [2] 0xa000 [0]).take 2 = ascii "15" ∧
    (publickeyToAddress Hashes.toy [2] 0xf000 [0]).take 2 = ascii "16" ∧
    (publickeyToAddress Hashes.toy [2] 7 [0x6f]).take 2 = ascii "RP" := by decide +kernel

/-- C180: every wallet derived from a master has both extended keys, of these forms. -/
theorem C180_paths (H : Hashes) (is : List Int) (w : HDWallet) (h : Path H is w) (b : Bool) :
    ∃ s, w.toExtendedKey H b = .ok s ∧ s.length = 111 ∧ s.take 4 = kindName w.testnet b := by
  obtain ⟨he, k, x, y, o, hk, hn, hx, -, hP⟩ := C51_paths H is w h
  cases b with
  | false =>
    obtain ⟨s, hs, -⟩ := C51_public H w he x y o hx hP
    exact ⟨s, hs, C180_extended H w he false s hs⟩
  | true =>
    obtain ⟨s, hs, -⟩ := C51_private H w he k hk hn
    exact ⟨s, hs, C180_extended H w he true s hs⟩

theorem b58_length {s : Bytes} {k : Nat} (hs : ∀ x, s.head? = some x → x ≠ 0) (lo : 58 ^ k ≤ bytesVal s)
    (hi : bytesVal s < 58 ^ (k + 1)) : (b58encode s).length = k + 1 := by
  have := b58encode_eq 0 s hs
  rw [List.replicate_zero, List.nil_append, List.replicate_zero, List.nil_append] at this
  rw [this, List.length_map]
  have a := (digitsBE_length_le_iff 58 (bytesVal s) (k + 1) (by omega)).2 hi
  have b := mt (digitsBE_length_le_iff 58 (bytesVal s) k (by omega)).1 (by omega)
  omega

/-- C180: a private key has 51 letters, that of a compressed public key 52, and a partial key 60. -/
theorem C180_lengths (H : Hashes) (k : Bytes) (hk : k.length = 32) :
    (privkeyToWif H k).length = 51 ∧ (privkeyToWif H (k ++ [1])).length = 52 ∧
    ∀ (i r : UInt8) (cs : Bytes), cs.length = 4 → (encodeCheck H ([0x10, 0x01] ++ [i] ++ [r] ++ cs ++ k)).length = 60 := by
  refine ⟨?_, ?_, fun i r cs hc => ?_⟩
  · have hl : (k ++ (H.sha256d ([0x80] ++ k)).take 4).length = 36 := by rw [List.length_append, sha256d_take4, hk]
    obtain ⟨lo, hi⟩ := bytesVal_bounds 0x80 _ 36 hl
    have e : privkeyToWif H k = b58encode (0x80 :: (k ++ (H.sha256d ([0x80] ++ k)).take 4)) := by
      simp [privkeyToWif, encodeCheck]
    rw [e]
    exact b58_length (k := 50) (by intro x hx; cases hx; decide) (le_trans (by decide +kernel) lo)
      (lt_of_lt_of_le hi (by decide +kernel))
  · have hl : (k ++ [1] ++ (H.sha256d ([0x80] ++ (k ++ [1]))).take 4).length = 37 := by
      rw [List.length_append, List.length_append, sha256d_take4, hk]; rfl
    obtain ⟨lo, hi⟩ := bytesVal_bounds 0x80 _ 37 hl
    have e : privkeyToWif H (k ++ [1]) = b58encode (0x80 :: (k ++ [1] ++ (H.sha256d ([0x80] ++ (k ++ [1]))).take 4)) := by
      simp [privkeyToWif, encodeCheck]
    rw [e]
    exact b58_length (k := 51) (by intro x hx; cases hx; decide) (le_trans (by decide +kernel) lo)
      (lt_of_lt_of_le hi (by decide +kernel))
  · have hl : (0x01 :: ([i] ++ [r] ++ cs ++ k ++ (H.sha256d ([0x10, 0x01] ++ [i] ++ [r] ++ cs ++ k)).take 4)).length = 43 := by
      simp only [List.length_append, List.length_cons, List.length_nil, sha256d_take4, hk, hc]
    obtain ⟨lo, hi⟩ := bytesVal_bounds 0x10 _ 43 hl
    have e : encodeCheck H ([0x10, 0x01] ++ [i] ++ [r] ++ cs ++ k) = b58encode (0x10 :: 0x01 :: ([i] ++ [r] ++ cs ++ k ++
        (H.sha256d ([0x10, 0x01] ++ [i] ++ [r] ++ cs ++ k)).take 4)) := by
      simp [encodeCheck]
    rw [e]
    exact b58_length (k := 59) (by intro x hx; cases hx; decide) (le_trans (by decide +kernel) lo)
      (lt_of_lt_of_le hi (by decide +kernel))

/-- C180: a text of another kind given for a private key is refused, by the `Address` constructor and by the import of
private keys, whatever the hash functions. -/
theorem C180_refused (H : Hashes) (s : Bytes) (k : TextKind) (hk : textKind s = some k) (hne : k ≠ .privateKey)
    (vcn : Option Int) (rnd : Nat) (tn : Bool) :
    Address.init H none (some s) vcn rnd tn = .error .valueError ∧ ∀ key, privkeyFromWif H s ≠ .ok key := by
  have hn : s ≠ [] := by
    rintro rfl
    rw [show textKind [] = none by decide] at hk
    cases hk
  obtain ⟨c, t, rfl⟩ := List.exists_cons_of_ne_nil hn
  have h1 : ¬ (([c] : Bytes) = ascii "5" ∨ ([c] : Bytes) = ascii "K" ∨ ([c] : Bytes) = ascii "L") := by
    intro h
    unfold textKind at hk
    rw [show (c :: t).take 1 = [c] from rfl, if_pos h] at hk
    cases hk
    exact hne rfl
  have hc : c ≠ 76 ∧ c ≠ 75 ∧ c ≠ 53 :=
    ⟨fun h => h1 (Or.inr (Or.inr (by rw [h]; rfl))), fun h => h1 (Or.inr (Or.inl (by rw [h]; rfl))),
      fun h => h1 (Or.inl (by rw [h]; rfl))⟩
  constructor
  · unfold Address.init initPriv
    simp only [reduceCtorEq, if_false, ne_eq, not_true_eq_false]
    rw [show pyIndex (c :: t) 0 = .ok c from rfl, ok_bind, if_pos hc]
    rfl
  · intro key h
    obtain ⟨hl, h | h⟩ := C05_wif_sound H _ key h
    · have := ((C180_kinds H).1 key hl).1
      rw [← h, hk] at this
      cases this
      exact hne rfl
    · have := ((C180_kinds H).1 key hl).2
      rw [← h, hk] at this
      cases this
      exact hne rfl

/-- C180: private keys, extended keys and addresses given for partial keys are refused, in the mode that ignores errors
too. -/
theorem C180_combine (H : Hashes) (ie : Bool) (st : Piecewise.PState) :
    (∀ k, Piecewise.combineStep .py2 H ie st (privkeyToWif H k) = .error .valueError) ∧
    (∀ w b s, Exportable w → w.toExtendedKey H b = .ok s → Piecewise.combineStep .py2 H ie st s = .error .valueError) ∧
    (∀ key vcn tn, Piecewise.combineStep .py2 H ie st (publickeyToAddress H key vcn (verByte tn)) = .error .valueError) := by
  have gen : ∀ pk : Bytes, pk.take 1 ≠ [0x10] → Piecewise.combineStep .py2 H ie st (encodeCheck H pk) = .error .valueError := by
    intro pk h
    have h2 : pk.take 2 ≠ [0x10, 0x01] := by
      intro h2
      apply h
      have := congrArg (List.take 1) h2
      rwa [List.take_take] at this
    unfold Piecewise.combineStep
    rw [decodeCheck_encodeCheck, ok_bind]
    simp only [reduceCtorEq, if_false]
    rw [if_pos h2]
  refine ⟨fun k => gen _ (by simp), fun w b s he h => ?_, fun key vcn tn => ?_⟩
  · obtain ⟨d, hd⟩ : ∃ d, w.extData b = .ok d := by
      unfold HDWallet.toExtendedKey at h
      obtain ⟨_, -, h⟩ := bind_ok_iff.1 h
      obtain ⟨_, -, h⟩ := bind_ok_iff.1 h
      obtain ⟨_, -, h⟩ := bind_ok_iff.1 h
      obtain ⟨d, hd, -⟩ := bind_ok_iff.1 h
      exact ⟨d, hd⟩
    rw [ext_eq he b d hd] at h
    cases h
    refine gen _ ?_
    have : ∀ tn, (beBytes 4 (bip32Version tn b)).take 1 = [4] := by cases b <;> decide +kernel
    unfold bip32Record
    simp only [List.append_assoc]
    rw [List.take_append_of_le_length (by rw [beBytes_length]; omega), this]
    decide
  · unfold publickeyToAddress pubkeyhashToAddress
    refine gen _ ?_
    cases tn <;> simp [verByte]

/-- An address for which the hypotheses hold. -/
example : textKind (publickeyToAddress Hashes.toy [2] 0 [0]) = some .mainAddress := by decide +kernel

end NBC.Props
