import Verif.Model.KeyText
import Verif.Proofs.Base58
import Verif.Proofs.Wire
import Verif.Proofs.Built
import Verif.Spec.Text

/-!
# C160: a key that is text

A private key in the wallet import format is a word of letters and digits.  What happens to it when it is given as text?
-/

namespace NBC.Props
open NBC NBC.Base58 NBC.Key NBC.Wallet NBC.KeyText NBC.Aes NBC.Ecdsa NBC.EC NBC.Proto

/-- The letters and digits of base58, without 0, O, I and l -/
def keyLetters : List Char := "123456789ABCDEFGHJKLMNPQRSTUVWXYZabcdefghijkmnopqrstuvwxyz".toList

/-- The characters of a value that is text or bytes -/
def charsOf : Phrase → List Char
  | .bytes b => b.map (fun x => Char.ofNat x.toNat)
  | .text s => s

theorem letters_bytes : ∀ i < 256, UInt8.ofNat i ∈ alphabet ↔ Char.ofNat i ∈ keyLetters := by decide +kernel

theorem letter_number : ∀ i < 256, (Char.ofNat i).toNat = i := by decide +kernel

theorem letters_ascii : ∀ c ∈ keyLetters, c.toNat < 128 := by decide

theorem mem_letters (x : UInt8) : x ∈ alphabet ↔ Char.ofNat x.toNat ∈ keyLetters := by
  have := letters_bytes x.toNat (UInt8.toNat_lt x)
  rwa [UInt8.ofNat_toNat] at this

theorem char_byte (c : Char) (h : c.toNat < 256) : Char.ofNat (UInt8.ofNat c.toNat).toNat = c := by
  rw [UInt8.toNat_ofNat_of_lt' h, Char.ofNat_toNat]

theorem ascii_ok {s : List Char} (h : ∀ c ∈ s, c.toNat < 128) :
    asciiEncode s = .ok (s.map (fun c => UInt8.ofNat c.toNat)) := by
  unfold asciiEncode
  rw [if_pos]
  simpa using h

theorem ascii_bad {s : List Char} {c : Char} (hc : c ∈ s) (h : 128 ≤ c.toNat) : asciiEncode s = .error .valueError := by
  unfold asciiEncode
  rw [if_neg]
  simp only [List.all_eq_true, decide_eq_true_eq, not_forall]
  exact ⟨c, hc, by omega⟩

/-- What is decoded has letters of base58 only; anything else is a `ValueError`. -/
theorem b58decodeOf_bad (v : Phrase) (c : Char) (hc : c ∈ charsOf v) (hl : c ∉ keyLetters) :
    b58decodeOf .py3 v = .error .valueError := by
  cases v with
  | bytes b =>
    obtain ⟨x, hx, rfl⟩ := List.mem_map.1 hc
    exact b58decode_bad b x hx (fun h => hl ((mem_letters x).1 h))
  | text s =>
    by_cases h : ∀ c ∈ s, c.toNat < 128
    · have hc' : c.toNat < 128 := h c hc
      show (asciiEncode s >>= b58decode) = _
      rw [ascii_ok h]
      refine b58decode_bad _ (UInt8.ofNat c.toNat) (List.mem_map.2 ⟨c, hc, rfl⟩) (fun ha => hl ?_)
      have := (mem_letters _).1 ha
      rwa [char_byte c (by omega)] at this
    · simp only [not_forall] at h
      obtain ⟨d, hd, hd'⟩ := h
      show (asciiEncode s >>= b58decode) = _
      rw [ascii_bad hd (by omega)]
      rfl

/-- **C160**, decoding: in Python 3 a text is decoded as the byte string of its characters. -/
theorem C160_decode (b : Bytes) : b58decodeOf .py3 (.text (latin1Decode b)) = b58decode b := by
  by_cases h : ∀ x ∈ b, x ∈ alphabet
  · show (asciiEncode _ >>= b58decode) = _
    have : ∀ c ∈ latin1Decode b, c.toNat < 128 := by
      intro c hc
      obtain ⟨x, hx, rfl⟩ := List.mem_map.1 hc
      exact letters_ascii _ ((mem_letters x).1 (h x hx))
    rw [ascii_ok this]
    show b58decode _ = _
    congr 1
    have h2 := latin1Encode_decode b
    unfold latin1Encode at h2
    split at h2
    · injection h2
    · cases h2
  · simp only [not_forall] at h
    obtain ⟨x, hx, hx'⟩ := h
    rw [b58decode_bad b x hx hx']
    exact b58decodeOf_bad _ (Char.ofNat x.toNat) (List.mem_map.2 ⟨x, hx, rfl⟩) (fun h => hx' ((mem_letters x).2 h))

/-- The first character of the text of a byte string -/
theorem ordFirst_text (b : Bytes) : ordFirst (.text (latin1Decode b)) = ordFirst (.bytes b) := by
  cases b with
  | nil => rfl
  | cons x b =>
    show Except.ok (Char.ofNat x.toNat).toNat = Except.ok x.toNat
    rw [letter_number _ (UInt8.toNat_lt x)]

theorem decodeCheckOf_bytes (ver : PyVer) (H : Hashes) (b : Bytes) : decodeCheckOf ver H (.bytes b) = decodeCheck H b := rfl

theorem wif_bytes (ver : PyVer) (H : Hashes) (b : Bytes) (pre : UInt8) :
    privkeyFromWifOf ver H (.bytes b) pre = privkeyFromWif H b pre := by
  unfold privkeyFromWifOf privkeyFromWif
  rw [decodeCheckOf_bytes]
  cases decodeCheck H b with
  | error e => rfl
  | ok o =>
    cases o with
    | none => rfl
    | some key =>
      cases b with
      | nil => rfl
      | cons x b => rfl

/-- **C160**, private keys: in Python 3 `privkey_from_wif` reads a text as the byte string of its characters. -/
theorem C160_wif_partial (H : Hashes) (b : Bytes) (pre : UInt8) :
    privkeyFromWifOf .py3 H (.text (latin1Decode b)) pre = privkeyFromWif H b pre := by
  rw [← wif_bytes .py3]
  unfold privkeyFromWifOf
  rw [ordFirst_text]
  have : decodeCheckOf .py3 H (.text (latin1Decode b)) = decodeCheckOf .py3 H (.bytes b) := by
    unfold decodeCheckOf
    rw [C160_decode]
    rfl
  rw [this]

/-- **C160**, the callers: shared secrets and combined keys are the same for text in Python 3. -/
theorem C160_callers_partial (H : Hashes) (pub b : Bytes) (ks : List Bytes) :
    sharedSecretOf .py3 H pub (.text (latin1Decode b)) = Ecc.sharedSecret H pub b ∧
    combinePrivateKeysOf .py3 H (ks.map (fun k => .text (latin1Decode k))) = Piecewise.combinePrivateKeys H ks := by
  constructor
  · unfold sharedSecretOf Ecc.sharedSecret
    rw [C160_wif_partial]
    rfl
  · unfold combinePrivateKeysOf Piecewise.combinePrivateKeys
    rw [List.mapM_map]
    have : ((fun k => privkeyFromWifOf .py3 H k) ∘ fun k => Phrase.text (latin1Decode k)) = fun k => privkeyFromWif H k := by
      funext k
      exact C160_wif_partial H k 0x80
    rw [this]

/-- **C160**, what is let in: a key that is accepted, text or bytes, has letters of base58 only: no blank or newline at the
end, no letter that looks like one of them; in Python 3 any other character is a `ValueError`. -/
theorem C160_letters (ver : PyVer) (H : Hashes) (v : Phrase) (pre : UInt8) :
    (∀ k, privkeyFromWifOf ver H v pre = .ok k → ∀ c ∈ charsOf v, c ∈ keyLetters) ∧
    ((∃ c ∈ charsOf v, c ∉ keyLetters) → privkeyFromWifOf .py3 H v pre = .error .valueError) := by
  have bad : (∃ c ∈ charsOf v, c ∉ keyLetters) → privkeyFromWifOf .py3 H v pre = .error .valueError := by
    rintro ⟨c, hc, hl⟩
    unfold privkeyFromWifOf decodeCheckOf
    rw [b58decodeOf_bad v c hc hl]
    rfl
  refine ⟨fun k hk c hc => ?_, bad⟩
  by_contra hl
  have h3 := bad ⟨c, hc, hl⟩
  cases v with
  | bytes b =>
    rw [wif_bytes] at h3 hk
    rw [hk] at h3
    cases h3
  | text s =>
    cases ver with
    | py2 => cases hk
    | py3 =>
      rw [hk] at h3
      cases h3

/-- **C160 is false in Python 2**: a key that is `unicode` is never read, however good. -/
theorem C160_unicode_false (H : Hashes) (s : List Char) (pre : UInt8) (pub : Bytes) (ss : List (List Char)) (hs : ss ≠ []) :
    privkeyFromWifOf .py2 H (.text s) pre = .error .typeError ∧
    (∀ k, sharedSecretOf .py2 H pub (.text s) ≠ .ok k) ∧
    combinePrivateKeysOf .py2 H (ss.map .text) = .error .typeError := by
  refine ⟨rfl, fun k h => ?_, ?_⟩
  · unfold sharedSecretOf at h
    simp only [bind_ok_iff] at h
    obtain ⟨_, -, _, -, _, -, _, -, _, h, -⟩ := h
    cases h
  · cases ss with
    | nil => exact absurd rfl hs
    | cons s ss => rfl

/-- **C160 is false of the wallet**: in both versions `Address` takes no key that is text, private or public, though it
takes the same key as bytes. -/
theorem C160_wallet_false (H : Hashes) (b : Bytes) (vcn : Option Int) (rnd : Nat) (testnet : Bool) (hb : b ≠ []) :
    addressOf H none (some (.text (latin1Decode b))) vcn rnd testnet = .error .assertionError ∧
    addressOf H (some (.text (latin1Decode b))) none vcn rnd testnet = .error .assertionError ∧
    addressOf H none (some (.bytes b)) vcn rnd testnet = Address.init H none (some b) vcn rnd testnet ∧
    addressOf H (some (.bytes b)) none vcn rnd testnet = Address.init H (some b) none vcn rnd testnet := by
  cases b with
  | nil => exact absurd rfl hb
  | cons x b => exact ⟨rfl, rfl, rfl, rfl⟩

/-- **C160**, the other way: text is never encoded by `encode_check`; it raises in both versions. -/
theorem C160_encode (ver : PyVer) (H : Hashes) (s : List Char) : ∃ e, encodeCheckOf ver H (.text s) = .error e := by
  cases ver with
  | py3 => exact ⟨_, rfl⟩
  | py2 =>
    unfold encodeCheckOf
    simp only
    by_cases h : ∀ c ∈ s, c.toNat < 128
    · rw [ascii_ok h, ok_bind]
      split
      · exact ⟨_, rfl⟩
      · exact ⟨_, rfl⟩
    · simp only [not_forall] at h
      obtain ⟨d, hd, hd'⟩ := h
      rw [ascii_bad hd (by omega)]
      exact ⟨_, rfl⟩

/-! ### Cases -/

/-- A key as bytes, as text, and as text with a newline; with a Cyrillic letter in place of a Latin one. -/
example :
    let wif := privkeyToWif Hashes.toy (List.replicate 32 7)
    privkeyFromWif Hashes.toy wif = .ok (List.replicate 32 7) ∧
    privkeyFromWifOf .py3 Hashes.toy (.text (latin1Decode wif)) = .ok (List.replicate 32 7) ∧
    privkeyFromWifOf .py2 Hashes.toy (.text (latin1Decode wif)) = .error .typeError ∧
    privkeyFromWifOf .py3 Hashes.toy (.text (latin1Decode wif ++ ['\n'])) = .error .valueError ∧
    privkeyFromWifOf .py2 Hashes.toy (.bytes (wif ++ [10])) = .error .valueError ∧
    privkeyFromWifOf .py3 Hashes.toy (.text ((latin1Decode wif).dropLast ++ ['А'])) = .error .valueError := by
  decide +kernel

example : encodeCheckOf .py2 Hashes.toy (.text ['a', 'b', 'c', 'd']) = .error .typeError ∧
    encodeCheckOf .py2 Hashes.toy (.text ['é']) = .error .valueError ∧
    encodeCheckOf .py3 Hashes.toy (.text ['a']) = .error .typeError ∧
    b58encodeOf .py3 (.text ['a']) = .ok (b58encode [97]) := by
  decide +kernel

end NBC.Props
