import Verif.Props.HDWallet

/-!
# Property C154: opening a wallet with a wrong passphrase
-/

namespace NBC.Props
open NBC Key Ecdsa EC Aes Spec NBC.Secp Wallet

/-! ### The header -/

/-- The value of a hexadecimal digit. -/
def digitValue (c : UInt8) : Option Nat :=
  if 48 ≤ c.toNat ∧ c.toNat ≤ 57 then some (c.toNat - 48)
  else if 65 ≤ c.toNat ∧ c.toNat ≤ 70 then some (c.toNat - 55)
  else if 97 ≤ c.toNat ∧ c.toNat ≤ 102 then some (c.toNat - 87)
  else none

/-- The blanks of ASCII. -/
def Blank (c : UInt8) : Prop := c ∈ [9, 10, 11, 12, 13, (32 : UInt8)]

instance (c : UInt8) : Decidable (Blank c) := inferInstanceAs (Decidable (c ∈ _))

/-- What Python's `int(s, 16)` makes of two bytes: two digits, or one digit with a blank beside it or a sign before it;
everything else is refused. -/
def header (a b : UInt8) : Option Int :=
  match digitValue a, digitValue b with
  | some x, some y => some (16 * x + y)
  | some x, none => if Blank b then some x else none
  | none, some y => if Blank a ∨ a = 43 then some y else if a = 45 then some (-y) else none
  | none, none => none

theorem byte_table (P : UInt8 → Prop) (h : ∀ i < 256, P (UInt8.ofNat i)) (c : UInt8) : P c := by
  have := h c.toNat c.toNat_lt
  rwa [UInt8.ofNat_toNat] at this

theorem header_digit (c : UInt8) : hexVal c = digitValue c ∧ (isSpace c = true ↔ Blank c) ∧
    (Blank c → digitValue c = none ∧ c ≠ 43 ∧ c ≠ 45) ∧ ((c = 43 ∨ c = 45) → digitValue c = none) := by
  revert c
  apply byte_table
  decide +kernel

theorem intOfHex_one (c : UInt8) : intOfHex [c] = match digitValue c with
    | some d => .ok d
    | none => .error .valueError := by
  rw [← (header_digit c).1]
  show (hexStep 0 c >>= fun s => pure s) = _
  unfold hexStep
  cases hexVal c with
  | none => rfl
  | some d => simp [Bind.bind, Except.bind, Pure.pure, Except.pure]

theorem intOfHex_two (a b : UInt8) : intOfHex [a, b] = match digitValue a, digitValue b with
    | some x, some y => .ok (16 * x + y)
    | _, _ => .error .valueError := by
  rw [← (header_digit a).1, ← (header_digit b).1]
  show (hexStep 0 a >>= fun s => hexStep s b >>= fun s => pure s) = _
  unfold hexStep
  cases hexVal a with
  | none => rfl
  | some x => cases hexVal b with
    | none => simp [Bind.bind, Except.bind]
    | some y => simp [Bind.bind, Except.bind, Pure.pure, Except.pure]

/-- The model's `int(s, 16)` on two bytes. -/
theorem intHex_two (a b : UInt8) : intHex [a, b] = match header a b with
    | some v => .ok v
    | none => .error .valueError := by
  obtain ⟨-, ha, ha', ha''⟩ := header_digit a
  obtain ⟨-, hb, hb', hb''⟩ := header_digit b
  have e0 : intOfHex [] = .error .valueError := rfl
  unfold intHex header
  by_cases sa : Blank a
  · obtain ⟨da, a1, a2⟩ := ha' sa
    by_cases sb : Blank b
    · obtain ⟨db, b1, b2⟩ := hb' sb
      simp [List.dropWhile_cons, ha.2 sa, hb.2 sb, da, db, e0, Bind.bind, Except.bind]
    · have sb' : isSpace b = false := by rw [← Bool.not_eq_true, hb]; exact sb
      simp only [List.dropWhile_cons, ha.2 sa, sb', if_true, Bool.false_eq_true, if_false, List.reverse_cons, List.reverse_nil,
        List.nil_append, da, sa, true_or]
      by_cases h1 : b = 43
      · subst h1; rw [hb'' (Or.inl rfl)]; rfl
      · by_cases h2 : b = 45
        · subst h2; rw [hb'' (Or.inr rfl)]; rfl
        · split
          · rename_i heq; cases heq; exact absurd rfl h1
          · rename_i heq; cases heq; exact absurd rfl h2
          · rw [intOfHex_one]
            cases digitValue b <;> rfl
  · have sa' : isSpace a = false := by rw [← Bool.not_eq_true, ha]; exact sa
    by_cases sb : Blank b
    · obtain ⟨db, b1, b2⟩ := hb' sb
      simp only [List.dropWhile_cons, sa', hb.2 sb, if_true, Bool.false_eq_true, if_false, List.reverse_cons, List.reverse_nil,
        List.nil_append, List.cons_append, db, sb]
      by_cases h1 : a = 43
      · subst h1; rw [ha'' (Or.inl rfl)]; rfl
      · by_cases h2 : a = 45
        · subst h2; rw [ha'' (Or.inr rfl)]; rfl
        · split
          · rename_i heq; cases heq; exact absurd rfl h1
          · rename_i heq; cases heq; exact absurd rfl h2
          · rw [intOfHex_one]
            cases digitValue a <;> rfl
    · have sb' : isSpace b = false := by rw [← Bool.not_eq_true, hb]; exact sb
      simp only [List.dropWhile_cons, sa', sb', Bool.false_eq_true, if_false, List.reverse_cons, List.reverse_nil,
        List.nil_append, List.cons_append, sb, sa, false_or]
      by_cases h1 : a = 43
      · subst h1
        rw [ha'' (Or.inl rfl)]
        simp only [intOfHex_one]
        cases digitValue b <;> rfl
      · by_cases h2 : a = 45
        · subst h2
          rw [ha'' (Or.inr rfl)]
          simp only [intOfHex_one]
          cases digitValue b <;> rfl
        · split
          · rename_i heq; cases heq; exact absurd rfl h1
          · rename_i heq; cases heq; exact absurd rfl h2
          · rw [intOfHex_two]
            cases digitValue a <;> cases digitValue b <;> simp [h1, h2, Bind.bind, Except.bind]

/-! ### Decryption never fails, and encryption undoes it -/

/-- The passphrase used: the one given or, if there is none, the one typed. -/
def typed (q prompt : Bytes) : Bytes := if q = [] then prompt else q

theorem cbc_inverse' {A : AES} {E D : Bytes → Bytes} (h : Blk A E D) (s : CBC) (x : Bytes) (hs : cbcInv A s)
    (hx : x.length = 16) : cbcE E s (cbcD D s x).1 = (x, (cbcD D s x).2) := by
  unfold cbcD cbcE
  simp only [xorBytes_cancel (D x) s.last (by rw [h.dlen x hx, hs.2]), h.ed x hx]

theorem runCalls_encrypt_len : ∀ {ds : List Bytes} {s s' : CBC} {os : List Bytes},
    runCalls CBC.encrypt s ds = .ok (os, s') → ∀ d ∈ ds, d.length = 16
  | [], _, _, _, _ => fun d hd => by cases hd
  | d :: ds, s, s', os, h => by
    rw [runCalls, bind_ok_iff] at h
    obtain ⟨⟨o, t⟩, h1, h⟩ := h
    rw [bind_ok_iff] at h
    obtain ⟨⟨os', t'⟩, h2, h⟩ := h
    intro x hx
    rcases List.mem_cons.1 hx with rfl | hx
    · by_contra hne
      unfold CBC.encrypt at h1
      rw [if_pos hne] at h1
      cases h1
    · exact runCalls_encrypt_len h2 x hx

theorem padded_whole (s : Bytes) (h : s.length % 16 = 0) : padded s = s := by
  unfold padded
  rw [h]
  simp

/-- Under every passphrase, every text of 1 to 15 blocks decrypts to one that encrypts to it. -/
theorem decrypt_total (ver : PyVer) (c q prompt : Bytes) (h0 : c ≠ []) (h16 : c.length % 16 = 0) (hl : c.length ≤ 240) :
    ∃ pt, aesDecrypt ver c q prompt = .ok pt ∧ pt.length = c.length ∧ aesEncrypt ver pt (typed q prompt) = .ok c := by
  have hpos : 0 < c.length := List.length_pos_iff.2 h0
  obtain ⟨A, hA⟩ := cbc_ok ver (typed q prompt)
  obtain ⟨B, E, D, hb, hs⟩ := cbc_of_init hA
  obtain ⟨hm, hall, hf⟩ := slices16_spec (c.length / 16) c (by omega)
  obtain ⟨outs, t, e1, e2⟩ := roundTrip_units (enc := CBC.decrypt) (dec := CBC.encrypt) (cbc_unit_dec hb) (cbc_unit hb)
    (P := fun c => c.length = 16) (fun d hd => by rw [hd]) (fun d d' h h' => by rw [← h, h'])
    (fun s x hs hx => by rw [cbcDecrypt_eq hb s hs x hx, runUnits_one (by omega) _ _ x hx])
    (fun s x hs hx => by rw [cbcEncrypt_eq hb s hs x hx, runUnits_one (by omega) _ _ x hx])
    (cbc_inverse' hb) A hs _ hall
  obtain ⟨h1, h2⟩ := slices16_flatten outs (runCalls_encrypt_len e2)
  have h3 : outs.length = c.length / 16 := by rw [runCalls_length e1, hm]
  rw [h3] at h1 h2
  have h4 : outs.flatten.length = c.length := by omega
  refine ⟨outs.flatten, ?_, h4, ?_⟩
  · unfold aesDecrypt
    simp only
    rw [if_neg (by omega)]
    show (CBC.init ver (passKey (typed q prompt)) none >>= _) = _
    rw [hA, ok_bind, e1, ok_bind]
  · rw [aesEncrypt_eq, hA, ok_bind, padded_whole _ (by omega), show (outs.flatten.length + 15) / 16 = c.length / 16 by omega,
      h1, e2, ok_bind]
    simp only [hf]

theorem decrypt_iff (ver : PyVer) (c q prompt pt : Bytes) : aesDecrypt ver c q prompt = .ok pt ↔
    pt ≠ [] ∧ pt.length % 16 = 0 ∧ pt.length ≤ 240 ∧ aesEncrypt ver pt (typed q prompt) = .ok c := by
  constructor
  · intro h
    by_cases hc : c.length / 16 = 0 ∨ c.length / 16 ≥ 16 ∨ c.length % 16 ≠ 0
    · unfold aesDecrypt at h
      simp only at h
      rw [if_pos hc] at h
      cases h
    · have h0 : c ≠ [] := fun h => hc (Or.inl (by rw [h]; rfl))
      obtain ⟨pt', e1, e2, e3⟩ := decrypt_total ver c q prompt h0 (by omega) (by omega)
      rw [e1] at h
      cases h
      refine ⟨fun h => ?_, by omega, by omega, e3⟩
      rw [h] at e2
      exact h0 (List.length_eq_zero_iff.1 e2.symm)
  · rintro ⟨h0, h16, hl, h⟩
    obtain ⟨c', e1, -, e2⟩ := aes_roundtrip ver pt (typed q prompt)
    rw [h] at e1
    cases e1
    rw [e2 h0 hl q prompt rfl, padded_whole pt h16]

/-! ### What opens -/

/-- `c` is what the cipher makes, under the passphrase `p`, of a text in which a secret `s` is found: the header, the
secret and at most fifteen bytes of any value, in whole blocks.  (The header may also be a sign and the digit one, and the
secret is then empty.) -/
def Holds (ver : PyVer) (p c s : Bytes) : Prop :=
  ∃ a b pad, ((header a b = some (s.length : Int) ∧ pad.length ≤ 15) ∨ (header a b = some (-1) ∧ s = [] ∧ pad.length = 14)) ∧
    (2 + s.length + pad.length) % 16 = 0 ∧ 2 + s.length + pad.length ≤ 240 ∧
    aesEncrypt ver (a :: b :: (s ++ pad)) p = .ok c

/-- C154: the secret a passphrase finds in an encrypted text.  Nothing but the header tells a right passphrase from a
wrong one: the padding may be anything, and there is no checksum over the text. -/
theorem C154_secret (ver : PyVer) (c q prompt s : Bytes) :
    loadSecret ver (hexlify c) true q prompt = .ok s ↔ Holds ver (typed q prompt) c s := by
  unfold loadSecret
  rw [unhexlify_hexlify, ok_bind]
  simp only [if_true]
  rw [bind_ok_iff]
  constructor
  · rintro ⟨pt, h1, h2⟩
    obtain ⟨h0, h16, hl, he⟩ := (decrypt_iff ver c q prompt pt).1 h1
    have hpos : 0 < pt.length := List.length_pos_iff.2 h0
    match pt, hpos, h16 with
    | a :: b :: r, _, h16 =>
      simp only [List.take_succ_cons, List.take_zero, intHex_two] at h2
      cases hh : header a b with
      | none => rw [hh] at h2; cases h2
      | some v =>
        rw [hh] at h2
        simp only [List.length_cons] at h2 h16 hl
        split_ifs at h2 with hc
        push Not at hc
        injection h2 with h2
        obtain ⟨c1, c2⟩ := hc
        by_cases hv : 0 ≤ v
        · obtain ⟨l, rfl⟩ := Int.eq_ofNat_of_zero_le hv
          have hs : s = r.take l := by
            rw [← h2]
            unfold slice2
            rw [if_neg (by omega), show ((2 : Int) + (l : Nat)).toNat = l + 2 by omega]
            rfl
          have hsl : s.length = l := by rw [hs, List.length_take]; omega
          refine ⟨a, b, r.drop l, Or.inl ⟨by rw [hh, hsl], by rw [List.length_drop]; omega⟩, ?_, ?_, ?_⟩
          · rw [hsl, List.length_drop, show 2 + l + (r.length - l) = r.length + 1 + 1 by omega]; exact h16
          · rw [hsl, List.length_drop]; omega
          · rw [hs, List.take_append_drop]; exact he
        · have hv1 : v = -1 := by omega
          have hr : r.length = 14 := by omega
          have hs : s = [] := by
            rw [← h2, hv1]
            unfold slice2
            rw [if_neg (by omega)]
            rfl
          subst hs
          exact ⟨a, b, r, Or.inr ⟨by rw [hh, hv1], rfl, hr⟩, by simp [hr], by simp [hr], he⟩
  · rintro ⟨a, b, pad, hh, h16, hl, he⟩
    refine ⟨a :: b :: (s ++ pad), (decrypt_iff ver c q prompt _).2 ⟨by simp, ?_, ?_, he⟩, ?_⟩
    · simp only [List.length_cons, List.length_append]; omega
    · simp only [List.length_cons, List.length_append]; omega
    · simp only [List.take_succ_cons, List.take_zero, intHex_two]
      rcases hh with ⟨hh, hp⟩ | ⟨hh, rfl, hp⟩
      · rw [hh]
        simp only [List.length_cons, List.length_append]
        rw [if_neg (by push_cast; omega)]
        congr 1
        exact slice2_eq [a, b] s pad rfl
      · rw [hh]
        simp only [List.nil_append, List.length_cons, hp]
        rfl

theorem hexlify_ne {c : Bytes} (h : c ≠ []) : hexlify c ≠ [] := by
  intro h0
  have := unhexlify_hexlify c
  rw [h0] at this
  exact h (Except.ok.inj this).symm

/-- C154, wallets of one address: a passphrase opens the file if and only if the text it finds is, after the header, a
private key in its text form, which has a checksum of four bytes (`C05_wif_sound`); the wallet is then that of this key. -/
theorem C154_address (ver : PyVer) (H : Hashes) (c q prompt : Bytes) (hc : c ≠ []) (vcn : Int) (tn : Bool) (rnd : Nat) :
    (∀ w, (∃ a, Address.load ver H ⟨true, vcn, tn, some (hexlify c), none⟩ q prompt rnd = .ok a ∧ a.privKey = some w) ↔
      Holds ver (typed q prompt) c w ∧ ∃ k, k.length = 32 ∧ ¬ n ∣ bytesVal k ∧
        (w = privkeyToWif H k ∨ w = privkeyToWif H (k ++ [1]))) ∧
    (∀ a, Address.load ver H ⟨true, vcn, tn, some (hexlify c), none⟩ q prompt rnd = .ok a → a.privKey ≠ none) := by
  have hl : ∀ a, Address.load ver H ⟨true, vcn, tn, some (hexlify c), none⟩ q prompt rnd = .ok a ↔
      ∃ s, Holds ver (typed q prompt) c s ∧ Address.init H none (some s) (some vcn) rnd tn = .ok a := by
    intro a
    unfold Address.load
    simp only
    rw [if_pos (hexlify_ne hc), bind_ok_iff]
    simp only [C154_secret]
  have hnone : ∀ a, Address.init H none (some []) (some vcn) rnd tn ≠ .ok a := by
    intro a h
    cases h
  have hinv : ∀ s a, Address.init H none (some s) (some vcn) rnd tn = .ok a → a.privKey = some s ∧
      ∃ k, k.length = 32 ∧ ¬ n ∣ bytesVal k ∧ (s = privkeyToWif H k ∨ s = privkeyToWif H (k ++ [1])) := by
    intro s a h
    by_cases hs : s = []
    · subst hs
      exact absurd h (hnone a)
    · obtain ⟨-, comp, k, x, y, hk, hn, hw, -, ha⟩ := init_priv_inv hs h
      refine ⟨by rw [ha]; rfl, k, hk, hn, ?_⟩
      rw [hw]
      unfold wifText
      cases comp
      · exact Or.inl rfl
      · exact Or.inr rfl
  refine ⟨fun w => ⟨?_, ?_⟩, ?_⟩
  · rintro ⟨a, h, hw⟩
    obtain ⟨s, hs, hi⟩ := (hl a).1 h
    obtain ⟨h1, h2⟩ := hinv s a hi
    rw [hw] at h1
    cases h1
    exact ⟨hs, h2⟩
  · rintro ⟨hs, k, hk, hn, hw⟩
    have hw' : ∃ comp, w = wifText H comp k := by
      rcases hw with hw | hw
      · exact ⟨false, hw⟩
      · exact ⟨true, hw⟩
    obtain ⟨comp, rfl⟩ := hw'
    obtain ⟨x, y, -, hi⟩ := init_wif H comp k hk hn
    exact ⟨_, (hl _).2 ⟨_, hs, hi _ _ _⟩, rfl⟩
  · intro a h
    obtain ⟨s, hs, hi⟩ := (hl a).1 h
    rw [(hinv s a hi).1]
    exact Option.some_ne_none _

/-- C154, HD wallets: there is no checksum at all; whatever number the bytes after the header are is the key, if it is in
the range of private keys. -/
theorem C154_hd (ver : PyVer) (w : HDWallet) (hw : HDMade w) (c q prompt : Bytes) (hc : c ≠ []) (k : Int) :
    HDWallet.load ver ⟨true, hexlify w.chain, w.vcn, w.testnet, w.depth, hexlify w.parentFp, w.childnum, some (hexlify c), none⟩
      q prompt = .ok { w with key := .prv k, parentfp := w.parentFp } ↔
    1 ≤ k ∧ k < n ∧ ∃ s, Holds ver (typed q prompt) c s ∧ (bytesVal s : Int) = k := by
  have hkey : ∀ k, HDCfg.key ver ⟨true, hexlify w.chain, w.vcn, w.testnet, w.depth, hexlify w.parentFp, w.childnum,
      some (hexlify c), none⟩ q prompt = .ok (.prv k) ↔
      1 ≤ k ∧ ∃ s, Holds ver (typed q prompt) c s ∧ (bytesVal s : Int) = k := by
    intro k
    unfold HDCfg.key
    simp only [Option.getD_some]
    have hne := hexlify_ne hc
    have hsec := fun s => C154_secret ver c q prompt s
    generalize hexlify c = t at hne hsec
    cases t with
    | nil => exact absurd rfl hne
    | cons x t =>
      simp only
      rw [bind_ok_iff]
      constructor
      · rintro ⟨s, h1, h2⟩
        rw [bind_ok_iff] at h2
        obtain ⟨m, h2, h3⟩ := h2
        have hs : s ≠ [] := by
          rintro rfl
          cases h2
        rw [stringToNumber_eq s hs] at h2
        cases h2
        split_ifs at h3 with h0
        cases h3
        exact ⟨by omega, s, (hsec s).1 h1, rfl⟩
      · rintro ⟨h1, s, h2, rfl⟩
        have hs : s ≠ [] := by
          rintro rfl
          exact absurd h1 (by decide)
        refine ⟨s, (hsec s).2 h2, ?_⟩
        rw [stringToNumber_eq s hs, ok_bind, if_neg (by omega)]
  constructor
  · intro h
    have h' := h
    unfold HDWallet.load at h
    rw [bind_ok_iff] at h
    obtain ⟨key, h1, h⟩ := h
    rw [bind_ok_iff] at h
    obtain ⟨ch, h2, h⟩ := h
    rw [bind_ok_iff] at h
    obtain ⟨fp, h3, h⟩ := h
    obtain ⟨g1, -, -, g2, -⟩ := init_inv h
    simp only at g2
    rw [← g2] at h1
    obtain ⟨k1, k2⟩ := (hkey k).1 h1
    exact ⟨k1, (g1 k g2.symm).2, k2⟩
  · rintro ⟨h1, h2, h3⟩
    exact hd_load_eq hw (by rintro k' hk'; injection hk' with hk'; subst hk'; exact ⟨h1, h2⟩) ((hkey k).2 ⟨h1, h3⟩)
      rfl rfl rfl rfl rfl rfl

theorem header_32 : header 50 48 = some 32 := by decide +kernel

/-- C154, how many files open: under every passphrase, each of the `n - 1` private keys is what is found in `256 ^ 14`
files of 48 bytes (the length that is written), all of them different.  So a passphrase tried at random finds a wallet in
one of about 65536 cases. -/
theorem C154_hd_many (ver : PyVer) (p : Bytes) (hp : p ≠ []) : ∃ f : Nat → Bytes → Bytes,
    (∀ k pad, 1 ≤ k → k < n → pad.length = 14 → (f k pad).length = 48 ∧
      ∀ (w : HDWallet) (_ : HDMade w) prompt,
        HDWallet.load ver ⟨true, hexlify w.chain, w.vcn, w.testnet, w.depth, hexlify w.parentFp, w.childnum,
          some (hexlify (f k pad)), none⟩ p prompt = .ok { w with key := .prv k, parentfp := w.parentFp }) ∧
    ∀ k pad k' pad', k < n → k' < n → pad.length = 14 → pad'.length = 14 → f k pad = f k' pad' → k = k' ∧ pad = pad' := by
  have h := fun k pad => aes_roundtrip ver (50 :: 48 :: (beBytes 32 k ++ pad)) p
  have hlen : ∀ (k : Nat) (pad : Bytes), pad.length = 14 → (50 :: 48 :: (beBytes 32 k ++ pad)).length = 48 := by
    intro k pad hl
    rw [List.length_cons, List.length_cons, List.length_append, beBytes_length, hl]
  choose f hf using h
  refine ⟨f, fun k pad h1 h2 hl => ?_, fun k pad k' pad' h2 h2' hl hl' he => ?_⟩
  · obtain ⟨e1, e2, -⟩ := hf k pad
    have hlen : (f k pad).length = 48 := by rw [e2, hlen k pad hl]
    refine ⟨hlen, fun w hw prompt => ?_⟩
    refine (C154_hd ver w hw _ p prompt (by intro h0; rw [h0] at hlen; cases hlen) k).2
      ⟨by exact_mod_cast h1, by exact_mod_cast h2, beBytes 32 k, ⟨50, 48, pad, Or.inl ⟨?_, by omega⟩, ?_, ?_, ?_⟩, ?_⟩
    · rw [beBytes_length]; exact header_32
    · rw [beBytes_length, hl]
    · rw [beBytes_length, hl]; omega
    · rw [typed, if_neg hp]; exact e1
    · rw [bytesVal_beBytes_of_lt (lt_trans h2 Piecewise.n_lt)]
  · obtain ⟨-, -, e3⟩ := hf k pad
    obtain ⟨-, -, e3'⟩ := hf k' pad'
    have d1 := e3 (by simp) (by rw [hlen k pad hl]; omega) p [] (by rw [if_neg hp])
    have d2 := e3' (by simp) (by rw [hlen k' pad' hl']; omega) p [] (by rw [if_neg hp])
    rw [he, d2] at d1
    injection d1 with d1
    rw [padded_whole _ (by rw [hlen k' pad' hl']), padded_whole _ (by rw [hlen k pad hl])] at d1
    injection d1 with _ d1
    injection d1 with _ d1
    obtain ⟨d1, d2⟩ := List.append_inj d1 (by simp)
    have := congrArg bytesVal d1
    rw [bytesVal_beBytes_of_lt (lt_trans h2 Piecewise.n_lt), bytesVal_beBytes_of_lt (lt_trans h2' Piecewise.n_lt)] at this
    exact ⟨this.symm, d2.symm⟩

/-! ### It does happen -/

theorem xorBytes_zero : ∀ (n : Nat) (b : Bytes), b.length = n → xorBytes b (List.replicate n 0) = b
  | 0, b, h => by rw [List.length_eq_zero_iff.1 h]; rfl
  | n + 1, [], h => by cases h
  | n + 1, x :: b, h => by
    have ih := xorBytes_zero n b (by simpa using h)
    unfold xorBytes at ih ⊢
    rw [List.replicate_succ, List.zipWith_cons_cons, ih, UInt8.xor_zero]

/-- The first block of the result is the first block of the text, encrypted by FIPS-197. -/
theorem encrypt_first (ver : PyVer) (s p c : Bytes) (hs : s ≠ []) (h : aesEncrypt ver s p = .ok c) :
    Spec.Aes.encryptBlock (passKey p) ((padded s).take 16) = some (c.take 16) := by
  have hpos : 0 < s.length := List.length_pos_iff.2 hs
  obtain ⟨A, hA, hE⟩ := C37_fips197_partial ver (passKey p) (Or.inl (passKey_length p))
  have hi : CBC.init ver (passKey p) none = .ok ⟨A, List.replicate 16 0⟩ := by
    unfold CBC.init
    rw [hA]
    rfl
  obtain ⟨m, hm⟩ : ∃ m, (s.length + 15) / 16 = m + 1 := ⟨(s.length + 15) / 16 - 1, by omega⟩
  rw [aesEncrypt_eq, hi, ok_bind, hm, slices16_succ, runCalls] at h
  have hl : ((padded s).take 16).length = 16 := by
    rw [List.length_take, padded_length]
    omega
  obtain ⟨⟨b, hb1, hb2⟩, -⟩ := hE _ hl
  have he : CBC.encrypt ⟨A, List.replicate 16 0⟩ ((padded s).take 16) = .ok (b, ⟨A, b⟩) := by
    unfold CBC.encrypt
    simp only
    rw [if_neg (by omega), xorBytes_zero 16 _ hl, hb2]
    rfl
  rw [he, ok_bind] at h
  simp only [bind_ok_iff] at h
  obtain ⟨⟨os, t⟩, ⟨⟨os', t'⟩, -, h1⟩, h2⟩ := h
  cases h1
  cases h2
  have hbl : b.length = 16 := by
    unfold Spec.Aes.encryptBlock at hb1
    obtain ⟨st, hst, -⟩ := toState_isSome hl
    rw [hst] at hb1
    cases hb1
    rfl
  rw [hb1, List.flatten_cons, List.take_left' hbl]

theorem encryptBlock_inj (key b b' c : Bytes) (hk : key.length = 16) (hb : b.length = 16) (hb' : b'.length = 16)
    (h : Spec.Aes.encryptBlock key b = some c) (h' : Spec.Aes.encryptBlock key b' = some c) : b = b' := by
  obtain ⟨A, hA, hE⟩ := C37_fips197_partial .py2 key (Or.inl hk)
  obtain ⟨A', hA', hD⟩ := C36_decrypt_encrypt_partial .py2 key (Or.inl hk)
  rw [hA] at hA'
  cases hA'
  obtain ⟨⟨c1, e1, f1⟩, -⟩ := hE b hb
  obtain ⟨⟨c2, e2, f2⟩, -⟩ := hE b' hb'
  obtain ⟨⟨c3, e3, -, g3⟩, -⟩ := hD b hb
  obtain ⟨⟨c4, e4, -, g4⟩, -⟩ := hD b' hb'
  rw [h] at e1; cases e1
  rw [h'] at e2; cases e2
  rw [f1] at e3; cases e3
  rw [f2] at e4; cases e4
  rw [g3] at g4
  exact Except.ok.inj g4

/-- The first fourteen bytes of the private key of the first test vector of BIP32. -/
def vectorStart : Bytes := [0xe8, 0xf3, 0x2e, 0x72, 0x3d, 0xec, 0xf4, 0x05, 0x1a, 0xef, 0xac, 0x8e, 0x2c, 0x93]

/-- The first block of the file, and what the other passphrase finds in it. -/
def vectorBlock : Bytes :=
  [0xd8, 0xd3, 0xab, 0xdd, 0x6f, 0x06, 0x36, 0x56, 0xa1, 0x9c, 0x0f, 0x11, 0x00, 0x93, 0x62, 0xba]

def wrongStart : Bytes := [0xc7, 0x98, 0x1d, 0x12, 0xcb, 0xa4, 0x66, 0x3a, 0x17, 0xfe, 0xfe, 0x49, 0x7e, 0xa3]

theorem block_correct : Spec.Aes.encryptBlock (passKey (ascii "correct")) (50 :: 48 :: vectorStart) = some vectorBlock := by
  decide +kernel

theorem block_bain : Spec.Aes.encryptBlock (passKey (ascii "bain")) (50 :: 48 :: wrongStart) = some vectorBlock := by
  decide +kernel

/-- **C154 is false of HD wallets.**  A wallet whose private key begins as that of BIP32's first test vector, saved with the
passphrase `correct`, opens with the passphrase `bain`, as a wallet with another key and with everything else the same. -/
theorem C154_hd_false (ver : PyVer) (w : HDWallet) (hw : HDMade w) (k : Nat) (hk : w.key = .prv k)
    (hs : (beBytes 32 k).take 14 = vectorStart) (prompt : Bytes) :
    ∃ cfg k', w.dump ver (ascii "correct") = .ok cfg ∧
      HDWallet.load ver cfg (ascii "bain") prompt = .ok { w with key := .prv k', parentfp := w.parentFp } ∧ k' ≠ k := by
  obtain ⟨h1, h2⟩ := hw.inv.1 k hk
  have hd : k < n := by exact_mod_cast h2
  obtain ⟨c, hc, hcl, -⟩ := aes_roundtrip ver (50 :: 48 :: beBytes 32 k) (ascii "correct")
  have hcl' : c.length = 48 := by rw [hcl]; simp
  have hne : c ≠ [] := by intro h0; rw [h0] at hcl'; cases hcl'
  have hdump : w.dump ver (ascii "correct") = .ok ⟨true, hexlify w.chain, w.vcn, w.testnet, w.depth, hexlify w.parentFp,
      w.childnum, some (hexlify c), none⟩ := by
    unfold HDWallet.dump
    rw [hk]
    simp only
    rw [Piecewise.toString_n hd, ok_bind]
    unfold dumpSecret
    rw [beBytes_length]
    have hf : fmtHexPad 2 (32 : Nat) = [50, 48] := by decide +kernel
    have ha : pyAssert (decide (32 ≤ 255)) = .ok () := rfl
    rw [ha, ok_bind]
    have hne' : ascii "correct" ≠ [] := by decide
    simp only [if_pos hne']
    rw [hf, List.cons_append, List.cons_append, List.nil_append, hc]
    rfl
  have hfirst := encrypt_first ver _ _ _ (by simp) hc
  have htake : (padded (50 :: 48 :: beBytes 32 k)).take 16 = 50 :: 48 :: vectorStart := by
    unfold padded
    rw [List.take_append_of_le_length (by simp), List.take_succ_cons, List.take_succ_cons, hs]
  rw [htake, block_correct] at hfirst
  injection hfirst with hfirst
  obtain ⟨pt, -, hpl, hpe⟩ := decrypt_total ver c (ascii "bain") prompt hne (by omega) (by omega)
  have hty : typed (ascii "bain") prompt = ascii "bain" := by rw [typed, if_neg (by decide)]
  rw [hty] at hpe
  have hp0 : pt ≠ [] := by intro h0; rw [h0] at hpl; rw [hcl'] at hpl; cases hpl
  have hsecond := encrypt_first ver _ _ _ hp0 hpe
  rw [← hfirst, padded_whole pt (by omega)] at hsecond
  have hpt := encryptBlock_inj _ _ _ _ (passKey_length _) (by rw [List.length_take]; omega) (by rfl) hsecond block_bain
  obtain ⟨r, rfl⟩ : ∃ r, pt = 50 :: 48 :: (wrongStart ++ r) := by
    refine ⟨pt.drop 16, ?_⟩
    conv_lhs => rw [← List.take_append_drop 16 pt, hpt]
    rfl
  have hrl : r.length = 32 := by
    have h14 : wrongStart.length = 14 := rfl
    simp only [List.length_cons, List.length_append] at hpl
    omega
  have hsl : (wrongStart ++ r.take 18).length = 32 := by
    rw [List.length_append, List.length_take, hrl]; rfl
  have hval : bytesVal (wrongStart ++ r.take 18) < n ∧ 1 ≤ bytesVal (wrongStart ++ r.take 18) ∧
      bytesVal (wrongStart ++ r.take 18) ≠ k := by
    have e := bytesVal_append wrongStart (r.take 18)
    have hlt := bytesVal_lt (r.take 18)
    have ht : (r.take 18).length = 18 := by rw [List.length_take, hrl]; rfl
    rw [ht] at e hlt
    have hw1 : (bytesVal wrongStart + 1) * 256 ^ 18 ≤ n := by decide +kernel
    have hw2 : 1 ≤ bytesVal wrongStart * 256 ^ 18 := by decide +kernel
    refine ⟨?_, ?_, ?_⟩
    · rw [e]
      rw [Nat.add_mul, Nat.one_mul] at hw1
      exact lt_of_lt_of_le (Nat.add_lt_add_left hlt _) hw1
    · rw [e]
      exact le_trans hw2 (Nat.le_add_right _ _)
    · intro h0
      have := beBytes_bytesVal (wrongStart ++ r.take 18)
      rw [hsl, h0] at this
      rw [this] at hs
      rw [List.take_left' (by rfl)] at hs
      exact absurd hs (by decide)
  refine ⟨_, (bytesVal (wrongStart ++ r.take 18) : Nat), hdump, ?_, by exact_mod_cast hval.2.2⟩
  refine (C154_hd ver w hw c (ascii "bain") prompt hne _).2 ⟨by exact_mod_cast hval.2.1, by exact_mod_cast hval.1,
    wrongStart ++ r.take 18, ⟨50, 48, r.drop 18, Or.inl ⟨by rw [hsl]; exact header_32, by rw [List.length_drop]; omega⟩, ?_, ?_, ?_⟩, rfl⟩
  · rw [hsl, List.length_drop, hrl]
  · rw [hsl, List.length_drop, hrl]; omega
  · rw [hty, List.append_assoc, List.take_append_drop]; exact hpe

/-- Such a wallet: the one of the test vector. -/
example : HDMade ⟨.prv 0xe8f32e723decf4051aefac8e2c93c9c5b214313817cdb01a1494b917c8436b35, List.replicate 32 1, 5, false, 0,
      List.replicate 4 0, 0⟩ ∧
    (beBytes 32 0xe8f32e723decf4051aefac8e2c93c9c5b214313817cdb01a1494b917c8436b35).take 14 = vectorStart := by
  refine ⟨⟨.prv 0xe8f32e723decf4051aefac8e2c93c9c5b214313817cdb01a1494b917c8436b35, List.replicate 32 1, some 5, 0, false, none,
    by decide, by decide +kernel⟩, by decide +kernel⟩

/-- Headers that are taken, and some that are not. -/
example : header 50 48 = some 32 ∧ header 32 57 = some 9 ∧ header 57 10 = some 9 ∧ header 45 49 = some (-1) ∧
    header 43 102 = some 15 ∧ header 48 120 = none ∧ header 32 32 = none := by decide +kernel

end NBC.Props
