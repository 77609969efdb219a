import Verif.Props.WrongPass
import Verif.Proofs.WalletBlocks

/-!
# Properties C155 and C156: damage to a wallet file, and what two encrypted files show
-/

namespace NBC.Props
open NBC Key Ecdsa EC Aes Spec NBC.Secp Wallet

/-- The dictionary of an HD wallet with a private key, but for that key. -/
def hdFile (w : HDWallet) (encrypted : Bool) (prv : Bytes) : HDCfg :=
  ⟨encrypted, hexlify w.chain, w.vcn, w.testnet, w.depth, hexlify w.parentFp, w.childnum, some (hexlify prv), none⟩

/-- What is saved with a passphrase and without one. -/
theorem hd_dumped (ver : PyVer) (w : HDWallet) (hw : HDMade w) (k : Nat) (hk : w.key = .prv k) :
    (∀ p, p ≠ [] → ∃ c, aesEncrypt ver (50 :: 48 :: beBytes 32 k) p = .ok c ∧ c.length = 48 ∧
      w.dump ver p = .ok (hdFile w true c)) ∧
    w.dump ver [] = .ok (hdFile w false (50 :: 48 :: beBytes 32 k)) := by
  obtain ⟨h1, h2⟩ := hw.inv.1 k hk
  have hd : k < n := by exact_mod_cast h2
  have hf : fmtHexPad 2 (32 : Nat) = [50, 48] := by decide +kernel
  have ha : pyAssert (decide (32 ≤ 255)) = .ok () := rfl
  constructor
  · intro p hp
    obtain ⟨c, hc, hcl, -⟩ := aes_roundtrip ver (50 :: 48 :: beBytes 32 k) p
    refine ⟨c, hc, by rw [hcl]; simp, ?_⟩
    unfold HDWallet.dump
    rw [hk]
    simp only
    rw [Piecewise.toString_n hd, ok_bind]
    unfold dumpSecret
    rw [beBytes_length, ha, ok_bind]
    simp only [if_pos hp]
    rw [hf, List.cons_append, List.cons_append, List.nil_append, hc]
    rfl
  · unfold HDWallet.dump
    rw [hk]
    simp only
    rw [Piecewise.toString_n hd, ok_bind]
    unfold dumpSecret
    rw [beBytes_length, ha, ok_bind]
    simp only [ne_eq, not_true_eq_false, if_false]
    rw [hf]
    rfl

theorem head_range (s r : Bytes) (hs : s.length = 14) (hr : r.length = 18) (h0 : s ≠ List.replicate 14 0)
    (h1 : s ≠ List.replicate 14 255) : 1 ≤ bytesVal (s ++ r) ∧ bytesVal (s ++ r) < n := by
  have e := bytesVal_append s r
  have hlt := bytesVal_lt r
  rw [hr] at e hlt
  have hn : (256 ^ 14 - 1) * 256 ^ 18 ≤ n := by decide +kernel
  have hz : bytesVal (List.replicate 14 0) = 0 := by decide +kernel
  have hm : bytesVal (List.replicate 14 255) = 256 ^ 14 - 1 := by decide +kernel
  have hsl := bytesVal_lt s
  rw [hs] at hsl
  have inj : ∀ t : Bytes, t.length = 14 → bytesVal s = bytesVal t → s = t := by
    intro t ht h
    rw [← beBytes_bytesVal s, ← beBytes_bytesVal t, hs, ht, h]
  have p0 : bytesVal s ≠ 0 := fun h => h0 (inj _ rfl (by rw [h, hz]))
  have p1 : bytesVal s ≠ 256 ^ 14 - 1 := fun h => h1 (inj _ rfl (by rw [h, hm]))
  have hpos : 0 < 256 ^ 18 := by positivity
  constructor
  · rw [e]
    exact le_trans (Nat.mul_pos (Nat.pos_of_ne_zero p0) hpos) (Nat.le_add_right _ _)
  · rw [e]
    have : bytesVal s + 1 ≤ 256 ^ 14 - 1 := by
      generalize 256 ^ 14 = m at *
      omega
    refine lt_of_lt_of_le (Nat.add_lt_add_left hlt _) (le_trans ?_ hn)
    calc bytesVal s * 256 ^ 18 + 256 ^ 18 = (bytesVal s + 1) * 256 ^ 18 := by rw [Nat.add_mul, Nat.one_mul]
      _ ≤ _ := Nat.mul_le_mul_right _ this

theorem take_head (B r : Bytes) (h : B = B.take 14 ++ r.take 18) (h14 : (B.take 14).length = 14) :
    (50 :: 48 :: (B.take 14 ++ r)).take (16 * 2) = (50 :: 48 :: B).take (16 * 2) := by
  have h30 : (B.take 14 ++ r).take 30 = B.take 30 := by
    conv_rhs => rw [h]
    rw [List.take_append, List.take_append, h14, List.take_take]
    congr 1
    rw [List.take_take]
    rfl
  rw [show 16 * 2 = 30 + 1 + 1 by rfl, List.take_succ_cons, List.take_succ_cons, List.take_succ_cons, List.take_succ_cons, h30]

/-- **C155 is false of encrypted HD wallets.**  Of the 48 bytes in the file the last 32 may be replaced by anything at all: the
file opens with the same passphrase, as a wallet with whatever key is found then and everything else as before; if one of the
middle sixteen bytes was changed it is another key.  (The first fourteen bytes of the key must not be all zero or all 255:
then the key that is found may be out of range.) -/
theorem C155_hd_false (ver : PyVer) (w : HDWallet) (hw : HDMade w) (k : Nat) (hk : w.key = .prv k)
    (h0 : (beBytes 32 k).take 14 ≠ List.replicate 14 0) (h1 : (beBytes 32 k).take 14 ≠ List.replicate 14 255)
    (p : Bytes) (hp : p ≠ []) : ∃ c, c.length = 48 ∧ w.dump ver p = .ok (hdFile w true c) ∧
      ∀ c', c'.length = 48 → c'.take 16 = c.take 16 → ∃ k' : Nat,
        (∀ prompt, HDWallet.load ver (hdFile w true c') p prompt = .ok { w with key := .prv k', parentfp := w.parentFp }) ∧
        (c'.take 32 ≠ c.take 32 → k' ≠ k) := by
  obtain ⟨c, hc, hcl, hdump⟩ := (hd_dumped ver w hw k hk).1 p hp
  refine ⟨c, hcl, hdump, fun c' hl ht => ?_⟩
  have hne : c' ≠ [] := by intro h0; rw [h0] at hl; cases hl
  obtain ⟨pt, -, hpl, hpe⟩ := decrypt_total ver c' p [] hne (by omega) (by omega)
  have hty : ∀ prompt, typed p prompt = p := fun prompt => by rw [typed, if_neg hp]
  rw [hty] at hpe
  have hpre := encrypt_prefix ver p _ _ _ _ hpe hc
  have e1 := (hpre 1).1 ht
  rw [padded_whole pt (by omega)] at e1 hpre
  have hpad : ∀ m, m ≤ 32 → (padded (50 :: 48 :: beBytes 32 k)).take m = (50 :: 48 :: beBytes 32 k).take m := by
    intro m hm
    unfold padded
    rw [List.take_append_of_le_length (by simp; omega)]
  rw [hpad _ (by omega), show 16 * 1 = 14 + 1 + 1 by rfl, List.take_succ_cons, List.take_succ_cons] at e1
  obtain ⟨r, rfl⟩ : ∃ r, pt = 50 :: 48 :: ((beBytes 32 k).take 14 ++ r) := by
    refine ⟨pt.drop 16, ?_⟩
    conv_lhs => rw [← List.take_append_drop 16 pt]
    rw [e1]
    rfl
  have h14 : ((beBytes 32 k).take 14).length = 14 := by rw [List.length_take, beBytes_length]; rfl
  have hrl : r.length = 32 := by
    simp only [List.length_cons, List.length_append, h14] at hpl
    omega
  have ht : (r.take 18).length = 18 := by rw [List.length_take, hrl]; rfl
  have hsl : ((beBytes 32 k).take 14 ++ r.take 18).length = 32 := by rw [List.length_append, h14, ht]
  obtain ⟨v1, v2⟩ := head_range _ _ h14 ht h0 h1
  refine ⟨bytesVal ((beBytes 32 k).take 14 ++ r.take 18), fun prompt => ?_, fun hdiff hkk => hdiff ?_⟩
  · refine (C154_hd ver w hw c' p prompt hne _).2 ⟨by exact_mod_cast v1, by exact_mod_cast v2,
      (beBytes 32 k).take 14 ++ r.take 18, ⟨50, 48, r.drop 18, Or.inl ⟨by rw [hsl]; exact header_32, by rw [List.length_drop]; omega⟩, ?_, ?_, ?_⟩, rfl⟩
    · rw [hsl, List.length_drop, hrl]
    · rw [hsl, List.length_drop, hrl]; omega
    · rw [hty, List.append_assoc, List.take_append_drop]; exact hpe
  · refine (hpre 2).2 ?_
    rw [hpad _ (by omega)]
    have := beBytes_bytesVal ((beBytes 32 k).take 14 ++ r.take 18)
    rw [hsl, hkk] at this
    exact take_head _ _ this h14

/-- A wallet and a change: whatever is written over the last 32 bytes, it opens. -/
example : (beBytes 32 0xe8f32e723decf4051aefac8e2c93c9c5b214313817cdb01a1494b917c8436b35).take 14 ≠ List.replicate 14 0 ∧
    (beBytes 32 0xe8f32e723decf4051aefac8e2c93c9c5b214313817cdb01a1494b917c8436b35).take 14 ≠ List.replicate 14 255 := by
  decide +kernel

/-- **C155 is false of HD wallets saved without a passphrase**: the digits of every other key of the range are taken. -/
theorem C155_plain_false (ver : PyVer) (w : HDWallet) (hw : HDMade w) (k : Nat) (hk : w.key = .prv k) (k' : Nat)
    (h1 : 1 ≤ k') (h2 : k' < n) (p prompt : Bytes) :
    w.dump ver [] = .ok (hdFile w false (50 :: 48 :: beBytes 32 k)) ∧
    HDWallet.load ver (hdFile w false (50 :: 48 :: beBytes 32 k')) p prompt =
      .ok { w with key := .prv k', parentfp := w.parentFp } := by
  refine ⟨(hd_dumped ver w hw k hk).2, ?_⟩
  have hv : bytesVal (beBytes 32 k') = k' := bytesVal_beBytes_of_lt (lt_trans h2 Piecewise.n_lt)
  have hsec : loadSecret ver (hexlify (50 :: 48 :: beBytes 32 k')) false p prompt = .ok (beBytes 32 k') := by
    unfold loadSecret
    rw [unhexlify_hexlify, ok_bind]
    simp only [Bool.false_eq_true, if_false, ok_bind, List.take_succ_cons, List.take_zero, intHex_two]
    rw [header_32]
    simp only [List.length_cons, beBytes_length]
    rw [if_neg (by decide)]
    have := slice2_eq [50, 48] (beBytes 32 k') [] rfl
    rw [List.append_nil, beBytes_length] at this
    exact congrArg Except.ok this
  have hkey : (hdFile w false (50 :: 48 :: beBytes 32 k')).key ver p prompt = .ok (.prv k') := by
    unfold hdFile HDCfg.key
    simp only [Option.getD_some]
    have hne := hexlify_ne (c := 50 :: 48 :: beBytes 32 k') (by simp)
    generalize hexlify (50 :: 48 :: beBytes 32 k') = t at hne hsec
    cases t with
    | nil => exact absurd rfl hne
    | cons x t =>
      simp only
      rw [hsec, ok_bind, stringToNumber_eq _ (by intro h; have := beBytes_length 32 k'; rw [h] at this; cases this), ok_bind, hv,
        if_neg (by omega)]
  exact hd_load_eq hw (by rintro k'' h; injection h with h; subst h; exact ⟨by exact_mod_cast h1, by exact_mod_cast h2⟩) hkey
    rfl rfl rfl rfl rfl rfl

/-- **C155 is false of the chain code**, from which all the keys of an HD wallet are derived: it is stored as it is, also in an
encrypted file, and every other one of 32 bytes is taken. -/
theorem C155_chain_false (ver : PyVer) (w : HDWallet) (k : Int) (hw : HDMade w) (hk : w.key = .prv k) (p : Bytes) :
    ∃ cfg, w.dump ver p = .ok cfg ∧ ∀ chain : Bytes, chain.length = 32 → ∀ prompt,
      HDWallet.load ver { cfg with chain := hexlify chain } p prompt =
        .ok { w with chain := chain, parentfp := w.parentFp } := by
  obtain ⟨cfg, h, hl⟩ := C46_private_partial ver w k hw hk p
  refine ⟨cfg, h, fun chain hch prompt => ?_⟩
  have hl' := hl prompt
  unfold HDWallet.load at hl' ⊢
  rw [bind_ok_iff] at hl'
  obtain ⟨key, e1, hl'⟩ := hl'
  rw [bind_ok_iff] at hl'
  obtain ⟨ch, e2, hl'⟩ := hl'
  rw [bind_ok_iff] at hl'
  obtain ⟨fp, e3, hl'⟩ := hl'
  have e1' : HDCfg.key ver { cfg with chain := hexlify chain } p prompt = .ok key := e1
  rw [e1', ok_bind, unhexlify_hexlify, ok_bind, e3, ok_bind]
  obtain ⟨g1, -, g2, g3, -, g4, g5, g6⟩ := init_inv hl'
  simp only [Option.getD_some, Prod.mk.injEq] at g2 g3 g4 g5 g6
  obtain ⟨g6, g7, g8⟩ := g6
  rw [init_ok' _ _ _ g1 hch _ _ _ (by rw [← g6]; exact g2), ← g3, ← g4, ← g5, ← g6, ← g7, ← g8]

/-! ### What is noticed -/

theorem digit_prefix : ∀ l < 256, ∃ d, intHex ((fmtHexPad 2 (l : Nat)).take 1) = .ok d ∧ 0 ≤ d := by
  have : ∀ l < 256, (match intHex ((fmtHexPad 2 (l : Nat)).take 1) with | .ok d => decide (0 ≤ d) | .error _ => false) = true := by
    decide +kernel
  intro l hl
  have h := this l hl
  cases e : intHex ((fmtHexPad 2 (l : Nat)).take 1) with
  | error _ => rw [e] at h; cases h
  | ok d => rw [e] at h; exact ⟨d, rfl, by simpa using h⟩

/-- A beginning of the text that is shorter than the header says has no header, or one that is too large. -/
theorem short_header (t r : Bytes) (l : Nat) (hl : l < 256) (ht : t <+: fmtHexPad 2 (l : Nat) ++ r) (hlen : t.length < 2 + l) :
    ∀ v, intHex (t.take 2) = .ok v → (t.length : Int) < 2 + v := by
  intro v hv
  obtain ⟨p1, p2⟩ := prefix_table l hl
  obtain ⟨u, hu⟩ := ht
  by_cases h0 : t.length = 0
  · rw [List.length_eq_zero_iff.1 h0] at hv
    cases hv
  by_cases h1 : t.length = 1
  · obtain ⟨d, hd, hd'⟩ := digit_prefix l hl
    have : t.take 2 = (fmtHexPad 2 (l : Nat)).take 1 := by
      have e : (t ++ u).take 1 = (fmtHexPad 2 (l : Nat) ++ r).take 1 := by rw [hu]
      rw [List.take_left' h1, List.take_append_of_le_length (by omega)] at e
      rw [List.take_of_length_le (by omega), e]
    rw [this, hd] at hv
    cases hv
    omega
  · have : t.take 2 = fmtHexPad 2 (l : Nat) := by
      have e : (t ++ u).take 2 = (fmtHexPad 2 (l : Nat) ++ r).take 2 := by rw [hu]
      rwa [List.take_left' p1, List.take_append_of_le_length (by omega)] at e
    rw [this, p2] at hv
    cases hv
    omega

theorem hexlify_take : ∀ (i : Nat) (b : Bytes), (hexlify b).take (2 * i) = hexlify (b.take i)
  | 0, b => by simp [hexlify]
  | i + 1, [] => by simp [hexlify]
  | i + 1, x :: b => by
    have := hexlify_take i b
    unfold hexlify at this ⊢
    rw [List.take_succ_cons, List.flatMap_cons, List.flatMap_cons, ← this]
    rfl

/-- C155, files that were cut: when digits are missing at the end of the stored secret, of a wallet of either kind and with or
without a passphrase, the file is refused. -/
theorem C155_cut_partial (ver : PyVer) (secret p text : Bytes) (e : Bool) (h : dumpSecret ver secret p = .ok (text, e))
    (j : Nat) (hj : j < text.length) (prompt : Bytes) :
    ∃ err, loadSecret ver (text.take j) e p prompt = .error err := by
  unfold dumpSecret at h
  rw [bind_ok_iff] at h
  obtain ⟨u, h255, h⟩ := h
  rw [pyAssert_ok_iff, decide_eq_true_eq] at h255
  by_cases hodd : j % 2 = 1
  · refine ⟨.binasciiError, ?_⟩
    unfold loadSecret
    rw [unhexlify_odd _ (by rw [List.length_take]; omega)]
    rfl
  obtain ⟨i, rfl⟩ : ∃ i, j = 2 * i := ⟨j / 2, by omega⟩
  cases hres : loadSecret ver (text.take (2 * i)) e p prompt with
  | error err => exact ⟨err, rfl⟩
  | ok s' =>
    exfalso
    have hxl : ∀ b : Bytes, (hexlify b).length = 2 * b.length := by
      intro b
      rw [hexlify_eq, List.length_map]
      simp
    simp only at h
    by_cases hp : p = []
    · rw [if_neg (by simp [hp])] at h
      cases h
      unfold loadSecret at hres
      rw [hexlify_take, unhexlify_hexlify, ok_bind] at hres
      simp only [Bool.false_eq_true, if_false, ok_bind] at hres
      rw [hxl, List.length_append, (prefix_table _ (by omega : secret.length < 256)).1] at hj
      have hs := short_header ((fmtHexPad 2 (secret.length : Nat) ++ secret).take i) secret secret.length (by omega)
        (List.take_prefix _ _) (by rw [List.length_take]; omega)
      cases hv : intHex (((fmtHexPad 2 (secret.length : Nat) ++ secret).take i).take 2) with
      | error _ => rw [hv] at hres; cases hres
      | ok v =>
        rw [hv] at hres
        simp only at hres
        rw [if_pos (Or.inl (hs v hv))] at hres
        cases hres
    · rw [if_pos hp, bind_ok_iff] at h
      obtain ⟨c, hc, h⟩ := h
      cases h
      unfold loadSecret at hres
      rw [hexlify_take, unhexlify_hexlify, ok_bind] at hres
      simp only [if_true] at hres
      rw [bind_ok_iff] at hres
      obtain ⟨pt, hd, hres⟩ := hres
      obtain ⟨h0, h16, -, he⟩ := (decrypt_iff ver _ p prompt pt).1 hd
      rw [typed, if_neg hp] at he
      have p1 := (prefix_table _ (by omega : secret.length < 256)).1
      obtain ⟨c1, e1, e2, -⟩ := aes_roundtrip ver (fmtHexPad 2 (secret.length : Nat) ++ secret) p
      obtain ⟨c2, e3, e4, -⟩ := aes_roundtrip ver pt p
      rw [hc] at e1
      cases e1
      rw [he] at e3
      cases e3
      rw [List.length_append, p1] at e2
      rw [hxl] at hj
      rw [List.length_take] at e4
      have hm : i = 16 * (i / 16) := by omega
      have hpre := (encrypt_prefix ver p _ _ _ _ he hc (i / 16)).1 (by rw [List.take_take, ← hm, Nat.min_self])
      rw [padded_whole pt h16, List.take_of_length_le (by omega)] at hpre
      have hs := short_header pt (secret ++ List.replicate ((16 - (fmtHexPad 2 (secret.length : Nat) ++ secret).length % 16) % 16) 0)
        secret.length (by omega) (by rw [hpre, ← List.append_assoc]; exact List.take_prefix _ _) (by omega)
      cases hv : intHex (pt.take 2) with
      | error _ => rw [hv] at hres; cases hres
      | ok v =>
        rw [hv] at hres
        simp only at hres
        rw [if_pos (Or.inl (hs v hv))] at hres
        cases hres

/-- C155, wallets of one address: a file whose stored secret was changed in any way, and which still opens with the same
passphrase, holds a private key in its text form, with a checksum of four bytes that is right: it is the one that was
saved or another one that is valid. -/
theorem C155_address_partial (ver : PyVer) (H : Hashes) (c' p prompt : Bytes) (hp : p ≠ []) (hc : c' ≠ []) (vcn : Int) (tn : Bool)
    (rnd : Nat) (a : Address) (h : Address.load ver H ⟨true, vcn, tn, some (hexlify c'), none⟩ p prompt rnd = .ok a) :
    ∃ k, k.length = 32 ∧ ¬ n ∣ bytesVal k ∧ ∃ w, (w = privkeyToWif H k ∨ w = privkeyToWif H (k ++ [1])) ∧ a.privKey = some w ∧
      Holds ver p c' w := by
  obtain ⟨h1, h2⟩ := C154_address ver H c' p prompt hc vcn tn rnd
  cases hw : a.privKey with
  | none => exact absurd hw (h2 a h)
  | some w =>
    obtain ⟨g1, k, g2, g3, g4⟩ := (h1 w).1 ⟨a, h, hw⟩
    rw [typed, if_neg hp] at g1
    exact ⟨k, g2, g3, w, g4, rfl, g1⟩

/-- A file to cut: the key 7 of 32 bytes, saved without a passphrase. -/
example : ∃ text, dumpSecret .py3 (beBytes 32 7) [] = .ok (text, false) ∧ text.length = 68 := ⟨_, rfl, by decide +kernel⟩

/-! ### What two files show -/

/-- **C156 is false.**  Two HD wallets saved with the same passphrase: the first sixteen bytes of the files are the same exactly
if the first fourteen bytes of the private keys are, the first 32 if the first thirty bytes are, and all of them if the keys
are.  So a file tells whether two wallets, or two states of one, have the same key. -/
theorem C156_hd_false (ver : PyVer) (w w' : HDWallet) (hw : HDMade w) (hw' : HDMade w') (k k' : Nat) (hk : w.key = .prv k)
    (hk' : w'.key = .prv k') (p : Bytes) (hp : p ≠ []) :
    ∃ c c', w.dump ver p = .ok (hdFile w true c) ∧ w'.dump ver p = .ok (hdFile w' true c') ∧
      (c.take 16 = c'.take 16 ↔ (beBytes 32 k).take 14 = (beBytes 32 k').take 14) ∧
      (c.take 32 = c'.take 32 ↔ (beBytes 32 k).take 30 = (beBytes 32 k').take 30) ∧
      (c = c' ↔ k = k') := by
  obtain ⟨c, hc, hcl, hd⟩ := (hd_dumped ver w hw k hk).1 p hp
  obtain ⟨c', hc', hcl', hd'⟩ := (hd_dumped ver w' hw' k' hk').1 p hp
  have hpre := encrypt_prefix ver p _ _ _ _ hc hc'
  have hpad : ∀ k m, m ≤ 34 → (padded (50 :: 48 :: beBytes 32 k)).take m = (50 :: 48 :: beBytes 32 k).take m := by
    intro k m hm
    unfold padded
    rw [List.take_append_of_le_length (by simp; omega)]
  refine ⟨c, c', hd, hd', ?_, ?_, ?_⟩
  · have := hpre 1
    rw [hpad _ _ (by omega), hpad _ _ (by omega), show 16 * 1 = 14 + 1 + 1 by rfl] at this
    simp only [List.take_succ_cons, List.cons.injEq, true_and] at this
    exact this
  · have := hpre 2
    rw [hpad _ _ (by omega), hpad _ _ (by omega), show 16 * 2 = 30 + 1 + 1 by rfl] at this
    simp only [List.take_succ_cons, List.cons.injEq, true_and] at this
    exact this
  · constructor
    · rintro rfl
      have := (hpre 3).1 rfl
      have h2 := congrArg (List.take 34) this
      rw [List.take_take, List.take_take, show min 34 (16 * 3) = 34 by rfl, hpad _ _ (le_refl _), hpad _ _ (le_refl _),
        List.take_of_length_le (by simp), List.take_of_length_le (by simp)] at h2
      injection h2 with _ h2
      injection h2 with _ h2
      have := congrArg bytesVal h2
      obtain ⟨-, r⟩ := hw.inv.1 k hk
      obtain ⟨-, r'⟩ := hw'.inv.1 k' hk'
      rwa [bytesVal_beBytes_of_lt (lt_trans (by exact_mod_cast r) Piecewise.n_lt),
        bytesVal_beBytes_of_lt (lt_trans (by exact_mod_cast r') Piecewise.n_lt)] at this
    · rintro rfl
      rw [hc] at hc'
      exact Except.ok.inj hc'

/-- C156, what two files show by being equal, for secrets of the same length: how many whole blocks of sixteen bytes their
texts have in common from the start, and nothing about what comes after the first block that differs.  (Whether AES itself
hides its input is not something this model can say.) -/
theorem C156_blocks_partial (ver : PyVer) (p s s' c c' : Bytes) (h : aesEncrypt ver s p = .ok c) (h' : aesEncrypt ver s' p = .ok c')
    (hl : s.length = s'.length) (j : Nat) :
    c.take (16 * j) = c'.take (16 * j) ↔ (s.take (16 * j) = s'.take (16 * j)) := by
  rw [encrypt_prefix ver p s s' c c' h h' j]
  unfold padded
  rw [hl]
  by_cases hj : 16 * j ≤ s.length
  · rw [List.take_append_of_le_length hj, List.take_append_of_le_length (by omega)]
  · rw [List.take_append, List.take_append, List.take_of_length_le (by omega : s.length ≤ _),
      List.take_of_length_le (by omega : s'.length ≤ _), hl]
    exact ⟨fun h => (List.append_inj h hl).1, fun h => by rw [h]⟩

/-- Two wallets with keys that begin alike. -/
example : HDMade ⟨.prv 7, List.replicate 32 1, 5, false, 0, List.replicate 4 0, 0⟩ ∧
    HDMade ⟨.prv 8, List.replicate 32 2, 5, false, 0, List.replicate 4 0, 0⟩ ∧
    (beBytes 32 7).take 30 = (beBytes 32 8).take 30 := by
  refine ⟨⟨.prv 7, List.replicate 32 1, some 5, 0, false, none, by decide, by decide +kernel⟩,
    ⟨.prv 8, List.replicate 32 2, some 5, 0, false, none, by decide, by decide +kernel⟩, by decide +kernel⟩

end NBC.Props
