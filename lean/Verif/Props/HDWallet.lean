import Verif.Proofs.HDWallet
import Verif.Props.Wallet
import Verif.Props.Encoding

/-!
# C46–C51, C54: HD wallets and the wallet file
-/

namespace NBC.Props
open NBC Key Ecdsa EC Aes Spec NBC.Secp Wallet NT Base58

/-- A wallet made by the constructor. -/
def HDMade (w : HDWallet) : Prop :=
  ∃ key chain vcn rnd tn parent, rnd < 65536 ∧ HDWallet.init key chain vcn rnd tn parent = .ok w

theorem HDMade.inv {w : HDWallet} (h : HDMade w) : (∀ k, w.key = .prv k → 1 ≤ k ∧ k < n) ∧
    w.chain.length = 32 ∧ w.depth < 256 ∧ 0 ≤ w.vcn ∧ w.vcn < 65536 := by
  obtain ⟨key, chain, vcn, rnd, tn, parent, hr, h⟩ := h
  obtain ⟨h1, h2, h3, rfl, rfl, h4, -⟩ := init_inv h
  have := vcnOf_range vcn rnd hr
  rw [h4]
  exact ⟨h1, h2, h3, this⟩

/-! ### C46 -/

theorem hd_load_eq {w : HDWallet} (h : HDMade w) {key : HDKey} (hk : ∀ k, key = .prv k → 1 ≤ k ∧ k < n)
    {ver : PyVer} {cfg : HDCfg} {pw prompt : Bytes} (h1 : cfg.key ver pw prompt = .ok key)
    (h2 : cfg.chain = hexlify w.chain) (h3 : cfg.vcn = w.vcn) (h4 : cfg.testnet = w.testnet)
    (h5 : cfg.depth = w.depth) (h6 : cfg.parentfp = hexlify w.parentFp) (h7 : cfg.childnum = w.childnum) :
    HDWallet.load ver cfg pw prompt = .ok { w with key := key, parentfp := w.parentFp } := by
  obtain ⟨-, hc, hd, hv0, hv1⟩ := h.inv
  unfold HDWallet.load
  rw [h1, ok_bind, h2, unhexlify_hexlify, ok_bind, h6, unhexlify_hexlify, ok_bind, h3, h4, h5, h7,
    init_ok' _ _ _ hk hc _ _ _ hd, vcnOf_some ⟨hv0, hv1⟩]

/-- C46, private wallets: everything comes back.  (The parent fingerprint is the one the wallet shows; a
wallet of depth 0 always shows zeros.) -/
theorem C46_private_partial (ver : PyVer) (w : HDWallet) (k : Int) (h : HDMade w) (hk : w.key = .prv k)
    (pw : Bytes) : ∃ cfg, w.dump ver pw = .ok cfg ∧ ∀ prompt,
      HDWallet.load ver cfg pw prompt = .ok { w with parentfp := w.parentFp } := by
  obtain ⟨h1, h2⟩ := h.inv.1 k hk
  obtain ⟨d, rfl⟩ := Int.eq_ofNat_of_zero_le (show 0 ≤ k by omega)
  have hd : d < n := by omega
  obtain ⟨t, e, s1, s2, s3, s4⟩ := secret_roundtrip ver (beBytes 32 d) pw (by simp)
  refine ⟨⟨e, hexlify w.chain, w.vcn, w.testnet, w.depth, hexlify w.parentFp, w.childnum, some t, none⟩, ?_,
    fun prompt => ?_⟩
  · unfold HDWallet.dump
    rw [hk]
    simp only [Int.ofNat_eq_natCast]
    rw [Piecewise.toString_n hd, ok_bind, s1, ok_bind]
  · have hkey : HDCfg.key ver ⟨e, hexlify w.chain, w.vcn, w.testnet, w.depth, hexlify w.parentFp, w.childnum,
        some t, none⟩ pw prompt = .ok (.prv d) := by
      unfold HDCfg.key
      cases t with
      | nil => exact absurd rfl s3
      | cons c cs =>
        simp only [Option.getD_some]
        rw [s4 pw prompt (fun hne => by rw [if_neg hne]), ok_bind, stringToNumber_eq _ (by
          intro h0; have := congrArg List.length h0; simp at this), ok_bind,
          bytesVal_beBytes_of_lt (lt_trans hd Piecewise.n_lt), if_neg (by omega)]
    rw [hd_load_eq h (by rintro k' hk'; injection hk' with hk'; subst hk'; exact ⟨h1, h2⟩) hkey rfl rfl rfl rfl rfl rfl]
    congr 1
    cases w
    simp only [Int.ofNat_eq_natCast] at hk
    simp only at *
    subst hk
    rfl

/-- C46: for a wallet that shows the fingerprint it holds (every derived one does), it is the same object. -/
theorem C46_same_partial (w : HDWallet) (h : w.depth ≠ 0 ∨ w.parentfp = List.replicate 4 0) :
    { w with parentfp := w.parentFp } = w := by
  have : w.parentFp = w.parentfp := by
    unfold HDWallet.parentFp
    by_cases h0 : w.depth = 0
    · rw [if_pos h0]
      exact (h.resolve_left (fun hne => hne h0)).symm
    · rw [if_neg h0]
  rw [this]

theorem rhs_def (x : Nat) : rhs K x = ((x : Int) ^ 3 + K.a * x + K.b) % (K.p : Int) := rfl

theorem rhs_def' (x : Nat) : rhs K x = ((x : Int) ^ 3 + 7) % (p : Nat) := by
  rw [rhs_def, show K.a = 0 from rfl, show K.b = 7 from rfl, zero_mul, add_zero,
    show ((K.p : Nat) : Int) = ((p : Nat) : Int) from rfl]

theorem pointDecompress_eq {x y : Nat} (hx : x < p) (hy : y < p) (hon : OnCurve K x y) :
    ∃ r : Nat, squareRootModPrime (rhs K x) p = .ok (r : Int) ∧ 0 < r ∧ r < p ∧ (r = y ∨ r = p - y) ∧
      pointDecompress (compressedKey x y) = .ok (.aff x ((if r % 2 = 0 then y else p - y : Nat) : Int) none) := by
  obtain ⟨r, hr, r0, rp, hron⟩ := sqrt_of_on hon
  obtain ⟨r, rfl⟩ := Int.eq_ofNat_of_zero_le r0.le
  have hor := root_or hon hron (by omega) (by exact_mod_cast hy) (by omega) rp
  have r0' : 0 < r := by exact_mod_cast r0
  have rp' : r < p := by exact_mod_cast rp
  have hor' : r = y ∨ r = p - y := by
    rcases hor with h | h
    · left; exact_mod_cast h
    · right; omega
  have hodd : p % 2 = 1 := by decide
  refine ⟨r, hr, r0', rp', hor', ?_⟩
  have e1 : pyIndex (compressedKey x y) 0 = .ok (if y % 2 = 0 then 2 else 3) := rfl
  have e2 : (compressedKey x y).drop 1 = beBytes 32 x := rfl
  have hb : bytesVal (beBytes 32 x) = x := bytesVal_beBytes_of_lt (lt_trans hx (by decide))
  have e3 : stringToNumber (beBytes 32 x) = .ok x := by
    rw [stringToNumber_eq _ (by intro h0; have := congrArg List.length h0; simp at this), hb]
  have e4 : ((x : Int) * x * x + K.a * x + K.b) % (K.p : Int) = rhs K x := by
    rw [rhs_def, show (x : Int) * x * x = (x : Int) ^ 3 by ring]
  have hr' : squareRootModPrime (rhs K x) K.p = .ok (r : Int) := hr
  have key : ∀ ch : UInt8, (ch = 2 ∨ ch = 3) → ∀ z : Nat, z < p → OnCurve K x z →
      ((if ch = 2 then 1 else -1 : Int) * r % (K.p : Int) = (z : Nat)) →
      pyIndex (compressedKey x y) 0 = .ok ch →
      pointDecompress (compressedKey x y) = .ok (.aff x z none) := by
    intro ch hch z hz hzon hyz h0
    unfold pointDecompress
    simp only [show secp256k1.curve = K from rfl]
    rw [h0, ok_bind, show pyAssert (ch == 2 || ch == 3) = .ok () by
      rw [pyAssert_ok_iff]; rcases hch with rfl | rfl <;> rfl, ok_bind, e2, e3, ok_bind, e4, hr', ok_bind,
      hyz, mkPoint_eq, if_pos ((onCurve_iff _ _ _).1 hzon)]
  have hneg : ∀ z : Nat, OnCurve K x z → z < p → 0 < z → OnCurve K x ((p - z : Nat) : Int) := by
    intro z hz hzp hz0
    rw [onCurve_zmod] at hz ⊢
    rw [← hz, Int.cast_natCast, Int.cast_natCast, Nat.cast_sub hzp.le, ZMod.natCast_self]
    ring
  have hy0 : 0 < y := by
    rcases hor' with h | h
    · omega
    · by_contra h0
      omega
  rcases Nat.mod_two_eq_zero_or_one y with hy2 | hy2
  · rw [if_pos hy2] at e1
    rw [show (if r % 2 = 0 then y else p - y) = r by
      rcases hor' with h | h
      · rw [h, if_pos hy2]
      · rw [if_neg (by omega), h]]
    refine key 2 (Or.inl rfl) r rp' hron ?_ e1
    rw [if_pos rfl, one_mul, show (K.p : Int) = (p : Nat) from rfl, Int.emod_eq_of_lt (by omega) rp]
  · rw [if_neg (by omega)] at e1
    rw [show (if r % 2 = 0 then y else p - y) = p - r by
      rcases hor' with h | h
      · rw [if_neg (by omega), h]
      · rw [if_pos (by omega), h]; omega]
    refine key 3 (Or.inr rfl) (p - r) (by omega) (hneg r hron rp' r0') ?_ e1
    rw [if_neg (by decide), neg_one_mul, show (K.p : Int) = (p : Nat) from rfl, show (-(r : Int)) = ((p - r : Nat) : Int) + (p : Nat) * (-1) by
      rw [Int.ofNat_sub rp'.le]; ring, Int.add_mul_emod_self_left, Int.emod_eq_of_lt (by omega) (by omega)]

/-- C46, public wallets: the dictionary is written, and reading it gives everything back, with the same point
when the one of `y` and `p - y` that is a square modulo `p` is even, and its negative otherwise. -/
theorem C46_public_partial (ver : PyVer) (w : HDWallet) (x y : Nat) (o : Option Nat) (h : HDMade w)
    (hk : w.key = .pub (.aff x y o)) (hx : x < p) (hy : y < p) (hon : OnCurve K x y) (pw prompt : Bytes) :
    ∃ cfg, w.dump ver pw = .ok cfg ∧
      (residueRoot p y % 2 = 0 → HDWallet.load ver cfg pw prompt =
        .ok { w with key := .pub (.aff x y none), parentfp := w.parentFp }) ∧
      (residueRoot p y % 2 = 1 → HDWallet.load ver cfg pw prompt =
        .ok { w with key := .pub (.aff x ((p - y : Nat) : Int) none), parentfp := w.parentFp }) := by
  obtain ⟨r, hr, -, -, -, hdec⟩ := pointDecompress_eq hx hy hon
  obtain rfl : r = residueRoot p y := by exact_mod_cast root_eq hy hon hr
  clear hr
  generalize residueRoot p y = r at hdec ⊢
  have hkey : HDCfg.key ver ⟨false, hexlify w.chain, w.vcn, w.testnet, w.depth, hexlify w.parentFp, w.childnum,
      none, some (hexlify (compressedKey x y))⟩ pw prompt =
      .ok (.pub (.aff x ((if r % 2 = 0 then y else p - y : Nat) : Int) none)) := by
    have hne : hexlify (compressedKey x y) ≠ [] := by
      unfold compressedKey hexlify
      simp
    unfold HDCfg.key
    simp only [Option.getD_none, Option.getD_some]
    cases ht : hexlify (compressedKey x y) with
    | nil => exact absurd ht hne
    | cons c cs =>
      simp only
      rw [← ht, unhexlify_hexlify, ok_bind, hdec, ok_bind]
  refine ⟨⟨false, hexlify w.chain, w.vcn, w.testnet, w.depth, hexlify w.parentFp, w.childnum,
      none, some (hexlify (compressedKey x y))⟩, ?_, fun h2 => ?_, fun h2 => ?_⟩
  · unfold HDWallet.dump
    rw [hk]
    simp only
    rw [pointCompress_ok hx, ok_bind]
  · rw [if_pos h2] at hkey
    exact hd_load_eq h (by intro k hk; cases hk) hkey rfl rfl rfl rfl rfl rfl
  · rw [if_neg (by omega)] at hkey
    exact hd_load_eq h (by intro k hk; cases hk) hkey rfl rfl rfl rfl rfl rfl

/-- The even square root for `x = 2`. -/
def yTwo : Nat := p - 0x990418d84d45f61f60a56728f5a10317bdb3a05bda4425e3aee079f8a847a8d1

/-- C46 is false for public wallets: whatever its other fields, the one for the point with `x = 2` and even
`y` is read back with the odd `y`. -/
theorem C46_public_false (ver : PyVer) (w : HDWallet) (h : HDMade w) (hk : w.key = .pub (.aff 2 yTwo none))
    (pw prompt : Bytes) : ∃ cfg w', w.dump ver pw = .ok cfg ∧ HDWallet.load ver cfg pw prompt = .ok w' ∧
      w'.key = .pub (.aff 2 ((p - yTwo : Nat) : Int) none) ∧ w'.key ≠ w.key := by
  have hon : OnCurve K ((2 : Nat) : Int) (yTwo : Int) := (onCurve_iff _ _ _).2 (by decide +kernel)
  obtain ⟨cfg, h1, -, h2⟩ := C46_public_partial ver w 2 yTwo none h hk (by decide) (by decide) hon pw prompt
  have hs : squareRootModPrime (rhs K 2) p = .ok ((p - yTwo : Nat) : Int) := by decide +kernel
  have hr' : p - yTwo = residueRoot p yTwo := Int.ofNat_inj.1 (root_eq (by decide) hon hs)
  refine ⟨cfg, _, h1, h2 (by rw [← hr']; decide), rfl, ?_⟩
  rw [hk]
  show HDKey.pub (.aff 2 ((p - yTwo : Nat) : Int) none) ≠ HDKey.pub (.aff 2 yTwo none)
  decide

/-- Both kinds of public wallets exist: this one, and one for the generator, whose root is even. -/
example : HDMade ⟨.pub (.aff 2 yTwo none), List.replicate 32 1, 5, false, 0, List.replicate 4 0, 0⟩ ∧
    residueRoot p 0x483ada7726a3c4655da4fbfc0e1108a8fd17b448a68554199c47d08ffb10d4b8 =
      0x483ada7726a3c4655da4fbfc0e1108a8fd17b448a68554199c47d08ffb10d4b8 := by
  refine ⟨⟨.pub (.aff 2 yTwo none), List.replicate 32 1, some 5, 0, false, none, by decide, rfl⟩, ?_⟩
  have hs : squareRootModPrime (rhs K 0x79be667ef9dcbbac55a06295ce870b07029bfcdb2dce28d959f2815b16f81798) p =
      .ok ((0x483ada7726a3c4655da4fbfc0e1108a8fd17b448a68554199c47d08ffb10d4b8 : Nat) : Int) := by decide +kernel
  exact (Int.ofNat_inj.1 (root_eq (by decide) pubPoint_one.on hs)).symm

/-- A private wallet. -/
theorem hd_example (d : Int) (hd : d < 256) : HDMade ⟨.prv 1, List.replicate 32 1, 5, false, d, [1, 2, 3, 4], 7⟩ :=
  ⟨.prv 1, List.replicate 32 1, some 5, 0, false, some (d, [1, 2, 3, 4], 7), by decide,
    init_ok' _ _ _ (by intro k hk; cases hk; decide) rfl _ _ _ hd⟩

/-! ### C47 -/

/-- A private wallet and its public part: the same public point and the same other fields. -/
def PublicPart (w v : HDWallet) : Prop :=
  (∃ (x y : Nat) (o o' : Option Nat), w.point = .ok (.aff x y o) ∧ v.key = .pub (.aff x y o')) ∧
  v.chain = w.chain ∧ v.vcn = w.vcn ∧ v.testnet = w.testnet ∧ v.depth = w.depth ∧ v.parentfp = w.parentfp ∧
  v.childnum = w.childnum

/-- C47: below `2 ^ 31` the public part derives the public part of what the wallet derives, and fails in the
same cases with the same exception (given the same random chain number, see C48). -/
theorem C47_derivation (H : Hashes) (w v : HDWallet) (k : Int) (hw : HDMade w) (hk : w.key = .prv k)
    (hv : PublicPart w v) (i : Int) (hi : i < 2 ^ 31) (rnd : Nat) :
    (∃ c d, w.child H i rnd = .ok c ∧ v.child H i rnd = .ok d ∧ (∃ k', c.key = .prv k') ∧ PublicPart c d) ∨
    (∃ e, w.child H i rnd = .error e ∧ v.child H i rnd = .error e) := by
  obtain ⟨h1, h2⟩ := hw.inv.1 k hk
  obtain ⟨⟨x', y', o, o', hP, hvk⟩, hc, hvc, ht, hd, hf, hn⟩ := hv
  obtain ⟨x, y, o1, hp, hP'⟩ := point_prv hk h1 h2
  rw [hP] at hP'
  injection hP' with hP'
  injection hP' with hx hy ho
  have hx : x' = x := by exact_mod_cast hx
  have hy : y' = y := by exact_mod_cast hy
  subst hx hy ho
  by_cases hi0 : 0 ≤ i
  · obtain ⟨i, rfl⟩ := Int.eq_ofNat_of_zero_le hi0
    have hi' : i < 2 ^ 31 := by exact_mod_cast hi
    have hvp : v.point = .ok (.aff x' y' o') := by unfold HDWallet.point; rw [hvk]
    have ew := child_eq (H := H) hp.1 hP hi' rnd
    have ev := child_eq (H := H) hp.1 hvp hi' rnd
    rw [hc, hd, ht] at ev
    rw [ew, ev]
    by_cases hdep : w.depth < 255
    · rw [if_pos hdep, if_pos hdep]
      generalize hm : bytesVal ((H.hmacSha512 w.chain (compressedKey x' y' ++ beBytes 4 i)).take 32) = m
      rw [childKey_prv hk m]
      obtain ⟨p1, p2⟩ := childKey_pub hp hvk m
      by_cases hbad : n ≤ m ∨ (n : Int) ∣ k + m
      · rw [if_pos hbad, p1 hbad]
        exact Or.inr ⟨_, rfl, rfl⟩
      · rw [if_neg hbad]
        obtain ⟨x2, y2, o2, hp2, e2⟩ := p2 hbad
        rw [e2]
        left
        have hn0 : (0 : Int) < (n : Nat) := by decide
        have hnd : ¬ (n : Int) ∣ k + m := fun h => hbad (Or.inr h)
        have hk0 : 1 ≤ (k + m) % (n : Nat) := by
          have := Int.emod_nonneg (k + m) (show ((n : Nat) : Int) ≠ 0 by omega)
          have h0 : (k + m) % (n : Nat) ≠ 0 := fun h => hnd (Int.dvd_of_emod_eq_zero h)
          omega
        have hk1 : (k + m) % (n : Nat) < n := Int.emod_lt_of_pos _ hn0
        simp only [Except.bind]
        rw [init_ok' none rnd w.testnet (by intro k' hk'; injection hk' with hk'; rw [← hk']; exact ⟨hk0, hk1⟩)
            (drop32_length H _ _) _ _ _ (by omega),
          init_ok' none rnd w.testnet (by intro k' hk'; cases hk') (drop32_length H _ _) _ _ _ (by omega)]
        refine ⟨_, _, rfl, rfl, ⟨_, rfl⟩, ?_, rfl, rfl, rfl, rfl, rfl, rfl⟩
        obtain ⟨x3, y3, o3, hp3, hP3⟩ := point_prv (w := ⟨.prv ((k + m) % (n : Nat)),
          (H.hmacSha512 w.chain (compressedKey x' y' ++ beBytes 4 i)).drop 32, vcnOf none rnd, w.testnet,
          w.depth + 1, (hash160 H (compressedKey x' y')).take 4, (i : Int)⟩) rfl hk0 hk1
        obtain ⟨rfl, rfl⟩ := hp2.unique (PubPoint_mod.1 hp3)
        exact ⟨x2, y2, o3, o2, hP3, rfl⟩
    · rw [if_neg hdep, if_neg hdep]
      exact Or.inr ⟨_, rfl, rfl⟩
  · right
    have e1 : pyAssert (decide (0 ≤ i ∧ i ≤ 4294967295)) = .error .assertionError := by
      rw [decide_eq_false (fun h => hi0 h.1)]; rfl
    exact ⟨.assertionError, by unfold HDWallet.child; rw [e1, error_bind],
      by unfold HDWallet.child; rw [e1, error_bind]⟩

/-- C47 covers every public wallet on the curve: it is the public part of some private one. -/
theorem C47_every_public (v : HDWallet) (h : HDMade v) (x y : Nat) (o : Option Nat)
    (hk : v.key = .pub (.aff x y o)) (hx : x < p) (hy : y < p) (hon : OnCurve K x y) :
    ∃ w k, HDMade w ∧ w.key = .prv k ∧ PublicPart w v := by
  obtain ⟨d, h1, h2, hp⟩ := exists_key hx hy hon
  obtain ⟨key, chain, vcn, rnd, tn, parent, hr, h⟩ := h
  obtain ⟨-, hc, hd, e1, e2, e3, e4, e5⟩ := init_inv h
  have hkd : ∀ k, HDKey.prv (d : Int) = .prv k → 1 ≤ k ∧ k < n := by
    intro k hk'; injection hk' with hk'; subst hk'; exact ⟨by omega, by exact_mod_cast h2⟩
  have hm := init_ok' vcn rnd tn hkd hc v.depth v.parentfp v.childnum hd
  refine ⟨_, d, ⟨_, chain, vcn, rnd, tn, _, hr, hm⟩, rfl, ?_, e2, e3, e4, rfl, rfl, rfl⟩
  obtain ⟨x', y', o', hp', hP⟩ := point_prv (w := ⟨.prv (d : Int), chain, vcnOf vcn rnd, tn, v.depth, v.parentfp,
    v.childnum⟩) rfl (hkd _ rfl).1 (hkd _ rfl).2
  obtain ⟨rfl, rfl⟩ := hp.unique hp'
  exact ⟨x, y, o', o, hP, hk⟩

/-! ### C48 -/

/-- C48, what holds: apart from the chain number, a child depends on the wallet and the index alone.
Missing: the chain number (`C48_vcn_false`). -/
theorem C48_deterministic_partial (H : Hashes) (w : HDWallet) (i : Int) (r s : Nat) :
    (∃ c, w.child H i r = .ok c ∧ c.vcn = r ∧ w.child H i s = .ok { c with vcn := s }) ∨
    (∃ e, w.child H i r = .error e ∧ w.child H i s = .error e) := by
  have hall : ∀ r s : Nat, ∀ c, w.child H i r = .ok c → c.vcn = r ∧ w.child H i s = .ok { c with vcn := s } := by
    intro r s c hc
    obtain ⟨hi0, hi1, hd, hpub, msg, key, fp, h1, h2, h3, h4, rfl⟩ := child_inv hc
    refine ⟨rfl, ?_⟩
    obtain ⟨hk, hl, hd', -⟩ := init_inv h4
    have h5 := init_ok' none s w.testnet hk hl (w.depth + 1) fp i hd'
    have e1 : pyAssert (decide (0 ≤ i ∧ i ≤ 4294967295)) = .ok () := by
      rw [pyAssert_ok_iff, decide_eq_true_eq]; omega
    unfold HDWallet.child
    rw [e1, ok_bind]
    simp only
    rw [if_neg (by
      intro hh
      rw [Bool.and_eq_true, decide_eq_true_eq] at hh
      obtain ⟨k, hk⟩ := hpub (by have := (hardened_iff (by omega)).1 hh.1; omega)
      rw [hk] at hh
      exact absurd hh.2 (by simp [HDKey.isPub])), show pyAssert (decide (w.depth < 255)) = .ok () by
        rw [pyAssert_ok_iff, decide_eq_true_eq]; exact hd, ok_bind, h1, ok_bind,
      stringToNumber_eq _ (by
        intro h0
        have := congrArg List.length h0
        rw [List.length_take, H.hmacSha512_length] at this
        simp at this), ok_bind, h2, ok_bind, h3, ok_bind, h5]
    rfl
  cases hr : w.child H i r with
  | ok c => exact Or.inl ⟨c, rfl, hall r s c hr⟩
  | error e =>
    right
    refine ⟨e, rfl, ?_⟩
    cases hs : w.child H i s with
    | ok c =>
      rw [(hall s r c hs).2] at hr
      cases hr
    | error e' =>
      have hs' : ∀ r, w.child H i r = (do
          pyAssert (decide (0 ≤ i ∧ i ≤ 4294967295))
          if decide (i.toNat &&& 0x80000000 ≠ 0) && w.key.isPub then .error .exception
          else do
            pyAssert (decide (w.depth < 255))
            let msg ← w.childMsg i (decide (i.toNat &&& 0x80000000 ≠ 0))
            let m ← stringToNumber ((H.hmacSha512 w.chain msg).take 32)
            let key ← w.childKey m
            let fp ← w.fingerprint H
            HDWallet.init key ((H.hmacSha512 w.chain msg).drop 32) none r w.testnet (some (w.depth + 1, fp, i))) :=
        fun r => rfl
      have hinit : ∀ (key : HDKey) (chain fp : Bytes) (e1 e2 : PyErr),
          HDWallet.init key chain none r w.testnet (some (w.depth + 1, fp, i)) = .error e1 →
          HDWallet.init key chain none s w.testnet (some (w.depth + 1, fp, i)) = .error e2 → e2 = e1 := by
        intro key chain fp e1 e2 h1 h2
        unfold HDWallet.init at h1 h2
        cases ha : key.check with
        | error e => rw [ha, error_bind] at h1 h2; cases h1; cases h2; rfl
        | ok _ =>
          rw [ha, ok_bind] at h1 h2
          cases hb : pyAssert (chain.length == 32) with
          | error e => rw [hb, error_bind] at h1 h2; cases h1; cases h2; rfl
          | ok _ =>
            rw [hb, ok_bind] at h1 h2
            simp only at h1 h2
            cases hc : pyAssert (decide ((parentFields (some (w.depth + 1, fp, i))).1 < 256)) with
            | error e => rw [hc, error_bind] at h1 h2; cases h1; cases h2; rfl
            | ok _ => rw [hc, ok_bind] at h1; cases h1
      rw [hs'] at hr hs
      congr 1
      cases ha : pyAssert (decide (0 ≤ i ∧ i ≤ 4294967295)) with
      | error e => rw [ha, error_bind] at hr hs; cases hr; cases hs; rfl
      | ok _ =>
        rw [ha, ok_bind] at hr hs
        by_cases hh : (decide (i.toNat &&& 0x80000000 ≠ 0) && w.key.isPub) = true
        · rw [if_pos hh] at hr hs; cases hr; cases hs; rfl
        · rw [if_neg hh] at hr hs
          cases hb : pyAssert (decide (w.depth < 255)) with
          | error e => rw [hb, error_bind] at hr hs; cases hr; cases hs; rfl
          | ok _ =>
            rw [hb, ok_bind] at hr hs
            cases hc : w.childMsg i (decide (i.toNat &&& 0x80000000 ≠ 0)) with
            | error e => rw [hc, error_bind] at hr hs; cases hr; cases hs; rfl
            | ok msg =>
              rw [hc, ok_bind] at hr hs
              cases hd : stringToNumber ((H.hmacSha512 w.chain msg).take 32) with
              | error e => rw [hd, error_bind] at hr hs; cases hr; cases hs; rfl
              | ok m =>
                rw [hd, ok_bind] at hr hs
                cases he : w.childKey m with
                | error e => rw [he, error_bind] at hr hs; cases hr; cases hs; rfl
                | ok key =>
                  rw [he, ok_bind] at hr hs
                  cases hf : w.fingerprint H with
                  | error e => rw [hf, error_bind] at hr hs; cases hr; cases hs; rfl
                  | ok fp =>
                    rw [hf, ok_bind] at hr hs
                    exact hinit _ _ _ _ _ hr hs

/-- C48 is false: two derivations of the same child that draw different chain numbers give different wallets
with different addresses. -/
theorem C48_vcn_false (H : Hashes) (w c : HDWallet) (i : Int) (r s : Nat) (hr : r < 65536) (hs : s < 65536)
    (hne : r ≠ s) (h : w.child H i r = .ok c) : ∃ d, w.child H i s = .ok d ∧ d ≠ c ∧
      ∀ a b, c.address H = .ok a → d.address H = .ok b → a ≠ b := by
  rcases C48_deterministic_partial H w i r s with ⟨c', h1, h2, h3⟩ | ⟨e, h1, -⟩
  · rw [h] at h1
    have h1' := Except.ok.inj h1
    subst h1'
    refine ⟨_, h3, ?_, ?_⟩
    · intro h0
      have := congrArg HDWallet.vcn h0
      simp only at this
      omega
    · intro a b ha hb hab
      unfold HDWallet.address at ha hb
      rw [bind_ok_iff] at ha hb
      obtain ⟨P, -, ha⟩ := ha
      obtain ⟨Q, -, hb⟩ := hb
      rw [bind_ok_iff] at ha hb
      obtain ⟨u, -, ha⟩ := ha
      obtain ⟨v, -, hb⟩ := hb
      have ha := Except.ok.inj ha
      have hb := Except.ok.inj hb
      rw [← ha, ← hb] at hab
      obtain ⟨-, h5, -⟩ := C06_address_injective H _ _ _ _ _ _ rfl hab
      simp only at h5
      omega
  · rw [h] at h1; cases h1

/-- The hash family of the examples, with an HMAC of ones. -/
def hashesOne : Hashes := { Hashes.toy with
  hmacSha512 := fun _ _ => List.replicate 64 1
  hmacSha512_length := fun _ _ => rfl }

/-- A derivation that succeeds, and with it the address. -/
example (r : Nat) : ∃ c a, (HDWallet.mk (.prv 1) (List.replicate 32 1) 5 false 254 [1, 2, 3, 4] 7).child hashesOne 6 r
    = .ok c ∧ c.address hashesOne = .ok a := by
  obtain ⟨x, y, o, hp, hP⟩ := point_prv (w := HDWallet.mk (.prv 1) (List.replicate 32 1) 5 false 254 [1, 2, 3, 4] 7)
    (k := 1) rfl (by decide) (by decide)
  have h := child_eq (H := hashesOne) hp.1 hP (i := 6) (by decide) r
  rw [if_pos (show (254 : Int) < 255 by decide)] at h
  have hm : bytesVal ((hashesOne.hmacSha512 (List.replicate 32 1) (compressedKey x y ++ beBytes 4 6)).take 32) =
      bytesVal (List.replicate 32 1) := rfl
  simp only at h
  rw [hm, childKey_prv rfl, if_neg (by decide)] at h
  simp only [Except.bind] at h
  rw [init_ok' _ _ _ (by intro k hk; cases hk; decide) (drop32_length _ _ _) _ _ _ (by decide)] at h
  obtain ⟨x2, y2, o2, hp2, hP2⟩ := point_prv (w := ⟨.prv ((1 + bytesVal (List.replicate 32 1)) % (n : Nat)),
      (hashesOne.hmacSha512 (List.replicate 32 1) (compressedKey x y ++ beBytes 4 6)).drop 32,
      vcnOf none r, false, 254 + 1, (hash160 hashesOne (compressedKey x y)).take 4, 6⟩) rfl (by decide) (by decide)
  exact ⟨_, _, h, by
    unfold HDWallet.address
    rw [show ((6 : Nat) : Int) = 6 from rfl, hP2, ok_bind, pointCompress_ok hp2.1, ok_bind]⟩

/-! ### C49 -/

/-- C49: hardened derivation raises on a public wallet. -/
theorem C49_hardened (H : Hashes) (w : HDWallet) (P : Pt) (hk : w.key = .pub P) (i : Int) (h1 : 2 ^ 31 ≤ i)
    (h2 : i < 2 ^ 32) (rnd : Nat) : w.child H i rnd = .error .exception := by
  have e1 : pyAssert (decide (0 ≤ i ∧ i ≤ 4294967295)) = .ok () := by
    rw [pyAssert_ok_iff, decide_eq_true_eq]; omega
  unfold HDWallet.child
  rw [e1, ok_bind]
  simp only
  rw [if_pos]
  rw [Bool.and_eq_true, decide_eq_true_eq, hk]
  exact ⟨(hardened_iff (by omega)).2 (by omega), rfl⟩

/-- C49: an index outside `[0, 2 ^ 32)` and a depth of 255 or more always raise. -/
theorem C49_refused (H : Hashes) (w : HDWallet) (i : Int) (rnd : Nat)
    (h : i < 0 ∨ 2 ^ 32 ≤ i ∨ 255 ≤ w.depth) : ∃ e, w.child H i rnd = .error e := by
  cases hc : w.child H i rnd with
  | error e => exact ⟨e, rfl⟩
  | ok c =>
    obtain ⟨h1, h2, h3, -⟩ := child_inv hc
    omega

/-- The wallets reached from a master wallet by a path of indices. -/
inductive Path (H : Hashes) : List Int → HDWallet → Prop
  | master (seed : Bytes) (vcn : Option Int) (rnd : Nat) (tn : Bool) (w : HDWallet) (hr : rnd < 65536)
      (h : HDWallet.fromMasterSeed H seed vcn rnd tn = .ok w) : Path H [] w
  | child {is : List Int} {w c : HDWallet} (hw : Path H is w) (i : Int) (rnd : Nat) (hr : rnd < 65536)
      (h : w.child H i rnd = .ok c) : Path H (is ++ [i]) c

/-- C49: every wallet on every path from every master has a private key in range, its depth is the length of
the path and at most 255, and the other fields fit their places in an extended key. -/
theorem C49_paths (H : Hashes) (is : List Int) (w : HDWallet) (h : Path H is w) :
    (∃ k, w.key = .prv k ∧ 1 ≤ k ∧ k < n) ∧ w.depth = is.length ∧ is.length ≤ 255 ∧ w.chain.length = 32 ∧
    w.parentfp.length = 4 ∧ 0 ≤ w.childnum ∧ w.childnum < 2 ^ 32 ∧ 0 ≤ w.vcn ∧ w.vcn < 65536 ∧
    (∀ i ∈ is, 0 ≤ i ∧ i < 2 ^ 32) := by
  induction h with
  | master seed vcn rnd tn w hr h =>
    unfold HDWallet.fromMasterSeed at h
    simp only at h
    rw [bind_ok_iff] at h
    obtain ⟨m, -, h⟩ := h
    split at h
    · cases h
    · obtain ⟨h1, h2, h3, h4, h5, h6, h7, h8⟩ := init_inv h
      simp only [Option.getD_none, Prod.mk.injEq] at h8
      obtain ⟨e1, e2, e3⟩ := h8
      have hv := vcnOf_range vcn rnd hr
      rw [h6]
      refine ⟨⟨_, h4, h1 _ rfl⟩, e1, by simp, by rw [h5]; exact h2, by rw [e2]; rfl, by rw [e3], by rw [e3]; decide,
        hv.1, hv.2, by simp⟩
  | @child is w c hw i rnd hr h ih =>
    obtain ⟨⟨k, hk, -⟩, hd, -, -, -, -, -, -, -, his⟩ := ih
    obtain ⟨hi0, hi1, hdep, -, msg, key, fp, h1, h2, h3, h4, rfl⟩ := child_inv h
    obtain ⟨g1, g2, g3, -⟩ := init_inv h4
    rw [childKey_prv hk] at h2
    split at h2
    · cases h2
    · have h2' := Except.ok.inj h2
      subst h2'
      have hfp : fp.length = 4 := by
        unfold HDWallet.fingerprint at h3
        rw [bind_ok_iff] at h3
        obtain ⟨P, -, h3⟩ := h3
        rw [bind_ok_iff] at h3
        obtain ⟨s, -, h3⟩ := h3
        rw [← Except.ok.inj h3]
        simp [hash160, H.ripemd160_length]
      refine ⟨⟨_, rfl, g1 _ rfl⟩, ?_, ?_, g2, hfp, hi0, hi1, ?_, ?_, ?_⟩
      · rw [List.length_append]; simp only [List.length_singleton]; omega
      · rw [List.length_append]; simp only [List.length_singleton]; omega
      · simp only; omega
      · simp only; omega
      · intro j hj
        rcases List.mem_append.1 hj with hj | hj
        · exact his j hj
        · rw [List.mem_singleton.1 hj]; exact ⟨hi0, hi1⟩

/-- C49 for any starting point: whatever wallets derivation reaches from one that the constructor made, they
are as the constructor demands, and no deeper than 255. -/
theorem C49_derived (H : Hashes) (w c : HDWallet) (i : Int) (rnd : Nat) (hr : rnd < 65536)
    (h : w.child H i rnd = .ok c) : HDMade c ∧ c.depth = w.depth + 1 ∧ c.depth ≤ 255 ∧
      (∀ k, c.key = .prv k → 1 ≤ k ∧ k < n) := by
  obtain ⟨hi0, hi1, hdep, -, msg, key, fp, h1, h2, h3, h4, rfl⟩ := child_inv h
  refine ⟨⟨_, _, _, _, _, _, hr, h4⟩, rfl, by simp only; omega, (init_inv h4).1⟩

/-- A master wallet exists. -/
example : ∃ w, Path hashesOne [] w := by
  refine ⟨⟨.prv (bytesVal (List.replicate 32 1)), List.replicate 32 1, 3, false, 0, List.replicate 4 0, 0⟩,
    .master [1, 2] (some 3) 0 false _ (by decide) ?_⟩
  decide +kernel

/-! ### C51 -/

/-- The 78-byte record of BIP32. -/
def bip32Record (version depth : Nat) (fp : Bytes) (childnum : Nat) (chain key : Bytes) : Bytes :=
  beBytes 4 version ++ beBytes 1 depth ++ fp ++ beBytes 4 childnum ++ chain ++ key

/-- The versions of BIP32: `xpub`, `xprv`, `tpub`, `tprv`. -/
def bip32Version : Bool → Bool → Nat
  | false, false => 0x0488B21E
  | false, true => 0x0488ADE4
  | true, false => 0x043587CF
  | true, true => 0x04358394

theorem extVersion_eq (t b : Bool) : extVersion t b = bip32Version t b := by
  cases t <;> cases b <;> rfl

/-- What `to_extended_key` needs of the fields; true of every wallet on a path from a master (C49). -/
structure Exportable (w : HDWallet) : Prop where
  depth : 0 ≤ w.depth ∧ w.depth < 256
  childnum : 0 ≤ w.childnum ∧ w.childnum < 2 ^ 32
  fp : w.parentFp.length = 4
  chain : w.chain.length = 32

theorem ext_eq {H : Hashes} {w : HDWallet} (h : Exportable w) (b : Bool) (data : Bytes)
    (hd : w.extData b = .ok data) :
    w.toExtendedKey H b = .ok (encodeCheck H
      (bip32Record (bip32Version w.testnet b) w.depth.toNat w.parentFp w.childnum.toNat w.chain data)) := by
  obtain ⟨⟨d0, d1⟩, ⟨c0, c1⟩, -, -⟩ := h
  have e1 := num4 (v := bip32Version w.testnet b) (by
    cases w.testnet <;> cases b <;> decide)
  have e2 := num1 (v := w.depth.toNat) (by omega)
  have e3 := num4 (v := w.childnum.toNat) (by omega)
  rw [Int.toNat_of_nonneg d0] at e2
  rw [Int.toNat_of_nonneg c0] at e3
  unfold HDWallet.toExtendedKey
  rw [extVersion_eq, e1, ok_bind, e2, ok_bind, e3, ok_bind, hd, ok_bind]
  rfl

/-- C51, the public export: a wallet with public point `(x, y)` exports the record with the compressed
point, which Base58Check decoding gives back. -/
theorem C51_public (H : Hashes) (w : HDWallet) (h : Exportable w) (x y : Nat) (o : Option Nat) (hx : x < p)
    (hP : w.point = .ok (.aff x y o)) : ∃ s, w.toExtendedKey H false = .ok s ∧
      decodeCheck H s = .ok (some (bip32Record (bip32Version w.testnet false) w.depth.toNat w.parentFp
        w.childnum.toNat w.chain (compressedKey x y))) :=
  ⟨_, ext_eq h false (compressedKey x y) (by
    unfold HDWallet.extData
    rw [if_neg (by decide), hP, ok_bind, pointCompress_ok hx]), decodeCheck_encodeCheck H _⟩

/-- C51, the private export: the record with a zero byte and the secret exponent. -/
theorem C51_private (H : Hashes) (w : HDWallet) (h : Exportable w) (k : Nat) (hk : w.key = .prv k) (hn : k < n) :
    ∃ s, w.toExtendedKey H true = .ok s ∧
      decodeCheck H s = .ok (some (bip32Record (bip32Version w.testnet true) w.depth.toNat w.parentFp
        w.childnum.toNat w.chain (0 :: beBytes 32 k))) :=
  ⟨_, ext_eq h true (0 :: beBytes 32 k) (by
    unfold HDWallet.extData
    rw [if_pos rfl, hk]
    simp only
    rw [Piecewise.toString_n hn, ok_bind]
    rfl), decodeCheck_encodeCheck H _⟩

/-- C51: the fields can be read back from the record, which is 78 bytes long. -/
theorem C51_fields (version depth childnum : Nat) (fp chain key : Bytes) (hv : version < 2 ^ 32)
    (hd : depth < 256) (hc : childnum < 2 ^ 32) (hf : fp.length = 4) (hch : chain.length = 32)
    (hk : key.length = 33) :
    let r := bip32Record version depth fp childnum chain key
    r.length = 78 ∧ bytesVal (r.take 4) = version ∧ bytesVal ((r.drop 4).take 1) = depth ∧
    (r.drop 5).take 4 = fp ∧ bytesVal ((r.drop 9).take 4) = childnum ∧ (r.drop 13).take 32 = chain ∧
    r.drop 45 = key := by
  intro r
  have e : r = beBytes 4 version ++ (beBytes 1 depth ++ (fp ++ (beBytes 4 childnum ++ (chain ++ key)))) := by
    simp only [r, bip32Record, List.append_assoc]
  have l4 : (beBytes 4 version).length = 4 := by simp
  have l1 : (beBytes 1 depth).length = 1 := by simp
  have l4' : (beBytes 4 childnum).length = 4 := by simp
  have d4 : r.drop 4 = beBytes 1 depth ++ (fp ++ (beBytes 4 childnum ++ (chain ++ key))) := by
    rw [e, List.drop_left' l4]
  have d5 : r.drop 5 = fp ++ (beBytes 4 childnum ++ (chain ++ key)) := by
    rw [show (5 : Nat) = 4 + 1 from rfl, ← List.drop_drop, d4, List.drop_left' l1]
  have d9 : r.drop 9 = beBytes 4 childnum ++ (chain ++ key) := by
    rw [show (9 : Nat) = 5 + 4 from rfl, ← List.drop_drop, d5, List.drop_left' hf]
  have d13 : r.drop 13 = chain ++ key := by
    rw [show (13 : Nat) = 9 + 4 from rfl, ← List.drop_drop, d9, List.drop_left' l4']
  refine ⟨?_, ?_, ?_, ?_, ?_, ?_, ?_⟩
  · rw [e]; simp only [List.length_append, l4, l1, l4', hf, hch, hk]
  · rw [e, List.take_left' l4, bytesVal_beBytes_of_lt (by simpa using hv)]
  · rw [d4, List.take_left' l1, bytesVal_beBytes_of_lt (by simpa using hd)]
  · rw [d5, List.take_left' hf]
  · rw [d9, List.take_left' l4', bytesVal_beBytes_of_lt (by simpa using hc)]
  · rw [d13, List.take_left' hch]
  · rw [show (45 : Nat) = 13 + 32 from rfl, ← List.drop_drop, d13, List.drop_left' hch]

/-- C51: the public export depends on the public part alone, so it carries nothing else of the private key;
and a public wallet has no private export. -/
theorem C51_secrecy (H : Hashes) (w v : HDWallet) (hw : PublicPart w v) :
    w.toExtendedKey H false = v.toExtendedKey H false ∧
    (Exportable v → v.toExtendedKey H true = .error .exception) := by
  obtain ⟨⟨x, y, o, o', hP, hk⟩, hc, -, ht, hd, hf, hn⟩ := hw
  have hvp : v.point = .ok (.aff x y o') := by unfold HDWallet.point; rw [hk]
  have hpf : v.parentFp = w.parentFp := by unfold HDWallet.parentFp; rw [hd, hf]
  constructor
  · unfold HDWallet.toExtendedKey HDWallet.extData
    rw [hP, hvp, hc, ht, hd, hn, hpf]
    rfl
  · intro h
    obtain ⟨⟨d0, d1⟩, ⟨c0, c1⟩, -, -⟩ := h
    have e1 := num4 (v := bip32Version v.testnet true) (by cases v.testnet <;> decide)
    have e2 := num1 (v := v.depth.toNat) (by omega)
    have e3 := num4 (v := v.childnum.toNat) (by omega)
    rw [Int.toNat_of_nonneg d0] at e2
    rw [Int.toNat_of_nonneg c0] at e3
    unfold HDWallet.toExtendedKey
    rw [extVersion_eq, e1, ok_bind, e2, ok_bind, e3, ok_bind]
    unfold HDWallet.extData
    rw [hk]
    rfl

/-- C51: every wallet derived from a master can be exported both ways. -/
theorem C51_paths (H : Hashes) (is : List Int) (w : HDWallet) (h : Path H is w) :
    Exportable w ∧ ∃ (k x y : Nat) (o : Option Nat), w.key = .prv k ∧ k < n ∧ x < p ∧ PubPoint k x y ∧
      w.point = .ok (.aff x y o) := by
  obtain ⟨⟨k, hk, h1, h2⟩, hd, hl, hc, hf, c0, c1, -⟩ := C49_paths H is w h
  obtain ⟨d, rfl⟩ := Int.eq_ofNat_of_zero_le (show 0 ≤ k by omega)
  obtain ⟨x, y, o, hp, hP⟩ := point_prv hk h1 h2
  refine ⟨⟨by omega, ⟨c0, c1⟩, ?_, hc⟩, d, x, y, o, hk, by omega, hp.1, hp, hP⟩
  unfold HDWallet.parentFp
  split
  · rfl
  · exact hf

/-! ### C50 -/

/-- C50 is false: no extended key at all can be imported.  Repairing the call of `b58decode` would not be
enough, the rest of the function always raises too. -/
theorem C50_reimport_false (H : Hashes) (s decoded : Bytes) :
    HDWallet.fromExtendedKey H s = .error .typeError ∧ ∃ e, importBody H decoded = .error e := by
  refine ⟨rfl, ?_⟩
  unfold importBody
  cases importFields H decoded with
  | error e => exact ⟨e, rfl⟩
  | ok v => exact ⟨_, rfl⟩

theorem importFields_record (H : Hashes) (version depth childnum : Nat) (fp chain key : Bytes) (hv : version < 2 ^ 32)
    (hd : depth < 256) (hc : childnum < 2 ^ 32) (hf : fp.length = 4) (hch : chain.length = 32)
    (hk : key.length = 33) (K' : HDKey) (hi : importKey version key = .ok K') (s : Bytes)
    (hs : s = encodeCheck H (bip32Record version depth fp childnum chain key)) :
    b58decode s >>= importFields H = .ok (K', chain, decide (version = 0x043587CF ∨ version = 0x04358394),
      depth, childnum, fp) := by
  obtain ⟨hl, f1, f2, f3, f4, f5, f6⟩ := C51_fields version depth childnum fp chain key hv hd hc hf hch hk
  generalize bip32Record version depth fp childnum chain key = r at *
  have hs' : s = b58encode (r ++ (H.sha256 (H.sha256 r)).take 4) := hs
  rw [hs', b58decode_b58encode, ok_bind]
  have l4 : ((H.sha256 (H.sha256 r)).take 4).length = 4 := by rw [List.length_take, H.sha256_length]; rfl
  unfold importFields
  rw [show pyAssert (decide (r ++ (H.sha256 (H.sha256 r)).take 4 ≠ [])) = .ok () by
    rw [pyAssert_ok_iff, decide_eq_true_eq]
    intro h0
    have := congrArg List.length h0
    rw [List.length_append, l4] at this
    simp at this, ok_bind]
  simp only
  rw [List.take_left' hl, List.drop_left' hl, List.take_of_length_le l4.le,
    show pyAssert (decide ((H.sha256 (H.sha256 r)).take 4 = (H.sha256 (H.sha256 r)).take 4)) = .ok () by
      rw [pyAssert_ok_iff, decide_eq_true_eq], ok_bind,
    stringToNumber_eq _ (by intro h0; have := congrArg List.length h0; rw [List.length_take, hl] at this; simp at this),
    ok_bind, stringToNumber_eq _ (by
      intro h0; have := congrArg List.length h0; rw [List.length_take, List.length_drop, hl] at this; simp at this),
    ok_bind, stringToNumber_eq _ (by
      intro h0; have := congrArg List.length h0; rw [List.length_take, List.length_drop, hl] at this; simp at this),
    ok_bind, f1, f2, f3, f4, f5, f6, List.take_of_length_le hk.le, hi, ok_bind]

/-- C50, what the function does right: up to its last statement it accepts the private export of every
exportable wallet and reads exactly its fields.  Missing: the call of `b58decode` and the last statement. -/
theorem C50_private_partial (H : Hashes) (w : HDWallet) (h : Exportable w) (k : Nat) (hk : w.key = .prv k)
    (hn : k < n) : ∃ s, w.toExtendedKey H true = .ok s ∧ b58decode s >>= importFields H =
      .ok (w.key, w.chain, w.testnet, w.depth.toNat, w.childnum.toNat, w.parentFp) := by
  refine ⟨_, ext_eq h true (0 :: beBytes 32 k) (by
    unfold HDWallet.extData
    rw [if_pos rfl, hk]
    simp only
    rw [Piecewise.toString_n hn, ok_bind]
    rfl), ?_⟩
  obtain ⟨⟨d0, d1⟩, ⟨c0, c1⟩, hf, hc⟩ := h
  have hi : ∀ t, importKey (bip32Version t true) (0 :: beBytes 32 k) = .ok (.prv k) := by
    intro t
    unfold importKey
    rw [if_neg (by cases t <;> decide), if_pos (by cases t <;> decide)]
    rw [show pyIndex (0 :: beBytes 32 k) 0 = .ok 0 from rfl, ok_bind,
      show pyAssert ((0 : UInt8) == 0) = .ok () from rfl, ok_bind, List.drop_succ_cons, List.drop_zero,
      stringToNumber_eq _ (by intro h0; have := congrArg List.length h0; simp at this), ok_bind,
      bytesVal_beBytes_of_lt (lt_trans hn Piecewise.n_lt)]
  rw [importFields_record H _ _ _ _ _ _ (by cases w.testnet <;> decide) (by omega) (by omega) hf hc
    (by simp) _ (hi _) _ rfl, hk, show decide (bip32Version w.testnet true = 0x043587CF ∨
      bip32Version w.testnet true = 0x04358394) = w.testnet by cases w.testnet <;> decide]

/-- C50, the public export likewise, except that the point is negated when the one of `y` and `p - y` that is a
square modulo `p` is odd. -/
theorem C50_public_partial (H : Hashes) (w : HDWallet) (h : Exportable w) (x y : Nat) (o : Option Nat)
    (hP : w.point = .ok (.aff x y o)) (hx : x < p) (hy : y < p) (hon : OnCurve K x y) :
    ∃ s, w.toExtendedKey H false = .ok s ∧
      b58decode s >>= importFields H = .ok
        (.pub (.aff x ((if residueRoot p y % 2 = 0 then y else p - y : Nat) : Int) none),
        w.chain, w.testnet, w.depth.toNat, w.childnum.toNat, w.parentFp) := by
  obtain ⟨r, hr, -, -, -, hdec⟩ := pointDecompress_eq hx hy hon
  obtain rfl : r = residueRoot p y := by exact_mod_cast root_eq hy hon hr
  clear hr
  generalize residueRoot p y = r at hdec ⊢
  refine ⟨_, ext_eq h false (compressedKey x y) (by
    unfold HDWallet.extData
    rw [if_neg (by decide), hP, ok_bind, pointCompress_ok hx]), ?_⟩
  obtain ⟨⟨d0, d1⟩, ⟨c0, c1⟩, hf, hc⟩ := h
  have hi : ∀ t, importKey (bip32Version t false) (compressedKey x y) =
      .ok (.pub (.aff x ((if r % 2 = 0 then y else p - y : Nat) : Int) none)) := by
    intro t
    unfold importKey
    rw [if_pos (by cases t <;> decide), show pyIndex (compressedKey x y) 0 = .ok (if y % 2 = 0 then 2 else 3) from rfl,
      ok_bind, show pyAssert ((if y % 2 = 0 then (2 : UInt8) else 3) == 2 || (if y % 2 = 0 then (2 : UInt8) else 3) == 3)
        = .ok () by split <;> rfl, ok_bind, hdec, ok_bind]
  rw [importFields_record H _ _ _ _ _ _ (by cases w.testnet <;> decide) (by omega) (by omega) hf hc
    (by unfold compressedKey; simp) _ (hi _) _ rfl, show decide (bip32Version w.testnet false = 0x043587CF ∨
      bip32Version w.testnet false = 0x04358394) = w.testnet by cases w.testnet <;> decide]

/-! ### C54 -/

/-- C54, what holds: when the wallet cannot be dumped, the file is not touched. -/
theorem C54_dump_fails_partial (ver : PyVer) (json : AnyCfg → Bytes) (w : AnyWallet) (pw : Bytes)
    (old : Option Bytes) (cuts : List Nat) (e : PyErr) (h : w.dump ver pw = .error e) :
    ∀ c ∈ saveTo ver json w pw old cuts, c = old := by
  intro c hc
  unfold saveTo at hc
  rw [h] at hc
  simpa using hc

/-- A wallet that cannot be dumped: a public one at the point at infinity. -/
example (ver : PyVer) : (AnyWallet.hd ⟨.pub .inf, [], 0, false, 0, [], 0⟩).dump ver [] = .error .typeError := by
  cases ver <;> rfl

/-- C54 is false: whenever the wallet is dumped, there is a moment at which the file is empty, so that it holds
neither the old wallet nor the new one. -/
theorem C54_crash_false (ver : PyVer) (json : AnyCfg → Bytes) (w : AnyWallet) (pw : Bytes)
    (old : Option Bytes) (cuts : List Nat) (cfg : AnyCfg) (h : w.dump ver pw = .ok cfg)
    (hnew : json cfg ≠ []) (hold : old ≠ some []) :
    ∃ c ∈ saveTo ver json w pw old cuts, c ≠ old ∧ c ≠ some (json cfg) ∧
      ∀ H parse q prompt e, parse [] = .error e → loadFrom ver H parse c q prompt = .error e := by
  refine ⟨some [], ?_, fun h0 => hold h0.symm, fun h0 => ?_, ?_⟩
  · unfold saveTo
    rw [h]
    simp
  · injection h0 with h0
    exact hnew h0.symm
  · intro H parse q prompt e he
    unfold loadFrom
    simp only
    rw [he, error_bind]

/-- C54: a save that is not interrupted leaves the new text, and a private wallet is then loaded from it, given
that the JSON reader inverts the writer. -/
theorem C54_complete_partial (ver : PyVer) (H : Hashes) (json : AnyCfg → Bytes) (parse : Bytes → Py AnyCfg)
    (hj : ∀ c, parse (json c) = .ok c) (pw prompt : Bytes) (old : Option Bytes) (cuts : List Nat) :
    (∀ a : Address, Made H a → a.privKey ≠ none → ∃ c, (saveTo ver json (.default a) pw old cuts).getLast? = some c ∧
      loadFrom ver H parse c pw prompt = .ok (.default a)) ∧
    (∀ (w : HDWallet) k, HDMade w → w.key = .prv k → ∃ c, (saveTo ver json (.hd w) pw old cuts).getLast? = some c ∧
      loadFrom ver H parse c pw prompt = .ok (.hd { w with parentfp := w.parentFp })) := by
  constructor
  · intro a ha hp
    obtain ⟨cfg, h1, h2⟩ := C45_private_partial ver H a ha hp pw
    refine ⟨some (json (.default cfg)), ?_, ?_⟩
    · unfold saveTo AnyWallet.dump
      simp only
      rw [h1, ok_bind]
      simp only
      rw [List.getLast?_append, List.getLast?_singleton]
      rfl
    · unfold loadFrom
      simp only
      rw [hj, ok_bind]
      unfold AnyCfg.load
      simp only
      rw [h2]
      rfl
  · intro w k hw hk
    obtain ⟨cfg, h1, h2⟩ := C46_private_partial ver w k hw hk pw
    refine ⟨some (json (.hd cfg)), ?_, ?_⟩
    · unfold saveTo AnyWallet.dump
      simp only
      rw [h1, ok_bind]
      simp only
      rw [List.getLast?_append, List.getLast?_singleton]
      rfl
    · unfold loadFrom
      simp only
      rw [hj, ok_bind]
      unfold AnyCfg.load
      simp only
      rw [h2]
      rfl

/-! ### C126 -/

/-- C126: what `loadFrom` gives for each kind of file.  A wallet that is loaded is of the kind the file says
and comes from its data; a file of another type is refused with `RuntimeError`, a missing one with
`IOError`. -/
theorem C126_load (ver : PyVer) (H : Hashes) (parse : Bytes → Py AnyCfg) (file : Option Bytes)
    (pw prompt : Bytes) :
    (∀ w, loadFrom ver H parse file pw prompt = .ok w → ∃ text cfg, file = some text ∧ parse text = .ok cfg ∧
      ((∃ c a, cfg = .default c ∧ w = .default a ∧ Address.load ver H c pw prompt 0 = .ok a) ∨
       (∃ c v, cfg = .hd c ∧ w = .hd v ∧ HDWallet.load ver c pw prompt = .ok v))) ∧
    (∀ text, file = some text → parse text = .ok .other →
      loadFrom ver H parse file pw prompt = .error .runtimeError) ∧
    (file = none → loadFrom ver H parse file pw prompt = .error .ioError) := by
  refine ⟨fun w h => ?_, ?_, ?_⟩
  · cases file with
    | none => cases h
    | some text =>
      obtain ⟨cfg, h1, h⟩ := bind_ok_iff.1 h
      refine ⟨text, cfg, rfl, h1, ?_⟩
      cases cfg with
      | default c =>
        obtain ⟨a, h2, h⟩ := bind_ok_iff.1 h
        cases h
        exact .inl ⟨c, a, rfl, rfl, h2⟩
      | hd c =>
        obtain ⟨v, h2, h⟩ := bind_ok_iff.1 h
        cases h
        exact .inr ⟨c, v, rfl, rfl, h2⟩
      | other => cases h
  · rintro text rfl h
    unfold loadFrom
    simp only
    rw [h, ok_bind]
    rfl
  · rintro rfl
    rfl

/-- A file with a wallet in it, and one of an unknown type. -/
example (ver : PyVer) (H : Hashes) (a : Address) (ha : Made H a) (hp : a.privKey ≠ none) (pw : Bytes) :
    ∃ c, loadFrom ver H (fun t => if t = [1] then .ok (.default c) else .ok .other) (some [1]) pw [] =
        .ok (.default a) ∧
      loadFrom ver H (fun t => if t = [1] then .ok (.default c) else .ok .other) (some [2]) pw [] =
        .error .runtimeError := by
  obtain ⟨cfg, h1, h2⟩ := C45_private_partial ver H a ha hp pw
  refine ⟨cfg, ?_, rfl⟩
  unfold loadFrom
  simp only [if_true, ok_bind]
  unfold AnyCfg.load
  simp only
  rw [h2]
  rfl

end NBC.Props
