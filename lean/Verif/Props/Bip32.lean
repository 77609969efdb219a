import Verif.Spec.Bip32
import Verif.Props.HDWallet

/-!
# C122: derivation follows BIP 32
-/

namespace NBC.Props
open NBC Key Ecdsa EC Aes Spec NBC.Secp Wallet NT Base58

theorem serP_of {k : Nat} {x y : Nat} (hp : PubPoint k x y) :
    Bip32.serP (Bip32.point k) = compressedKey x y := by
  obtain ⟨hx, hy, h, he⟩ := hp
  rw [natCast_zsmul] at he
  unfold Bip32.point
  rw [he]
  show compressedKey (x : ZMod K.p).val (y : ZMod K.p).val = _
  have ex : (x : ZMod K.p).val = x := ZMod.val_natCast_of_lt hx
  have ey : (y : ZMod K.p).val = y := ZMod.val_natCast_of_lt hy
  rw [ex, ey]

theorem emod_nat (k m : Nat) : ((k : Int) + (m : Int)) % (n : Nat) = ((m + k) % n : Nat) := by
  rw [add_comm]; push_cast; rfl

/-- Hardened derivation, step by step. -/
theorem child_hardened {H : Hashes} {w : HDWallet} {x y : Nat} {o : Option Nat} (hx : x < p) {k : Nat}
    (hk : w.key = .prv (k : Int)) (hkn : k < n)
    (hP : w.point = .ok (.aff x y o)) {i : Nat} (hi : 2 ^ 31 ≤ i) (hi2 : i < 2 ^ 32) (rnd : Nat)
    (hd : w.depth < 255) :
    w.child H i rnd =
        (w.childKey (bytesVal ((H.hmacSha512 w.chain ([0x00] ++ beBytes 32 k ++ beBytes 4 i)).take 32))).bind
        (fun key =>
          HDWallet.init key ((H.hmacSha512 w.chain ([0x00] ++ beBytes 32 k ++ beBytes 4 i)).drop 32) none rnd
            w.testnet (some (w.depth + 1, (hash160 H (compressedKey x y)).take 4, (i : Int)))) := by
  have e1 : pyAssert (decide ((0 : Int) ≤ (i : Nat) ∧ ((i : Nat) : Int) ≤ 4294967295)) = .ok () := by
    rw [pyAssert_ok_iff, decide_eq_true_eq]; omega
  have e2 : decide (((i : Nat) : Int).toNat &&& 0x80000000 ≠ 0) = true := by
    rw [Int.toNat_natCast, decide_eq_true_eq]; exact (hardened_iff hi2).2 hi
  unfold HDWallet.child
  rw [e1, ok_bind]
  have hpub : w.key.isPub = false := by rw [hk]; rfl
  simp only [e2, hpub, Bool.and_false, Bool.false_eq_true, if_false]
  rw [show pyAssert (decide (w.depth < 255)) = .ok () by
      rw [pyAssert_ok_iff, decide_eq_true_eq]; exact hd, ok_bind]
  have em : w.childMsg i true = .ok ([0x00] ++ beBytes 32 k ++ beBytes 4 i) := by
    have hb : k < 256 ^ orderlen secp256k1.order := by
      rw [show orderlen secp256k1.order = 32 from baselen_eq]
      exact lt_trans hkn (by decide)
    unfold HDWallet.childMsg
    rw [num4 (by omega), ok_bind, hk]
    simp only [if_true]
    rw [numberToString_eq hb, show orderlen secp256k1.order = 32 from baselen_eq, ok_bind]
  have ef : w.fingerprint H = .ok ((hash160 H (compressedKey x y)).take 4) := by
    unfold HDWallet.fingerprint
    rw [hP, ok_bind, pointCompress_ok hx, ok_bind]
  rw [em, ok_bind, stringToNumber_eq _ (by
    intro h0
    have := congrArg List.length h0
    rw [List.length_take, H.hmacSha512_length] at this
    simp at this), ok_bind, ef]
  rfl

/-- C122, private wallets: `child(i)` is `CKDpriv`, hardened or not, with the fingerprint of the parent;
it raises exactly where BIP 32 has no child. -/
theorem C122_private (H : Hashes) (w : HDWallet) (k : Nat) (hw : HDMade w) (hk : w.key = .prv (k : Int))
    (i : Nat) (hi : i < 2 ^ 32) (hd : w.depth < 255) (rnd : Nat) :
    w.child H i rnd = match Bip32.ckdPriv H k w.chain i with
      | none => .error .exception
      | some (k', c') => .ok ⟨.prv (k' : Int), c', (rnd : Int), w.testnet, w.depth + 1,
          Bip32.fingerprint H (Bip32.point k), i⟩ := by
  obtain ⟨h1, h2⟩ := hw.inv.1 k hk
  have hkn : k < n := by exact_mod_cast h2
  obtain ⟨x, y, o, hp, hP⟩ := point_prv hk h1 h2
  have hs := serP_of hp
  have key : ∀ I : Bytes, I.length = 64 →
      (w.childKey (bytesVal (I.take 32))).bind (fun key => HDWallet.init key (I.drop 32) none rnd w.testnet
          (some (w.depth + 1, (hash160 H (compressedKey x y)).take 4, (i : Int)))) =
      match (if n ≤ bytesVal (I.take 32) ∨ (bytesVal (I.take 32) + k) % n = 0 then none
          else some ((bytesVal (I.take 32) + k) % n, I.drop 32) : Option (Nat × Bytes)) with
      | none => .error .exception
      | some (k', c') => .ok ⟨.prv (k' : Int), c', (rnd : Int), w.testnet, w.depth + 1,
          Bip32.fingerprint H (Bip32.point k), i⟩ := by
    intro I hI
    generalize bytesVal (I.take 32) = m
    rw [childKey_prv hk m]
    have hiff : (n : Int) ∣ (k : Int) + m ↔ (m + k) % n = 0 := by
      rw [← Nat.dvd_iff_mod_eq_zero, add_comm]
      exact_mod_cast Iff.rfl
    by_cases hbad : n ≤ m ∨ (n : Int) ∣ (k : Int) + m
    · rw [if_pos hbad, if_pos (hbad.imp_right hiff.1)]
      rfl
    · rw [if_neg hbad, if_neg (fun h => hbad (h.imp_right hiff.2))]
      have h0 : (m + k) % n ≠ 0 := fun h => hbad (Or.inr (hiff.2 h))
      have hlt : (m + k) % n < n := Nat.mod_lt _ (by decide)
      simp only [Except.bind]
      rw [emod_nat, init_ok' none rnd w.testnet (by
          intro k' hk'
          injection hk' with hk'
          rw [← hk']
          constructor <;> omega) (by rw [List.length_drop, hI]) _ _ _ (by omega)]
      unfold Bip32.fingerprint
      rw [hs]
      rfl
  by_cases hh : 2 ^ 31 ≤ i
  · rw [child_hardened hp.1 hk hkn hP hh hi rnd hd]
    unfold Bip32.ckdPriv
    rw [if_pos hh]
    exact key _ (H.hmacSha512_length _ _)
  · rw [child_eq hp.1 hP (by omega) rnd, if_pos hd]
    unfold Bip32.ckdPriv
    rw [if_neg hh, hs]
    exact key _ (H.hmacSha512_length _ _)

/-- C122, public wallets: `child(i)` is `CKDpub` of the point, with the fingerprint of the parent; it raises
exactly where BIP 32 has no child. -/
theorem C122_public (H : Hashes) (w : HDWallet) (x y : Nat) (o : Option Nat)
    (hk : w.key = .pub (.aff x y o)) (hx : x < p) (hy : y < p) (hon : OnCurve K x y)
    (i : Nat) (hi : i < 2 ^ 32) (hd : w.depth < 255) (rnd : Nat) :
    ∃ P : (W K).Point, Rep K (.aff x y o) P ∧
    match Bip32.ckdPub H P w.chain i with
      | none => w.child H i rnd = .error .exception
      | some (P', c') => ∃ (x' y' : Nat) (o' : Option Nat), Rep K (.aff x' y' o') P' ∧ x' < p ∧ y' < p ∧
          w.child H i rnd = .ok ⟨.pub (.aff x' y' o'), c', (rnd : Int), w.testnet, w.depth + 1,
            Bip32.fingerprint H P, i⟩ := by
  obtain ⟨k, h1, h2, hp⟩ := exists_key hx hy hon
  refine ⟨Bip32.point k, by have := hp.rep o; rwa [natCast_zsmul] at this, ?_⟩
  have hs := serP_of hp
  have hP : w.point = .ok (.aff x y o) := by unfold HDWallet.point; rw [hk]
  by_cases hh : 2 ^ 31 ≤ i
  · unfold Bip32.ckdPub
    rw [if_pos hh]
    exact C49_hardened H w _ hk i (by exact_mod_cast hh) (by exact_mod_cast hi) rnd
  · have ec := child_eq (H := H) hx hP (show i < 2 ^ 31 by omega) rnd
    rw [if_pos hd] at ec
    unfold Bip32.ckdPub
    rw [if_neg hh, hs]
    simp only
    generalize hI : H.hmacSha512 w.chain (compressedKey x y ++ beBytes 4 i) = I at ec ⊢
    have hIl : I.length = 64 := by rw [← hI]; exact H.hmacSha512_length _ _
    generalize bytesVal (I.take 32) = m at ec ⊢
    obtain ⟨p1, p2⟩ := childKey_pub hp hk m
    have hsum : Bip32.point m + Bip32.point k = ((k : Int) + m) • g := by
      unfold Bip32.point
      rw [add_zsmul, natCast_zsmul, natCast_zsmul, add_comm]
    have hz : (n : Int) ∣ (k : Int) + m ↔ Bip32.point m + Bip32.point k = 0 := by
      rw [hsum, ← addOrderOf_g, addOrderOf_dvd_iff_zsmul_eq_zero]
    by_cases hbad : n ≤ m ∨ (n : Int) ∣ (k : Int) + m
    · rw [if_pos (hbad.imp_right hz.1), ec, p1 hbad]
      rfl
    · rw [if_neg (fun h => hbad (h.imp_right hz.2))]
      obtain ⟨x2, y2, o2, hp2, e2⟩ := p2 hbad
      refine ⟨x2, y2, o2, by rw [hsum]; exact hp2.rep o2, hp2.1, hp2.2.1, ?_⟩
      rw [ec, e2]
      simp only [Except.bind]
      rw [init_ok' none rnd w.testnet (by intro k' hk'; cases hk') (by rw [List.length_drop, hIl]) _ _ _
        (by omega)]
      unfold Bip32.fingerprint
      rw [hs]
      rfl

/-- C122, master wallets, what holds: the wallet of a seed is BIP 32's where the left half of the HMAC is below
the order; it is also made, with the half reduced, where BIP 32 calls the seed invalid. -/
theorem C122_master_partial (H : Hashes) (seed : Bytes) (vcn : Option Int) (rnd : Nat) (tn : Bool) :
    let I := H.hmacSha512 ("Bitcoin seed".toUTF8.toList) seed
    let IL := bytesVal (I.take 32)
    (IL < n → HDWallet.fromMasterSeed H seed vcn rnd tn = match Bip32.master H seed with
      | none => .error .valueError
      | some (k, c) => .ok ⟨.prv (k : Int), c, vcnOf vcn rnd, tn, 0, List.replicate 4 0, 0⟩) ∧
    (n ≤ IL → Bip32.master H seed = none ∧
      HDWallet.fromMasterSeed H seed vcn rnd tn =
        if IL % n = 0 then .error .valueError
        else .ok ⟨.prv ((IL % n : Nat) : Int), I.drop 32, vcnOf vcn rnd, tn, 0, List.replicate 4 0, 0⟩) := by
  intro I IL
  have hkey : "Bitcoin seed".toUTF8.toList = seedKey := by decide +kernel
  have hI : H.hmacSha512 seedKey seed = I := by rw [← hkey]
  have hlen : I.length = 64 := H.hmacSha512_length _ _
  have hne : I.take 32 ≠ [] := by
    intro h0
    have := congrArg List.length h0
    rw [List.length_take, hlen] at this
    simp at this
  have e : HDWallet.fromMasterSeed H seed vcn rnd tn =
      if IL % n = 0 then .error .valueError
        else .ok ⟨.prv ((IL % n : Nat) : Int), I.drop 32, vcnOf vcn rnd, tn, 0, List.replicate 4 0, 0⟩ := by
    unfold HDWallet.fromMasterSeed
    simp only [hI]
    rw [stringToNumber_eq _ hne, ok_bind, show secp256k1.order = n from rfl]
    split
    · rfl
    · rename_i h0
      have hlt : IL % n < n := Nat.mod_lt _ (by decide)
      have := init_ok' (key := .prv ((IL % n : Nat) : Int)) (chain := I.drop 32) vcn rnd tn (by
          intro k' hk'
          injection hk' with hk'
          rw [← hk']
          have h0' : IL % n ≠ 0 := h0
          constructor <;> omega) (by rw [List.length_drop, hlen]) 0 (List.replicate 4 0) 0 (by decide)
      exact this
  constructor
  · intro hlt
    rw [e, Nat.mod_eq_of_lt hlt]
    unfold Bip32.master
    simp only
    by_cases h0 : IL = 0
    · rw [if_pos h0, if_pos (Or.inl h0)]
    · rw [if_neg h0, if_neg (fun h => h.elim h0 (fun h => absurd hlt (not_lt.2 h)))]
  · intro hle
    refine ⟨?_, e⟩
    unfold Bip32.master
    exact if_pos (Or.inr hle)

/-- Hash functions with an HMAC whose left half is `n + 1`. -/
def hashesBig : Hashes := { Hashes.toy with
  hmacSha512 := fun _ _ => beBytes 32 (n + 1) ++ List.replicate 32 7
  hmacSha512_length := fun _ _ => by simp [beBytes_length] }

/-- C122 is false of master wallets: for an HMAC whose left half is the order plus one, BIP 32 calls the seed
invalid and the code makes a wallet with the private key 1. -/
theorem C122_master_false : ∃ H : Hashes, ∀ (seed : Bytes) (rnd : Nat), Bip32.master H seed = none ∧
    HDWallet.fromMasterSeed H seed none rnd false =
      .ok ⟨.prv 1, List.replicate 32 7, (rnd : Int), false, 0, List.replicate 4 0, 0⟩ := by
  refine ⟨hashesBig, fun seed rnd => ?_⟩
  have e : bytesVal ((hashesBig.hmacSha512 ("Bitcoin seed".toUTF8.toList) seed).take 32) = n + 1 := by
    show bytesVal ((beBytes 32 (n + 1) ++ List.replicate 32 7).take 32) = n + 1
    decide +kernel
  have h := (C122_master_partial hashesBig seed none rnd false).2
  simp only [e] at h
  obtain ⟨h1, h2⟩ := h (by omega)
  refine ⟨h1, h2.trans ?_⟩
  rw [show (n + 1) % n = 1 by decide +kernel, if_neg (by decide)]
  have : (hashesBig.hmacSha512 ("Bitcoin seed".toUTF8.toList) seed).drop 32 = List.replicate 32 7 := by
    show (beBytes 32 (n + 1) ++ List.replicate 32 7).drop 32 = _
    decide +kernel
  rw [this]
  rfl

/-- Deriving along a path, with the random chain number each constructor draws. -/
def childPath (H : Hashes) : HDWallet → List (Nat × Nat) → Py HDWallet
  | w, [] => .ok w
  | w, (i, rnd) :: rest => do
    let c ← w.child H i rnd
    childPath H c rest

/-- C122: along a path of any length that fits the depth, the key and the chain code at the end are those BIP 32
derives, and deriving fails exactly where BIP 32 does. -/
theorem C122_path (H : Hashes) (path : List (Nat × Nat)) (w : HDWallet) (k : Nat) (hw : HDMade w)
    (hk : w.key = .prv (k : Int)) (hp : ∀ ir ∈ path, ir.1 < 2 ^ 32 ∧ ir.2 < 65536)
    (hd : w.depth + path.length ≤ 255) :
    match Bip32.derive H (k, w.chain) (path.map Prod.fst) with
      | none => childPath H w path = .error .exception
      | some (k', c') => ∃ v, childPath H w path = .ok v ∧ v.key = .prv (k' : Int) ∧ v.chain = c' ∧
          v.depth = w.depth + path.length ∧ v.testnet = w.testnet := by
  induction path generalizing w k with
  | nil => exact ⟨w, rfl, hk, rfl, by simp, rfl⟩
  | cons ir rest ih =>
    obtain ⟨i, rnd⟩ := ir
    obtain ⟨hi, hr⟩ := hp _ List.mem_cons_self
    simp only [List.length_cons, Nat.cast_add, Nat.cast_one] at hd
    have hc := C122_private H w k hw hk i hi (by omega) rnd
    simp only [List.map_cons, Bip32.derive, childPath]
    cases hck : Bip32.ckdPriv H k w.chain i with
    | none =>
      rw [hck] at hc
      simp only at hc ⊢
      rw [hc]
      rfl
    | some kc =>
      obtain ⟨k', c'⟩ := kc
      rw [hck] at hc
      simp only at hc ⊢
      rw [hc, ok_bind]
      have hmade := (C49_derived H w _ i rnd hr hc).1
      have := ih _ k' hmade rfl (fun ir h => hp ir (List.mem_cons_of_mem _ h)) (by simp only; omega)
      simp only at this
      split
      · rename_i hn
        rw [hn] at this
        exact this
      · rename_i k2 c2 hs
        rw [hs] at this
        obtain ⟨v, e1, e2, e3, e4, e5⟩ := this
        refine ⟨v, e1, e2, e3, ?_, e5⟩
        rw [e4]
        simp only [List.length_cons, Nat.cast_add, Nat.cast_one]
        omega

/-- A wallet, an index and a depth as the theorems want them. -/
example : ∃ w : HDWallet, HDMade w ∧ w.key = .prv ((1 : Nat) : Int) ∧ w.depth < 255 ∧
    w.depth + ([(2 ^ 31 + 44, 5), (0, 6)] : List (Nat × Nat)).length ≤ 255 :=
  ⟨_, hd_example 3 (by decide), rfl, by decide, by decide⟩

/-- The same for a public wallet: the point of the private key 1. -/
example : ∃ (w : HDWallet) (x y : Nat) (o : Option Nat), w.key = .pub (.aff x y o) ∧ x < p ∧ y < p ∧
    OnCurve K x y ∧ w.depth < 255 :=
  ⟨⟨.pub (.aff _ _ none), List.replicate 32 1, 5, false, 3, [1, 2, 3, 4], 7⟩, _, _, none, rfl, pubPoint_one.1,
    pubPoint_one.2.1, pubPoint_one.on, by decide⟩

end NBC.Props
