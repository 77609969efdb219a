import Verif.Props.TextKinds
import Verif.Props.Points
import Verif.Props.ChildLeak

/-!
C181: an extended key says of which wallet it is.
-/

namespace NBC.Props

open NBC Key Ecdsa EC Aes Spec NBC.Secp Wallet NT Base58

theorem ext_data {H : Hashes} {w : HDWallet} {b : Bool} {s : Bytes} (h : w.toExtendedKey H b = .ok s) :
    ∃ d, w.extData b = .ok d := by
  unfold HDWallet.toExtendedKey at h
  obtain ⟨_, -, h⟩ := bind_ok_iff.1 h
  obtain ⟨_, -, h⟩ := bind_ok_iff.1 h
  obtain ⟨_, -, h⟩ := bind_ok_iff.1 h
  obtain ⟨d, hd, -⟩ := bind_ok_iff.1 h
  exact ⟨d, hd⟩

theorem version_inj {t b t' b' : Bool} (h : bip32Version t b = bip32Version t' b') : t = t' ∧ b = b' := by
  revert h
  cases t <;> cases b <;> cases t' <;> cases b' <;> decide

theorem ext_fields {H : Hashes} {w v : HDWallet} {b b' : Bool} {s : Bytes} (hw : Exportable w) (hv : Exportable v)
    (h : w.toExtendedKey H b = .ok s) (h' : v.toExtendedKey H b' = .ok s) :
    b = b' ∧ w.testnet = v.testnet ∧ w.depth = v.depth ∧ w.parentFp = v.parentFp ∧ w.childnum = v.childnum ∧
      w.chain = v.chain ∧ ∃ d, w.extData b = .ok d ∧ v.extData b' = .ok d := by
  obtain ⟨d, hd⟩ := ext_data h
  obtain ⟨d', hd'⟩ := ext_data h'
  rw [ext_eq hw b d hd] at h
  rw [ext_eq hv b' d' hd'] at h'
  have e := encodeCheck_injective H ((Except.ok.inj h).trans (Except.ok.inj h').symm)
  have lim : ∀ t b, bip32Version t b < 2 ^ 32 := by intro t b; cases t <;> cases b <;> decide
  obtain ⟨⟨d0, d1⟩, ⟨c0, c1⟩, hf, hc⟩ := hw
  obtain ⟨⟨d0', d1'⟩, ⟨c0', c1'⟩, hf', hc'⟩ := hv
  obtain ⟨-, a1, a2, a3, a4, a5, a6⟩ := C51_fields (bip32Version w.testnet b) w.depth.toNat w.childnum.toNat w.parentFp
    w.chain d (lim _ _) (by omega) (by omega) hf hc (extData_length hd)
  obtain ⟨-, b1, b2, b3, b4, b5, b6⟩ := C51_fields (bip32Version v.testnet b') v.depth.toNat v.childnum.toNat v.parentFp
    v.chain d' (lim _ _) (by omega) (by omega) hf' hc' (extData_length hd')
  rw [e] at a1 a2 a3 a4 a5 a6
  obtain ⟨t1, t2⟩ := version_inj (a1.symm.trans b1)
  have e2 := a2.symm.trans b2
  have e4 := a4.symm.trans b4
  refine ⟨t2, t1, by omega, a3.symm.trans b3, by omega, a5.symm.trans b5, d, hd, ?_⟩
  rw [hd', ← a6.symm.trans b6]

/-- C181: two wallets with one extended private key are the same wallet, but for the virtual chain number. -/
theorem C181_private_partial (H : Hashes) (w v : HDWallet) (b : Bool) (s : Bytes) (hw : Exportable w) (hv : Exportable v)
    (h : w.toExtendedKey H true = .ok s) (h' : v.toExtendedKey H b = .ok s) :
    b = true ∧ (∃ k, w.key = .prv k) ∧ w.key = v.key ∧ w.testnet = v.testnet ∧ w.depth = v.depth ∧
      w.parentFp = v.parentFp ∧ w.childnum = v.childnum ∧ w.chain = v.chain := by
  obtain ⟨rfl, h1, h2, h3, h4, h5, d, hd, hd'⟩ := ext_fields hw hv h h'
  have key : ∀ u : HDWallet, u.extData true = .ok d → u.key = .prv (bytesVal (d.drop 1)) := by
    intro u hu
    unfold HDWallet.extData at hu
    rw [if_pos rfl] at hu
    split at hu
    · cases hu
    · rename_i k hk
      obtain ⟨t, ht, hu⟩ := bind_ok_iff.1 hu
      cases hu
      rw [hk, (number_text ht).2]
      rfl
  exact ⟨rfl, ⟨_, key w hd⟩, (key w hd).trans (key v hd').symm, h1, h2, h3, h4, h5⟩

/-- Two points of the curve with one abscissa and ordinates of one parity are the same. -/
theorem parity_point {x y y' : Nat} (hy : y < p) (hy' : y' < p) (h : OnCurve K x y) (h' : OnCurve K x y')
    (hp : y % 2 = y' % 2) : y = y' := by
  have hpr : Nat.Prime p := prime_p
  have hodd : p % 2 = 1 := by decide
  have hd : (p : Int) ∣ ((y : Int) - y') * ((y : Int) + y') := by
    have e : (y : Int) ^ 2 % (p : Int) = (y' : Int) ^ 2 % (p : Int) := h.trans h'.symm
    have := Int.ModEq.dvd (show (y' : Int) ^ 2 ≡ (y : Int) ^ 2 [ZMOD p] from e.symm)
    rwa [show (y : Int) ^ 2 - (y' : Int) ^ 2 = ((y : Int) - y') * ((y : Int) + y') by ring] at this
  rcases (Nat.prime_iff_prime_int.1 hpr).dvd_or_dvd hd with hc | hc
  · have := Int.eq_zero_of_abs_lt_dvd hc (by rw [abs_lt]; constructor <;> omega)
    omega
  · have hn : p ∣ y + y' := by exact_mod_cast hc
    obtain ⟨m, hm⟩ := hn
    have hm2 : m < 2 := by
      by_contra hge
      have : p * 2 ≤ p * m := Nat.mul_le_mul_left _ (by omega)
      omega
    obtain rfl | rfl : m = 0 ∨ m = 1 := by omega
    · omega
    · omega

/-- C181: two wallets with one extended public key are at the same point of the curve and at the same place of the
tree. -/
theorem C181_public_partial (H : Hashes) (w v : HDWallet) (b : Bool) (s : Bytes) (hw : Exportable w) (hv : Exportable v)
    (x y x' y' : Nat) (o o' : Option Nat) (hP : w.point = .ok (.aff x y o)) (hQ : v.point = .ok (.aff x' y' o'))
    (hy : y < p) (hy' : y' < p) (hon : OnCurve K x y) (hon' : OnCurve K x' y')
    (h : w.toExtendedKey H false = .ok s) (h' : v.toExtendedKey H b = .ok s) :
    b = false ∧ x = x' ∧ y = y' ∧ w.testnet = v.testnet ∧ w.depth = v.depth ∧
      w.parentFp = v.parentFp ∧ w.childnum = v.childnum ∧ w.chain = v.chain := by
  obtain ⟨rfl, h1, h2, h3, h4, h5, d, hd, hd'⟩ := ext_fields hw hv h h'
  have key : ∀ (u : HDWallet) (x y : Nat) (o : Option Nat), u.point = .ok (.aff x y o) → u.extData false = .ok d →
      x = bytesVal (d.drop 1) ∧ d.take 1 = [UInt8.ofNat (2 + y % 2)] := by
    intro u x y o hu he
    unfold HDWallet.extData at he
    rw [if_neg (by decide), hu, ok_bind] at he
    unfold pointCompress at he
    obtain ⟨t, ht, he⟩ := bind_ok_iff.1 he
    cases he
    refine ⟨by exact_mod_cast (number_text ht).2, ?_⟩
    rw [show (((y : Int) % 2).toNat) = y % 2 by omega]
    rfl
  obtain ⟨e1, e2⟩ := key w x y o hP hd
  obtain ⟨e1', e2'⟩ := key v x' y' o' hQ hd'
  obtain rfl : x = x' := e1.trans e1'.symm
  have hpar : y % 2 = y' % 2 := by
    have e := List.head_eq_of_cons_eq (e2.symm.trans e2')
    rcases Nat.mod_two_eq_zero_or_one y with a | a <;> rcases Nat.mod_two_eq_zero_or_one y' with c | c <;>
      rw [a, c] at e ⊢ <;> exact absurd e (by decide)
  exact ⟨rfl, rfl, parity_point hy hy' hon hon' hpar, h1, h2, h3, h4, h5⟩

/-- C181 fails for the virtual chain number: it is not in the extended keys, so that wallets with the same extended keys
have different addresses. -/
theorem C181_vcn_false (H : Hashes) (w : HDWallet) (c : Int) (hne : c % 65536 ≠ w.vcn % 65536) :
    (∀ b, ({ w with vcn := c } : HDWallet).toExtendedKey H b = w.toExtendedKey H b) ∧
    ∀ a a', w.address H = .ok a → ({ w with vcn := c } : HDWallet).address H = .ok a' → a ≠ a' := by
  refine ⟨fun b => rfl, fun a a' h h' e => ?_⟩
  unfold HDWallet.address at h h'
  obtain ⟨P, -, h⟩ := bind_ok_iff.1 h
  obtain ⟨u, -, h⟩ := bind_ok_iff.1 h
  obtain ⟨Q, -, h'⟩ := bind_ok_iff.1 h'
  obtain ⟨u', -, h'⟩ := bind_ok_iff.1 h'
  rw [← Except.ok.inj h, ← Except.ok.inj h'] at e
  exact hne (C06_address_injective H _ _ _ _ _ _ rfl e).2.1.symm

/-- Two wallets with different extended keys, and a wallet for the last theorem that has an address. -/
example : let w : HDWallet := ⟨.prv 1, List.replicate 32 7, 5, false, 0, [], 0⟩
    Exportable w ∧ (∃ a, w.address Hashes.toy = .ok a) ∧
    ∃ s s', w.toExtendedKey Hashes.toy true = .ok s ∧
      ({ w with childnum := 1 } : HDWallet).toExtendedKey Hashes.toy true = .ok s' ∧ s ≠ s' := by
  intro w
  refine ⟨⟨by decide, by decide, by decide, by decide⟩, ?_, ?_⟩
  · have : (w.address Hashes.toy).toOption.isSome = true := by decide +kernel
    cases h : w.address Hashes.toy with
    | error e => rw [h] at this; cases this
    | ok a => exact ⟨a, rfl⟩
  · have e1 : Exportable w := ⟨by decide, by decide, by decide, by decide⟩
    have e2 : Exportable { w with childnum := 1 } := ⟨by decide, by decide, by decide, by decide⟩
    obtain ⟨s, hs, -⟩ := C51_private Hashes.toy w e1 1 rfl (by decide)
    obtain ⟨s', hs', -⟩ := C51_private Hashes.toy { w with childnum := 1 } e2 1 rfl (by decide)
    refine ⟨s, s', hs, hs', ?_⟩
    rintro rfl
    obtain ⟨-, -, -, -, -, -, h, -⟩ := C181_private_partial Hashes.toy w { w with childnum := 1 } true s e1 e2 hs hs'
    exact absurd h (by decide)

/-- C181 for wallets derived from masters: one extended key, public or private, belongs to one private key and one
place. -/
theorem C181_paths_partial (H : Hashes) (is is' : List Int) (w v : HDWallet) (h : Path H is w) (h' : Path H is' v)
    (b b' : Bool) (s : Bytes) (hs : w.toExtendedKey H b = .ok s) (hs' : v.toExtendedKey H b' = .ok s) :
    b = b' ∧ w.key = v.key ∧ w.testnet = v.testnet ∧ w.depth = v.depth ∧ w.parentFp = v.parentFp ∧
      w.childnum = v.childnum ∧ w.chain = v.chain := by
  obtain ⟨he, k, x, y, o, hk, hn, hx, hp, hP⟩ := C51_paths H is w h
  obtain ⟨he', k', x', y', o', hk', hn', hx', hp', hP'⟩ := C51_paths H is' v h'
  cases b with
  | true =>
    obtain ⟨rfl, -, r⟩ := C181_private_partial H w v b' s he he' hs hs'
    exact ⟨rfl, r⟩
  | false =>
    obtain ⟨rfl, rfl, rfl, r⟩ := C181_public_partial H w v b' s he he' x y x' y' o o' hP hP' hp.2.1 hp'.2.1 hp.on hp'.on hs hs'
    refine ⟨rfl, ?_, r⟩
    have range : ∀ (js : List Int) (u : HDWallet) (m : Nat), Path H js u → u.key = .prv m → 1 ≤ m := by
      intro js u m hu hm
      obtain ⟨⟨q, hq, h1, -⟩, -⟩ := C49_paths H js u hu
      rw [hm] at hq
      cases hq
      omega
    obtain ⟨-, hall, -⟩ := C132_points secp256k1 (by simp [curves])
    obtain ⟨d, -, hd⟩ := hall x y hx hp.2.1 hp.on
    have e : mul secp256k1.curve secp256k1.generator k = .ok (.aff x y o) := by
      rw [← hP]; unfold HDWallet.point; rw [hk]
    have e' : mul secp256k1.curve secp256k1.generator k' = .ok (.aff x y o') := by
      rw [← hP']; unfold HDWallet.point; rw [hk']
    rw [hk, hk', hd k ⟨⟨range is w k h hk, hn⟩, o, e⟩, hd k' ⟨⟨range is' v k' h' hk', hn'⟩, o', e'⟩]

theorem path_last {H : Hashes} {is : List Int} {w : HDWallet} (h : Path H is w) : ∀ i, is.getLast? = some i → w.childnum = i := by
  cases h with
  | master seed vcn rnd tn w hr h => intro i hi; cases hi
  | child hw i rnd hr h =>
    intro j hj
    rw [List.getLast?_concat] at hj
    cases hj
    obtain ⟨-, -, -, -, msg, key, fp, -, -, -, -, rfl⟩ := child_inv h
    rfl

/-- C181: wallets with one extended key, of one seed or of two, are at the same depth and have the same last index.  So
the extended keys of a wallet, its ancestors and its siblings all differ, whatever the hash functions. -/
theorem C181_places (H : Hashes) (is is' : List Int) (w v : HDWallet) (h : Path H is w) (h' : Path H is' v)
    (b b' : Bool) (s : Bytes) (hs : w.toExtendedKey H b = .ok s) (hs' : v.toExtendedKey H b' = .ok s) :
    is.length = is'.length ∧ is.getLast? = is'.getLast? := by
  obtain ⟨-, -, -, hd, -, hc, -⟩ := C181_paths_partial H is is' w v h h' b b' s hs hs'
  obtain ⟨-, e, -⟩ := C49_paths H is w h
  obtain ⟨-, e', -⟩ := C49_paths H is' v h'
  have hl : is.length = is'.length := by omega
  refine ⟨hl, ?_⟩
  rcases List.eq_nil_or_concat is with rfl | ⟨js, i, rfl⟩
  · rw [List.length_eq_zero_iff.1 hl.symm]
  · rcases List.eq_nil_or_concat is' with rfl | ⟨js', i', rfl⟩
    · simp at hl
    · rw [List.concat_eq_append] at h h' ⊢
      rw [List.concat_eq_append]
      have a := path_last h i (by simp)
      have a' := path_last h' i' (by simp)
      simp only [List.getLast?_append, List.getLast?_singleton, Option.some_or]
      rw [← a, ← a', hc]

/-- C181: two children of a wallet with different indices have different extended keys. -/
theorem C181_siblings (H : Hashes) (is : List Int) (w c d : HDWallet) (i j : Int) (r r' : Nat) (h : Path H is w)
    (hr : r < 65536) (hr' : r' < 65536) (hc : w.child H i r = .ok c) (hd : w.child H j r' = .ok d) (hij : i ≠ j)
    (b b' : Bool) : c.toExtendedKey H b ≠ d.toExtendedKey H b' := by
  obtain ⟨s, hs, -⟩ := C180_paths H _ c (.child h i r hr hc) b
  intro e
  obtain ⟨-, hl⟩ := C181_places H _ _ c d (.child h i r hr hc) (.child h j r' hr' hd) b b' s hs (e ▸ hs)
  simp only [List.getLast?_append, List.getLast?_singleton, Option.some_or, Option.some.injEq] at hl
  exact hij hl

/-- A master with the children 4 and 6; their extended keys differ. -/
example : ∃ w c d, Path hashesOne [] w ∧ w.child hashesOne 4 8 = .ok c ∧ w.child hashesOne 6 9 = .ok d ∧
    Path hashesOne [4] c ∧ Path hashesOne [6] d ∧ ∀ b b', c.toExtendedKey hashesOne b ≠ d.toExtendedKey hashesOne b' := by
  have h : Path hashesOne [] ⟨.prv (bytesVal (List.replicate 32 1)), List.replicate 32 1, 3, false, 0, List.replicate 4 0, 0⟩ :=
    .master [1, 2] (some 3) 0 false _ (by decide) (by decide +kernel)
  obtain ⟨c, hc, -⟩ := child_one
    ⟨.prv (bytesVal (List.replicate 32 1)), List.replicate 32 1, 3, false, 0, List.replicate 4 0, 0⟩
    (bytesVal (List.replicate 32 1)) rfl (by decide) (by decide) (by decide) (by decide) 4 (by decide) 8
  obtain ⟨d, hd, -⟩ := child_one
    ⟨.prv (bytesVal (List.replicate 32 1)), List.replicate 32 1, 3, false, 0, List.replicate 4 0, 0⟩
    (bytesVal (List.replicate 32 1)) rfl (by decide) (by decide) (by decide) (by decide) 6 (by decide) 9
  exact ⟨_, c, d, h, hc, hd, .child h 4 8 (by decide) hc, .child h 6 9 (by decide) hd, fun b b' =>
    C181_siblings hashesOne [] _ c d 4 6 8 9 h (by decide) (by decide) hc hd (by decide) b b'⟩

end NBC.Props
