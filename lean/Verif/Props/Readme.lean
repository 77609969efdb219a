import Verif.Model.Readme
import Verif.Props.WalletFile
import Verif.Props.HDFlow

/-!
# C147: the programs of the README
-/

namespace NBC.Props
open NBC Key Ecdsa EC Aes Spec NBC.Secp Wallet

/-! ### What is printed -/

/-- The text an address wallet should print. -/
def addressText (ver : PyVer) (address : Bytes) (hasKey : Bool) : Bytes :=
  let a := match ver with
    | .py2 => address
    | .py3 => ascii "b'" ++ address ++ ascii "'"
  ascii "<Address address=" ++ a ++ ascii (if hasKey then " private=**redacted**>" else " private=None>")

/-- The text an HD wallet should print. -/
def hdText (ver : PyVer) (address : Bytes) (hasKey : Bool) : Bytes :=
  let a := match ver with
    | .py2 => address
    | .py3 => ascii "b'" ++ address ++ ascii "'"
  ascii "<HD address=" ++ a ++ ascii (if hasKey then " private=**redacted**>" else " private=None>")

theorem strTail_address (ver : PyVer) (a : Bytes) (h : Bool) :
    [60, 65, 100, 100, 114, 101, 115, 115] ++ strTail ver a h = addressText ver a h := by
  cases ver <;> cases h <;> simp [strTail, addressText, pctS, redacted, ascii]

theorem strTail_hd (ver : PyVer) (a : Bytes) (h : Bool) :
    [60, 72, 68] ++ strTail ver a h = hdText ver a h := by
  cases ver <;> cases h <;> simp [strTail, hdText, pctS, redacted, ascii]

theorem strTail_inj (ver : PyVer) (a b : Bytes) (g h : Bool) (e : strTail ver a g = strTail ver b h) :
    a = b ∧ g = h := by
  have key : g = h := by
    have e' := congrArg List.reverse e
    cases g <;> cases h <;> simp [strTail, redacted] at e' ⊢
  subst key
  refine ⟨?_, rfl⟩
  unfold strTail at e
  have e1 := List.append_cancel_right e
  have e2 := List.append_cancel_left e1
  cases ver with
  | py2 => exact e2
  | py3 => simpa [pctS] using e2

/-- C147: what a wallet prints is its class, its address and whether it has a private key. -/
theorem C147_text (ver : PyVer) (H : Hashes) :
    (∀ a : Address, Made H a → a.str ver = addressText ver a.address a.privKey.isSome) ∧
    (∀ (w : HDWallet) address, w.address H = .ok address →
      w.str ver H = .ok (hdText ver address (match w.key with | .prv _ => true | .pub _ => false))) := by
  constructor
  · intro a ha
    unfold Address.str
    rw [strTail_address]
    congr 1
    obtain ⟨pub, priv, vcn, rnd, tn, -, h⟩ := ha
    cases hp : a.privKey with
    | none => rfl
    | some s =>
      have hne : s ≠ [] := by
        rintro rfl
        unfold Address.init at h
        obtain ⟨⟨q1, q2, q3⟩, h1, h⟩ := bind_ok_iff.1 h
        obtain ⟨⟨q4, q5⟩, -, h⟩ := bind_ok_iff.1 h
        obtain ⟨q6, -, h⟩ := bind_ok_iff.1 h
        have e := (Except.ok.inj h).symm
        rw [e] at hp
        simp only at hp
        subst hp
        unfold initPriv at h1
        cases priv with
        | none => simp at h1
        | some pk =>
          simp only at h1
          split at h1
          · simp at h1
          · split at h1
            · cases h1
            · rename_i h0 _
              obtain ⟨ch, -, h1⟩ := bind_ok_iff.1 h1
              split at h1
              · cases h1
              · obtain ⟨k1, -, h1⟩ := bind_ok_iff.1 h1
                obtain ⟨k2, -, h1⟩ := bind_ok_iff.1 h1
                obtain ⟨k3, -, h1⟩ := bind_ok_iff.1 h1
                obtain ⟨k4, -, h1⟩ := bind_ok_iff.1 h1
                simp only [Except.ok.injEq, Prod.mk.injEq, Option.some.injEq] at h1
                exact h0 h1.2.1
      simp [hne]
  · intro w address h
    unfold HDWallet.str
    rw [h, ok_bind, strTail_hd]
    cases hk : w.key <;> rfl

/-- C147: the printed text gives nothing away but the address and whether there is a private key: it is the same
for any two wallets that agree in these, and different otherwise. -/
theorem C147_secret (ver : PyVer) (a b : Address) :
    a.str ver = b.str ver ↔ a.address = b.address ∧ (a.privKey.getD [] = [] ↔ b.privKey.getD [] = []) := by
  unfold Address.str
  constructor
  · intro h
    obtain ⟨h1, h2⟩ := strTail_inj ver _ _ _ _ (List.append_cancel_left h)
    exact ⟨h1, by simpa [not_iff_not] using h2⟩
  · rintro ⟨h1, h2⟩
    rw [h1]
    simp only [ne_eq, h2]

/-! ### Part 1 -/

theorem generate_made (H : Hashes) (rnd : Nat) (hr : rnd < 65536) (ent : Nat → Nat → Bytes) (a : Address)
    (h : Address.generate H none rnd false true ent = .ok a) : Made H a := by
  unfold Address.generate at h
  obtain ⟨d, -, h⟩ := bind_ok_iff.1 h
  obtain ⟨k, -, h⟩ := bind_ok_iff.1 h
  exact ⟨_, _, _, _, _, hr, h⟩

theorem saved_ok {ver : PyVer} {json : AnyCfg → Bytes} {w : AnyWallet} {pw : Bytes} {cfg : AnyCfg}
    (h : w.dump ver pw = .ok cfg) : saved ver json w pw = .ok (some (json cfg)) := by
  unfold saved
  rw [h, ok_bind]

theorem load_saved {ver : PyVer} {H : Hashes} {json : AnyCfg → Bytes} (hj : Writer json) {w : AnyWallet} {pw : Bytes}
    {cfg : AnyCfg} (h : w.dump ver pw = .ok cfg) (q prompt : Bytes) :
    loadFrom ver H readCfg (some (json cfg)) q prompt = cfg.load ver H q prompt := by
  unfold loadFrom
  simp only
  rw [C146_read ver json hj w pw cfg h, ok_bind]

theorem dump_default {ver : PyVer} {a : Address} {pw : Bytes} {cfg : AddrCfg} (h : a.dump ver pw = .ok cfg) :
    (AnyWallet.default a).dump ver pw = .ok (.default cfg) := by
  unfold AnyWallet.dump
  simp only
  rw [h, ok_bind]

theorem dump_hd {ver : PyVer} {w : HDWallet} {pw : Bytes} {cfg : HDCfg} (h : w.dump ver pw = .ok cfg) :
    (AnyWallet.hd w).dump ver pw = .ok (.hd cfg) := by
  unfold AnyWallet.dump
  simp only
  rw [h, ok_bind]

theorem load_default {ver : PyVer} {H : Hashes} {cfg : AddrCfg} {q prompt : Bytes} {a : Address}
    (h : Address.load ver H cfg q prompt 0 = .ok a) : (AnyCfg.default cfg).load ver H q prompt = .ok (.default a) := by
  unfold AnyCfg.load
  simp only
  rw [h, ok_bind]

theorem load_hd {ver : PyVer} {H : Hashes} {cfg : HDCfg} {q prompt : Bytes} {w : HDWallet}
    (h : HDWallet.load ver cfg q prompt = .ok w) : (AnyCfg.hd cfg).load ver H q prompt = .ok (.hd w) := by
  unfold AnyCfg.load
  simp only
  rw [h, ok_bind]

/-- C147, part 1 of the README: once a random number is drawn, the program runs to its end, prints the same text
three times, and typing the password at the prompt gives the wallet back.  The text shows the address of the
compressed key, and the private key is redacted. -/
theorem C147_default (ver : PyVer) (H : Hashes) (json : AnyCfg → Bytes) (hj : Writer json) (rnd : Nat)
    (hr : rnd < 65536) (ent : Nat → Nat → Bytes) (d : Nat) (hd : randrange n ent = .ok d) :
    ∃ (a : Address) (x y : Nat), PubPoint d x y ∧
      a.address = publickeyToAddress H (compressedKey x y) rnd [0x00] ∧
      a.privBytes H = .ok (some (beBytes 32 d)) ∧
      readmeDefault ver H json rnd ent (ascii "password") =
        .ok (List.replicate 3 (addressText ver a.address true), .default a) := by
  obtain ⟨a, x, y, hg, -, -, hb, hp, -, hk, ha, -, -, hv, -⟩ := C53_generate H none rnd false true ent d hd
  have hm := generate_made H rnd hr ent a hg
  have hne : a.privKey ≠ none := by
    intro h0
    unfold Address.privBytes at hb
    rw [h0] at hb
    cases hb
  obtain ⟨c1, d1, l1⟩ := C45_private_partial ver H a hm hne []
  obtain ⟨c2, d2, l2⟩ := C45_private_partial ver H a hm hne password
  obtain ⟨c3, d3, l3⟩ := C45_prompt ver H a hm hne password
  obtain rfl : c2 = c3 := by
    rw [d2] at d3
    exact Except.ok.inj d3
  have ht : a.str ver = addressText ver a.address true := by
    rw [(C147_text ver H).1 a hm, Option.isSome_iff_ne_none.2 hne]
  refine ⟨a, x, y, hp, by simpa [hv rfl] using ha, hb, ?_⟩
  unfold readmeDefault
  rw [hg, ok_bind, hk, ok_bind, saved_ok (dump_default d1), ok_bind, load_saved hj (dump_default d1),
    load_default (l1 [] 0), ok_bind]
  simp only [AnyWallet.str]
  rw [ok_bind, saved_ok (dump_default d2), ok_bind, load_saved hj (dump_default d2), load_default (l2 [] 0), ok_bind]
  simp only
  rw [ok_bind, load_saved hj (dump_default d2), show ascii "password" = password by decide, load_default (l3 0), ok_bind, ht]
  rfl

/-! ### Part 2 -/

theorem master_made (H : Hashes) (rnd : Nat) (hr : rnd < 65536) (seed : Bytes) (w : HDWallet)
    (h : HDWallet.fromMasterSeed H seed none rnd false = .ok w) : HDMade w := by
  unfold HDWallet.fromMasterSeed at h
  obtain ⟨m, -, h⟩ := bind_ok_iff.1 h
  simp only at h
  split at h
  · cases h
  · exact ⟨_, _, _, _, _, _, hr, h⟩

/-- C147, part 2: when the seed gives a master wallet, the program prints its text three times. -/
theorem C147_hd (ver : PyVer) (H : Hashes) (json : AnyCfg → Bytes) (hj : Writer json) (rnd : Nat) (hr : rnd < 65536)
    (w : HDWallet) (hw : HDWallet.fromMasterSeed H (ascii "HDWallet seed") none rnd false = .ok w) :
    ∃ (k x y : Nat), w.key = .prv k ∧ PubPoint k x y ∧
      readmeHD ver H json rnd =
        .ok (List.replicate 3 (hdText ver (publickeyToAddress H (compressedKey x y) rnd [0x00]) true)) := by
  have hs : ascii "HDWallet seed" = readmeSeed := by decide
  rw [hs] at hw
  have hm := master_made H rnd hr _ w hw
  obtain ⟨-, k, x, y, o, hk, hn, hx, hp, hP⟩ := C51_paths H [] w (.master readmeSeed none rnd false w hr hw)
  obtain ⟨c1, d1, l1⟩ := C46_private_partial ver w k hm hk []
  obtain ⟨c2, d2, l2⟩ := C46_private_partial ver w k hm hk password
  have hv : w.vcn = rnd ∧ w.testnet = false := by
    unfold HDWallet.fromMasterSeed at hw
    obtain ⟨m, -, hw⟩ := bind_ok_iff.1 hw
    simp only at hw
    split at hw
    · cases hw
    · obtain ⟨-, -, -, -, -, h6, h7, -⟩ := init_inv hw
      exact ⟨h6, h7⟩
  have ha : w.address H = .ok (publickeyToAddress H (compressedKey x y) rnd [0x00]) := by
    unfold HDWallet.address
    rw [hP, ok_bind, pointCompress_ok hx o, ok_bind, hv.1, hv.2]
    rfl
  have ht := (C147_text ver H).2 w _ ha
  rw [hk] at ht
  have ht' : HDWallet.str ver H { w with parentfp := w.parentFp } = w.str ver H := rfl
  refine ⟨k, x, y, hk, hp, ?_⟩
  unfold readmeHD
  rw [hw, ok_bind, ht, ok_bind, saved_ok (dump_hd d1), ok_bind, saved_ok (dump_hd d2), ok_bind,
    load_saved hj (dump_hd d1), load_hd (l1 []), ok_bind]
  simp only [AnyWallet.str]
  rw [ht', ht, ok_bind, load_saved hj (dump_hd d2), load_hd (l2 []), ok_bind]
  simp only
  rw [ht', ht, ok_bind]
  rfl

/-- C147, the extended keys: the example never gets its child wallet.  Importing the public key raises
`TypeError`, whatever the hash functions are. -/
theorem C147_extend_false (H : Hashes) (rnd web1 web2 : Nat) (hr : rnd < 65536) (w : HDWallet)
    (hw : HDWallet.fromMasterSeed H (ascii "HDWallet seed") none rnd false = .ok w) :
    readmeExtend H rnd web1 web2 = .error .typeError := by
  rcases C142_main_false H rnd web1 web2 0 0 hr with ⟨w', h1, h2⟩ | ⟨e, h1, -⟩
  · have hs : ascii "HDWallet seed" = mainSeed := by decide
    rw [hs] at hw
    unfold hdMain at h2
    rw [hw, ok_bind] at h2
    unfold readmeExtend
    rw [show readmeSeed = mainSeed from rfl, hw, ok_bind]
    cases e1 : w.toExtendedKey H true with
    | error e => rw [e1, error_bind] at h2; rw [error_bind]; exact congrArg _ (Except.error.inj h2)
    | ok s =>
      rw [e1, ok_bind] at h2
      rw [ok_bind]
      cases e2 : w.toExtendedKey H false with
      | error e => rw [e2, error_bind] at h2; rw [error_bind]; exact congrArg _ (Except.error.inj h2)
      | ok t =>
        rw [ok_bind, (C50_reimport_false H t []).1, error_bind]
  · have hs : ascii "HDWallet seed" = mainSeed := by decide
    rw [hs, h1] at hw
    cases hw

/-! ### Part 3 -/

/-- C147, part 3, what holds: `addr.verify` and `addr2.verify` accept the signatures just made, provided the
`x`-coordinate drawn is below the group order. -/
theorem C147_sign_partial (H : Hashes) (rnd : Nat) (ent ent1 : Nat → Nat → Bytes) (a : Address) (sig : Bytes)
    (ha : Address.generate H none rnd false true ent = .ok a) (hs : a.sign H (ascii "example") ent1 = .ok sig) :
    ∃ k r ky : Nat, randrange n ent1 = .ok k ∧ PubPoint k r ky ∧
      a.verify H (ascii "example") sig = .ok (decide (r < n)) := by
  obtain ⟨d, hd⟩ : ∃ d, randrange n ent = .ok d := by
    unfold Address.generate at ha
    obtain ⟨d, hd, -⟩ := bind_ok_iff.1 ha
    exact ⟨d, hd⟩
  obtain ⟨a', x, y, hg, h1, h2, hb, hp, hk, -⟩ := C53_generate H none rnd false true ent d hd
  rw [ha] at hg
  obtain rfl := Except.ok.inj hg
  unfold Address.sign at hs
  unfold Address.privBytes at hb
  cases hw : a.privKey with
  | none => rw [hw] at hs; cases hs
  | some wif =>
    rw [hw] at hs hb
    simp only at hs hb
    obtain ⟨pk, hpk, hs⟩ := bind_ok_iff.1 hs
    rw [hpk, ok_bind] at hb
    have hpk' := Option.some.inj (Except.ok.inj hb)
    subst hpk'
    obtain ⟨x', y', k, r, hp', hk', ⟨ky, hky⟩, hv⟩ := C24_sign_verify_partial H _ _ ent1 sig hs
    rw [bytesVal_beBytes_of_lt (lt_trans h2 Piecewise.n_lt)] at hp'
    obtain ⟨rfl, rfl⟩ := hp.unique hp'
    refine ⟨k, r, ky, hk', hky, ?_⟩
    have := (hv []).1
    rw [List.append_nil] at this
    unfold Address.verify
    rw [hk]
    exact this

/-- C147, part 3 is false as a program: `addr.publicKey()` is a byte string and has no `verify`.  Once a wallet is
made and the signature drawn, the example stops there with `AttributeError`, and the HD wallet below it is never
made. -/
theorem C147_sign_false (H : Hashes) (rnd rnd2 : Nat) (ent ent1 ent2 : Nat → Nat → Bytes) (a : Address) (sig : Bytes)
    (ha : Address.generate H none rnd false true ent = .ok a) (hs : a.sign H (ascii "example") ent1 = .ok sig) :
    readmeSign H rnd rnd2 ent ent1 ent2 = .error .attributeError := by
  obtain ⟨k, r, ky, -, -, hv⟩ := C147_sign_partial H rnd ent ent1 a sig ha hs
  obtain ⟨d, hd⟩ : ∃ d, randrange n ent = .ok d := by
    unfold Address.generate at ha
    obtain ⟨d, hd, -⟩ := bind_ok_iff.1 ha
    exact ⟨d, hd⟩
  obtain ⟨a', x, y, hg, -, -, -, -, -, hk, -⟩ := C53_generate H none rnd false true ent d hd
  rw [ha] at hg
  obtain rfl := Except.ok.inj hg
  have he : ascii "example" = exampleData := by decide
  rw [he] at hs hv
  unfold readmeSign
  rw [ha, ok_bind, hs, ok_bind, hv, ok_bind, hk, ok_bind]
  rfl

/-- A draw that meets the hypotheses of part 1. -/
example : randrange n (fun _ _ => beBytes 32 (5 - 1)) = .ok 5 := randrange_first (by decide) (by decide)

/-- A master wallet as part 2 needs it. -/
example : ∃ w, HDWallet.fromMasterSeed Hashes.toy (ascii "HDWallet seed") none 7 false = .ok w := by
  have h : (HDWallet.fromMasterSeed Hashes.toy (ascii "HDWallet seed") none 7 false).toOption.isSome = true := by
    decide +kernel
  cases h' : HDWallet.fromMasterSeed Hashes.toy (ascii "HDWallet seed") none 7 false with
  | ok w => exact ⟨w, rfl⟩
  | error e => rw [h'] at h; cases h

open Ecc in
/-- A wallet and a signature as part 3 needs them. -/
example : ∃ a sig, Address.generate Hashes.toy none 7 false true (fun _ _ => beBytes 32 0) = .ok a ∧
    a.sign Hashes.toy (ascii "example") (fun _ _ => beBytes 32 0) = .ok sig := by
  have hk := randrange_first (k := 1) (by decide) (by decide)
  obtain ⟨a, x, y, hg, -, -, hb, -⟩ := C53_generate Hashes.toy none 7 false true _ 1 hk
  have hb1 : bytesVal (beBytes 32 1) = 1 := bytesVal_beBytes_of_lt (by decide)
  have hp := pubPoint_one
  have hp' := hp
  rw [show (1 : Int) = ((bytesVal (beBytes 32 1) : Nat) : Int) by rw [hb1]; rfl] at hp'
  obtain ⟨sig, h1⟩ := (C24_sign_total_partial Hashes.toy (ascii "example") (beBytes 32 1) _ 1 (beBytes_length _ _)
    (by rw [hb1]) (by rw [hb1]; decide) _ _ hp' hk _ _ hp (by decide) (by decide +kernel)).1 ⟨by decide, by decide⟩
  refine ⟨a, sig, hg, ?_⟩
  unfold Address.sign
  unfold Address.privBytes at hb
  cases hw : a.privKey with
  | none => rw [hw] at hb; cases hb
  | some wif =>
    rw [hw] at hb
    simp only at hb ⊢
    obtain ⟨pk, hpk, hb⟩ := bind_ok_iff.1 hb
    rw [hpk, ok_bind, Option.some.inj (Except.ok.inj hb)]
    exact h1

end NBC.Props
