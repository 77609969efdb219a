import Verif.Props.BothPythons

/-!
# C174: from a new address to a signature that others check
-/

namespace NBC.Props
open NBC Key Ecdsa EC Aes Spec NBC.Secp Wallet

theorem generated_made (H : Hashes) (vcn : Option Int) (rnd : Nat) (hr : rnd < 65536) (tn c : Bool) (ent : Nat → Nat → Bytes)
    (a : Address) (h : Address.generate H vcn rnd tn c ent = .ok a) : Made H a := by
  unfold Address.generate at h
  obtain ⟨d, -, h⟩ := bind_ok_iff.1 h
  obtain ⟨k, -, h⟩ := bind_ok_iff.1 h
  exact ⟨_, _, _, _, _, hr, h⟩

theorem watch_init_error (H : Hashes) {x y : Nat} (hd : decompressPublicKey (compressedKey x y) = .error e)
    (v : Option Int) (rnd : Nat) (tn : Bool) : Address.init H (some (compressedKey x y)) none v rnd tn = .error e := by
  have e2 : initPub (some (compressedKey x y)) = .error e := by
    unfold initPub
    simp only
    rw [if_neg (by simp [compressedKey])]
    by_cases hp : y % 2 = 0
    · rw [show pyIndex (compressedKey x y) 0 = .ok 2 by unfold compressedKey; rw [if_pos hp]; rfl, ok_bind,
        if_neg (by decide), if_pos (Or.inl rfl), hd, error_bind]
    · rw [show pyIndex (compressedKey x y) 0 = .ok 3 by unfold compressedKey; rw [if_neg hp]; rfl, ok_bind,
        if_neg (by decide), if_pos (Or.inr rfl), hd, error_bind]
  unfold Address.init initPriv
  simp only [ok_bind]
  rw [e2, error_bind]

/-- C174.  A new address is saved with a passphrase by one Python and opened with it by the other: the very same address.  From
its public key anyone makes a watching wallet, which shows the same address and accepts what the opened wallet signs, if the
defect of C24 does not strike (nonce point with `x` not below `n`).  Missing: compressed keys that the defect of C26 hits; then
there is no watching wallet (`C174_watch_false`). -/
theorem C174_life_partial (ver ver' : PyVer) (H : Hashes) (json : AnyCfg → Bytes) (hj : Writer json) (vcn : Option Int) (rnd : Nat)
    (hr : rnd < 65536) (tn c : Bool) (ent : Nat → Nat → Bytes) (d : Nat) (hd : randrange n ent = .ok d) (pw : Bytes)
    (old : Option Bytes) (cuts : List Nat) :
    ∃ a x y key text, Address.generate H vcn rnd tn c ent = .ok a ∧ PubPoint d x y ∧ a.publicKey = .ok key ∧
      (saveTo ver json (.default a) pw old cuts).getLast? = some (some text) ∧
      (∀ prompt, loadFrom ver' H readCfg (some text) pw prompt = .ok (.default a)) ∧
      (c = true ∧ ¬(x < n ∧ residueRoot p y < n) → ∀ r,
        Address.init H (some key) none (some a.vcn) r tn = .error .valueError) ∧
      (c = false ∨ (x < n ∧ residueRoot p y < n) → ∃ v,
        (∀ r, Address.init H (some key) none (some a.vcn) r tn = .ok v) ∧ v.privKey = none ∧ v.address = a.address ∧
        v.publicKey = .ok key ∧
        ∀ data ent' sig, a.sign H data ent' = .ok sig → ∃ j r ky : Nat, randrange n ent' = .ok j ∧ PubPoint j r ky ∧
          v.verify H data sig = .ok (decide (r < n))) := by
  obtain ⟨a, x, y, hg, h1, h2, hb, hp, hpub, hkey, haddr, hc, htn, hvn, hvs⟩ := C53_generate H vcn rnd tn c ent d hd
  have hm := generated_made H vcn rnd hr tn c ent a hg
  have hpr : a.privKey ≠ none := by
    intro h0
    unfold Address.privBytes at hb
    rw [h0] at hb
    cases hb
  obtain ⟨text, hs, hl⟩ := C172_moves ver ver' H json hj (.default a) (.inl ⟨a, rfl, hm, hpr⟩) pw old cuts
  have hv : vcnOf (some a.vcn) = fun _ => a.vcn := by
    funext r
    cases hvc : vcn with
    | none =>
      have := hvn hvc
      simp only [vcnOf, this]
      omega
    | some v =>
      have := hvs v hvc
      simp only [vcnOf, this, Int.emod_emod]
  obtain ⟨-, hdec, -⟩ := C26_decompress_compress_partial x y hp.1 hp.2.1 hp.on
  refine ⟨a, x, y, _, text, hg, hp, hkey, hs, hl, ?_, ?_⟩
  · rintro ⟨rfl, hx⟩ r
    rw [if_neg hx] at hdec
    rw [if_pos rfl]
    exact watch_init_error H hdec _ _ _
  · intro hx
    have key : ∀ r, Address.init H (some (if c then compressedKey x y else uncompressedKey x y)) none (some a.vcn) r tn =
        .ok (mkAddr H x y none a.vcn tn c) := by
      intro r
      rcases c with _ | _
      · simp only [Bool.false_eq_true, if_false]
        rw [watch_init_uncompressed, hv]
      · have hx := hx.resolve_left (by simp)
        rw [if_pos hx] at hdec
        simp only [if_true]
        rw [watch_init H hp.2.1 hdec, hv]
    refine ⟨_, key, rfl, ?_, ?_, ?_⟩
    · rw [haddr]
      cases c <;> cases tn <;> rfl
    · exact publicKeyOf_ok hp.2.1 c
    · intro data ent' sig hsig
      obtain ⟨j, r, ky, hj, hr, hv⟩ := C52_sign_verify_partial H a hm data sig ent' hsig
      refine ⟨j, r, ky, hj, hr, ?_⟩
      unfold Address.verify at hv ⊢
      rw [hpub] at hv
      exact hv

/-- C174 fails: there is a private key whose address has no watching wallet, since the compressed key is refused. -/
theorem C174_watch_false (H : Hashes) (vcn : Option Int) (rnd : Nat) (tn : Bool) : ∃ d a key,
    randrange n (fun _ _ => beBytes 32 (d - 1)) = .ok d ∧
    Address.generate H vcn rnd tn true (fun _ _ => beBytes 32 (d - 1)) = .ok a ∧ a.publicKey = .ok key ∧
    ∀ v r, Address.init H (some key) none v r tn = .error .valueError := by
  have hon : OnCurve K xSix 6 := (onCurve_iff _ _ _).2 (by decide +kernel)
  obtain ⟨d, h1, h2, hp⟩ := exists_key (x := xSix) (y := 6) (by decide) (by decide) hon
  have hd := randrange_first h1 h2
  obtain ⟨a, x, y, hg, -, -, -, hp', -, hkey, -⟩ := C53_generate H vcn rnd tn true _ d hd
  obtain ⟨rfl, rfl⟩ := hp.unique hp'
  exact ⟨d, a, _, hd, hg, hkey, fun v r => watch_init_error H C26_decompress_compress_false.2.2 _ _ _⟩

/-- A draw and a text as the theorem needs them. -/
example : randrange n (fun _ _ => beBytes 32 (5 - 1)) = .ok 5 ∧ Writer (fun cfg => jDump (cfgItems cfg)) :=
  ⟨randrange_first (by decide) (by decide), fun cfg => ⟨cfgItems cfg, List.Perm.refl _, rfl⟩⟩

end NBC.Props
