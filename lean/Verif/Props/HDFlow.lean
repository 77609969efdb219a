import Verif.Props.ChildLeak
import Verif.Model.HDMain

/-!
# C142: a web server with the public wallet, and the owner with the private one
-/

namespace NBC.Props
open NBC Key Ecdsa EC Aes Spec NBC.Secp Wallet NT Base58

/-- A public wallet of the same point, chain code, network and place in the tree; its chain number may be another. -/
def PublicTwin (w v : HDWallet) : Prop :=
  (∃ (x y : Nat) (o o' : Option Nat), w.point = .ok (.aff x y o) ∧ v.key = .pub (.aff x y o')) ∧
  v.chain = w.chain ∧ v.testnet = w.testnet ∧ v.depth = w.depth ∧ v.parentfp = w.parentfp ∧ v.childnum = w.childnum

theorem PublicTwin.part {w v : HDWallet} (h : PublicTwin w v) : PublicPart w { v with vcn := w.vcn } :=
  ⟨h.1, h.2.1, rfl, h.2.2.1, h.2.2.2.1, h.2.2.2.2.1, h.2.2.2.2.2⟩

theorem PublicPart.twin {w v : HDWallet} (h : PublicPart w v) : PublicTwin w v :=
  ⟨h.1, h.2.1, h.2.2.2.1, h.2.2.2.2.1, h.2.2.2.2.2.1, h.2.2.2.2.2.2⟩

/-- A step of a path: the index, and the random numbers that the owner and the web server draw. -/
abbrev FlowStep := Int × Nat × Nat

/-- The path of the owner. -/
def ownPath (path : List FlowStep) : List (Int × Nat) := path.map (fun s => (s.1, s.2.1))

/-- The path of the web server: the same indices. -/
def webPath (path : List FlowStep) : List (Int × Nat) := path.map (fun s => (s.1, s.2.2))

theorem flow_step (H : Hashes) (w v : HDWallet) (k : Int) (hw : HDMade w) (hk : w.key = .prv k) (hv : PublicTwin w v)
    (i : Int) (hi : i < 2 ^ 31) (r s : Nat) (hr : r < 65536) :
    (∃ c d k', w.child H i r = .ok c ∧ v.child H i s = .ok d ∧ c.key = .prv k' ∧ HDMade c ∧ PublicTwin c d ∧
      c.vcn = r ∧ d.vcn = s) ∨
    (∃ e, w.child H i r = .error e ∧ v.child H i s = .error e) := by
  rcases C47_derivation H w _ k hw hk hv.part i hi r with ⟨c, d, e1, e2, ⟨k', hk'⟩, hp⟩ | ⟨e, e1, e2⟩
  · left
    rw [child_vcn] at e2
    rcases C48_deterministic_partial H v i r s with ⟨d', f1, -, f2⟩ | ⟨e, f1, -⟩
    · rw [e2] at f1
      cases f1
      obtain ⟨-, -, -, -, msg, key, fp, -, -, -, hinit, rfl⟩ := child_inv e1
      exact ⟨_, _, k', e1, f2, hk', ⟨_, _, _, r, _, _, hr, hinit⟩, hp.twin, rfl, rfl⟩
    · rw [e2] at f1; cases f1
  · right
    rw [child_vcn] at e2
    rcases C48_deterministic_partial H v i r s with ⟨d', f1, -, f2⟩ | ⟨e', f1, f2⟩
    · rw [e2] at f1; cases f1
    · rw [e2] at f1; cases f1
      exact ⟨e, e1, f2⟩

/-- C142: along every path of indices below `2 ^ 31`, whatever numbers are drawn, the web server gets the public twin of
what the owner gets, or both meet the same exception. -/
theorem C142_descend (H : Hashes) (path : List FlowStep) (w v : HDWallet) (k : Int) (hw : HDMade w)
    (hk : w.key = .prv k) (hv : PublicTwin w v) (hpath : ∀ s ∈ path, s.1 < 2 ^ 31 ∧ s.2.1 < 65536) :
    (∃ c d k', descend H w (ownPath path) = .ok c ∧ descend H v (webPath path) = .ok d ∧ c.key = .prv k' ∧ HDMade c ∧
      PublicTwin c d) ∨
    (∃ e, descend H w (ownPath path) = .error e ∧ descend H v (webPath path) = .error e) := by
  induction path generalizing w v k with
  | nil => exact .inl ⟨w, v, k, rfl, rfl, hk, hw, hv⟩
  | cons s path ih =>
    obtain ⟨i, r, s⟩ := s
    obtain ⟨hi, hr⟩ := hpath _ List.mem_cons_self
    rcases flow_step H w v k hw hk hv i hi r s hr with ⟨c, d, k', e1, e2, hk', hc, hcd, -⟩ | ⟨e, e1, e2⟩
    · have := ih c d k' hc hk' hcd (fun s hs => hpath s (List.mem_cons_of_mem _ hs))
      simpa only [ownPath, webPath, List.map_cons, descend, e1, e2, ok_bind] using this
    · right
      refine ⟨e, ?_⟩
      simp only [ownPath, webPath, List.map_cons, descend, e1, e2]
      exact ⟨rfl, rfl⟩

/-- C142: a wallet and its public twin accept the same signatures and have the same public key; the twin has no private
key and signs nothing. -/
theorem C142_twin (H : Hashes) (c d : HDWallet) (h : PublicTwin c d) (data : Bytes) :
    (∀ sig, d.verify H data sig = c.verify H data sig) ∧ d.pubkey = c.pubkey ∧ d.prvBytes = .ok none ∧
    ∀ ent, d.sign H data ent = .error .valueError := by
  obtain ⟨⟨x, y, o, o', hP, hk⟩, -⟩ := h
  have hd : d.point = .ok (.aff x y o') := by unfold HDWallet.point; rw [hk]
  have hn : d.prvBytes = .ok none := by unfold HDWallet.prvBytes; rw [hk]
  refine ⟨fun sig => ?_, ?_, hn, fun ent => ?_⟩
  · unfold HDWallet.verify; rw [hP, hd]; rfl
  · unfold HDWallet.pubkey; rw [hP, hd]; rfl
  · unfold HDWallet.sign; rw [hn]; rfl

/-- C142: the public key of a private wallet is the 64 bytes of the point that belongs to its private key. -/
theorem C142_pubkey (w : HDWallet) (k : Int) (hw : HDMade w) (hk : w.key = .prv k) :
    ∃ x y : Nat, PubPoint k x y ∧ w.pubkey = .ok (beBytes 32 x ++ beBytes 32 y) ∧
      w.prvBytes = .ok (some (beBytes 32 k.toNat)) := by
  obtain ⟨h1, h2⟩ := hw.inv.1 k hk
  obtain ⟨x, y, o, hp, hP⟩ := point_prv hk h1 h2
  obtain ⟨d, rfl⟩ := Int.eq_ofNat_of_zero_le (show 0 ≤ k by omega)
  refine ⟨x, y, hp, ?_, ?_⟩
  · unfold HDWallet.pubkey
    simp only [hP, ok_bind, Pt.x, Pt.y, coord_ok hp.1, coord_ok hp.2.1]
  · unfold HDWallet.prvBytes
    rw [hk]
    simp only
    rw [Piecewise.toString_n (by omega), ok_bind]
    rfl

/-- C142, signatures: what a private wallet signs is accepted by the wallet and its public twin, exactly when the `x`
coordinate of the nonce point is below the group order.  (Missing from the full claim: that defect, see C24.) -/
theorem C142_sign_partial (H : Hashes) (c d : HDWallet) (k : Int) (hc : HDMade c) (hk : c.key = .prv k)
    (h : PublicTwin c d) (data sig : Bytes) (ent : Nat → Nat → Bytes) (hs : c.sign H data ent = .ok sig) :
    ∃ j r ky : Nat, randrange n ent = .ok j ∧ PubPoint j r ky ∧ c.verify H data sig = .ok (decide (r < n)) ∧
      d.verify H data sig = .ok (decide (r < n)) := by
  obtain ⟨h1, h2⟩ := hc.inv.1 k hk
  obtain ⟨x, y, o, hp, hP⟩ := point_prv hk h1 h2
  obtain ⟨-, -, -, -, hb⟩ := C142_pubkey c k hc hk
  unfold HDWallet.sign at hs
  rw [hb, ok_bind] at hs
  obtain ⟨x', y', j, r, hp', hj, ⟨ky, hky⟩, hv⟩ := C24_sign_verify_partial H data _ ent sig hs
  rw [bytesVal_beBytes_of_lt (lt_trans (by omega : k.toNat < n) (by decide)), Int.toNat_of_nonneg (by omega)] at hp'
  obtain ⟨rfl, rfl⟩ := hp.unique hp'
  have hcv : c.verify H data sig = .ok (decide (r < n)) := by
    unfold HDWallet.verify
    simp only [hP, ok_bind, keyFromPoint_ok hp.1 hp.2.1]
    have := (hv []).1
    rw [List.append_nil] at this
    exact this
  exact ⟨j, r, ky, hj, hky, hcv, by rw [(C142_twin H c d h data).1, hcv]⟩

theorem twin_address (H : Hashes) (c d : HDWallet) (h : PublicTwin c d) (hx : ∀ x y o, c.point = .ok (.aff x y o) → x < p) :
    ∃ key a b, c.address H = .ok a ∧ d.address H = .ok b ∧
      a = publickeyToAddress H key c.vcn (verByte c.testnet) ∧ b = publickeyToAddress H key d.vcn (verByte c.testnet) := by
  obtain ⟨⟨x, y, o, o', hP, hk⟩, -, ht, -⟩ := h
  have hd : d.point = .ok (.aff x y o') := by unfold HDWallet.point; rw [hk]
  have hx := hx _ _ _ hP
  have hx' : x < p := by exact_mod_cast hx
  refine ⟨compressedKey x y, _, _, ?_, ?_, rfl, rfl⟩
  · unfold HDWallet.address
    simp only [hP, ok_bind, pointCompress_ok hx']
  · unfold HDWallet.address
    simp only [hd, ok_bind, pointCompress_ok hx', ht]

/-- C142, addresses: the addresses of a private wallet and its public twin are made of the same key hash and version
byte; they are the same text exactly when the chain numbers agree.  (Missing from the full claim: that they do.) -/
theorem C142_address_partial (H : Hashes) (c d : HDWallet) (k : Int) (hc : HDMade c) (hk : c.key = .prv k)
    (h : PublicTwin c d) :
    ∃ key a b, c.address H = .ok a ∧ d.address H = .ok b ∧
      decodeCheck H a = .ok (some (verByte c.testnet ++ hex4 (c.vcn % 65536).toNat ++ key)) ∧
      decodeCheck H b = .ok (some (verByte c.testnet ++ hex4 (d.vcn % 65536).toNat ++ key)) ∧
      (a = b ↔ c.vcn % 65536 = d.vcn % 65536) := by
  obtain ⟨h1, h2⟩ := hc.inv.1 k hk
  obtain ⟨x, y, o, hp, hP⟩ := point_prv hk h1 h2
  obtain ⟨key, a, b, ha, hb, rfl, rfl⟩ := twin_address H c d h (by
    intro x' y' o' h'
    rw [hP] at h'
    injection h' with h'
    injection h' with hx
    rw [← hx]
    exact_mod_cast hp.1)
  refine ⟨publickeyDigest H key, _, _, ha, hb, C06_address_layout H _ _ _, C06_address_layout H _ _ _, fun he => ?_,
    fun he => ?_⟩
  · exact (C06_address_injective H _ _ _ _ _ _ rfl he).2.1
  · have e1 : ∀ v : Int, publickeyToAddress H key v (verByte c.testnet) =
        publickeyToAddress H key (v % 65536) (verByte c.testnet) := by
      intro v
      unfold publickeyToAddress pubkeyhashToAddress
      simp
    rw [e1, he, ← e1]

/-- C142 is false for addresses: below the top, the address that the web server shows is the address of the owner's
wallet exactly when both drew the same number for the last child. -/
theorem C142_address_false (H : Hashes) (path : List FlowStep) (i : Int) (r s : Nat) (w v c : HDWallet) (k : Int)
    (hw : HDMade w) (hk : w.key = .prv k) (hv : PublicTwin w v) (hpath : ∀ s ∈ path, s.1 < 2 ^ 31 ∧ s.2.1 < 65536)
    (hi : i < 2 ^ 31) (hr : r < 65536) (hs : s < 65536)
    (hc : descend H w (ownPath (path ++ [(i, r, s)])) = .ok c) :
    ∃ d a b, descend H v (webPath (path ++ [(i, r, s)])) = .ok d ∧ c.address H = .ok a ∧ d.address H = .ok b ∧
      (a = b ↔ r = s) := by
  induction path generalizing w v k with
  | nil =>
    simp only [ownPath, List.nil_append, List.map_cons, List.map_nil, descend] at hc
    rcases flow_step H w v k hw hk hv i hi r s hr with ⟨c', d, k', e1, e2, hk', hc', hcd, hcr, hds⟩ | ⟨e, e1, -⟩
    · rw [e1, ok_bind] at hc
      cases hc
      obtain ⟨-, a, b, ha, hb, -, -, hab⟩ := C142_address_partial H _ d k' hc' hk' hcd
      refine ⟨d, a, b, ?_, ha, hb, ?_⟩
      · simp only [webPath, List.nil_append, List.map_cons, List.map_nil, descend, e2, ok_bind]
      · rw [hab, hcr, hds]; omega
    · rw [e1] at hc; cases hc
  | cons t path ih =>
    obtain ⟨j, r', s'⟩ := t
    obtain ⟨hj, hr'⟩ := hpath _ List.mem_cons_self
    simp only [ownPath, List.cons_append, List.map_cons, descend] at hc
    rcases flow_step H w v k hw hk hv j hj r' s' hr' with ⟨c', d, k', e1, e2, hk', hc', hcd, -⟩ | ⟨e, e1, -⟩
    · rw [e1, ok_bind] at hc
      obtain ⟨d', a, b, f1, f2, f3, f4⟩ := ih c' d k' hc' hk' hcd (fun s hs => hpath s (List.mem_cons_of_mem _ hs)) hc
      refine ⟨d', a, b, ?_, f2, f3, f4⟩
      simpa only [webPath, List.cons_append, List.map_cons, descend, e2, ok_bind] using f1
    · rw [e1] at hc; cases hc

/-- C142 is false of the demonstration itself: whatever the hash functions and the random numbers are, `main` raises
before the web server has a wallet (`TypeError` from the import, see C50; `ValueError` if the seed gave the zero key). -/
theorem C142_main_false (H : Hashes) (rnd web1 web2 cold1 cold2 : Nat) (hr : rnd < 65536) :
    (∃ w, HDWallet.fromMasterSeed H mainSeed none rnd false = .ok w ∧
      hdMain H rnd web1 web2 cold1 cold2 = .error .typeError) ∨
    (∃ e, HDWallet.fromMasterSeed H mainSeed none rnd false = .error e ∧
      hdMain H rnd web1 web2 cold1 cold2 = .error e) := by
  cases hm : HDWallet.fromMasterSeed H mainSeed none rnd false with
  | error e => exact .inr ⟨e, rfl, by unfold hdMain; rw [hm]; rfl⟩
  | ok w =>
    left
    refine ⟨w, rfl, ?_⟩
    obtain ⟨he, k, x, y, o, hk, hn, hx, -, hP⟩ := C51_paths H [] w (.master mainSeed none rnd false w hr hm)
    obtain ⟨s, hs, -⟩ := C51_private H w he k hk hn
    obtain ⟨t, ht, -⟩ := C51_public H w he x y o hx hP
    unfold hdMain
    rw [hm, ok_bind, hs, ok_bind, ht, ok_bind]
    rfl

/-- The hypotheses are met: a wallet, its public twin with another chain number, and two steps in which owner and web
server draw different numbers; their addresses differ. -/
example : ∃ w v c, HDMade w ∧ w.key = .prv 1 ∧ PublicTwin w v ∧ v.vcn ≠ w.vcn ∧
    descend hashesOne w (ownPath ([(6, 11, 3)] ++ [(9, 12, 4)])) = .ok c ∧
    ∃ d a b, descend hashesOne v (webPath ([(6, 11, 3)] ++ [(9, 12, 4)])) = .ok d ∧ c.address hashesOne = .ok a ∧
      d.address hashesOne = .ok b ∧ a ≠ b := by
  obtain ⟨c, hc, k1, d1⟩ := child_one (HDWallet.mk (.prv 1) (List.replicate 32 1) 5 false 3 [1, 2, 3, 4] 7) 1 rfl
    (by decide) (by decide) (by decide) (by decide +kernel) 6 (by decide) 11
  obtain ⟨e, he, k2, d2⟩ := child_one c _ k1 (by decide +kernel) (by decide +kernel) (by rw [d1]; decide)
    (by decide +kernel) 9 (by decide) 12
  obtain ⟨x, y, o, -, hP⟩ := point_prv (w := HDWallet.mk (.prv 1) (List.replicate 32 1) 5 false 3 [1, 2, 3, 4] 7)
    (k := 1) rfl (by decide) (by decide)
  have hd : descend hashesOne (HDWallet.mk (.prv 1) (List.replicate 32 1) 5 false 3 [1, 2, 3, 4] 7)
      (ownPath ([(6, 11, 3)] ++ [(9, 12, 4)])) = .ok e := by
    have hc' : (HDWallet.mk (.prv 1) (List.replicate 32 1) 5 false 3 [1, 2, 3, 4] 7).child hashesOne 6 11 = .ok c := hc
    have he' : c.child hashesOne 9 12 = .ok e := he
    simp only [ownPath, List.cons_append, List.nil_append, List.map_cons, List.map_nil, descend, hc', he', ok_bind]
  have hv : PublicTwin (HDWallet.mk (.prv 1) (List.replicate 32 1) 5 false 3 [1, 2, 3, 4] 7)
      (HDWallet.mk (.pub (.aff x y none)) (List.replicate 32 1) 77 false 3 [1, 2, 3, 4] 7) :=
    ⟨⟨x, y, o, none, hP, rfl⟩, rfl, rfl, rfl, rfl, rfl⟩
  have hm := hd_example 3 (by decide)
  obtain ⟨d, a, b, f1, f2, f3, f4⟩ := C142_address_false hashesOne [(6, 11, 3)] 9 12 4 _ _ e 1 hm rfl hv (by decide) (by decide)
    (by decide) (by decide) hd
  exact ⟨_, _, e, hm, rfl, hv, show (77 : Int) ≠ 5 by decide, hd, d, a, b, f1, f2, f3, fun h => absurd (f4.1 h) (by decide)⟩

/-- A wallet of this kind signs, and its public twin accepts the signature. -/
example : ∃ w v sig, HDMade w ∧ w.key = .prv 1 ∧ PublicTwin w v ∧
    w.sign Hashes.toy [1] (fun _ _ => beBytes 32 0) = .ok sig ∧ v.verify Hashes.toy [1] sig = .ok true := by
  have hm := hd_example 3 (by decide)
  have hb : bytesVal (beBytes 32 1) = 1 := bytesVal_beBytes_of_lt (by decide)
  have hp := pubPoint_one
  have hp' := hp
  rw [show (1 : Int) = ((bytesVal (beBytes 32 1) : Nat) : Int) by rw [hb]; rfl] at hp'
  have hk := randrange_first (k := 1) (by decide) (by decide)
  obtain ⟨sig, h1⟩ := (C24_sign_total_partial Hashes.toy [1] (beBytes 32 1) _ 1 (beBytes_length _ _)
    (by rw [hb]) (by rw [hb]; decide) _ _ hp' hk _ _ hp (by decide) (by decide +kernel)).1 ⟨by decide, by decide⟩
  obtain ⟨x, y, o, -, hP⟩ := point_prv (w := HDWallet.mk (.prv 1) (List.replicate 32 1) 5 false 3 [1, 2, 3, 4] 7)
    (k := 1) rfl (by decide) (by decide)
  have hv : PublicTwin (HDWallet.mk (.prv 1) (List.replicate 32 1) 5 false 3 [1, 2, 3, 4] 7)
      (HDWallet.mk (.pub (.aff x y none)) (List.replicate 32 1) 77 false 3 [1, 2, 3, 4] 7) :=
    ⟨⟨x, y, o, none, hP, rfl⟩, rfl, rfl, rfl, rfl, rfl⟩
  have hs : (HDWallet.mk (.prv 1) (List.replicate 32 1) 5 false 3 [1, 2, 3, 4] 7).sign Hashes.toy [1]
      (fun _ _ => beBytes 32 0) = .ok sig := by
    obtain ⟨-, -, -, -, e⟩ := C142_pubkey _ 1 hm rfl
    rw [show (1 : Int).toNat = 1 from rfl] at e
    unfold HDWallet.sign
    rw [e, ok_bind]
    exact h1
  obtain ⟨j, r, ky, e1, e2, -, e4⟩ := C142_sign_partial Hashes.toy _ _ 1 hm rfl hv [1] sig _ hs
  rw [hk] at e1
  cases e1
  obtain ⟨rfl, -⟩ := e2.unique hp
  rw [decide_eq_true (by decide)] at e4
  exact ⟨_, _, sig, hm, rfl, hv, hs, e4⟩

end NBC.Props
