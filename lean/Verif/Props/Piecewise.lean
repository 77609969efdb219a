import Verif.Proofs.PartialKeys
import Verif.Spec.Text
import Verif.Proofs.SecpKeys

/-!
# C55–C58, C91: split keys and partial key-sets
-/

namespace NBC.Props
open NBC Key Ecdsa Base58 EC Aes Spec NBC.Secp Piecewise

/-! ### C55 -/

/-- The decoded key, for the proof of `C55_recombine_partial`. -/
def wifKey (H : Hashes) (w : Bytes) : Bytes := match privkeyFromWif H w with | .ok k => k | .error _ => []

/-- C55, in Python 2: the keys of a split, in any order, combine to the uncompressed WIF text of the secret
reduced modulo the group order; so an uncompressed key below the order comes back.  Missing: Python 3 and
compressed keys (`C55_python3_false`, `C55_compressed_false`). -/
theorem C55_recombine_partial (H : Hashes) (w k : Bytes) (count : Nat) (ent : Nat → Nat → Nat → Bytes)
    (ws ws' : List Bytes) (hk : privkeyFromWif H w = .ok k)
    (h : splitPrivateKey .py2 H w count ent = .ok ws) (hp : ws'.Perm ws) :
    combinePrivateKeys H ws' = .ok (privkeyToWif H (beBytes 32 (bytesVal k % n))) ∧
    (bytesVal k < n → w = privkeyToWif H k → combinePrivateKeys H ws' = .ok w) ∧
    ws.length = max 1 count := by
  obtain ⟨k', vs, h1, rfl, h3, h4, h5⟩ := split_inv h
  rw [hk] at h1
  cases h1
  have hdec : ws'.mapM (fun k => privkeyFromWif H k) = .ok (ws'.map (wifKey H)) := by
    refine Proto.mapM_ok ws' (fun x hx => ?_)
    obtain ⟨v, _, rfl⟩ := List.mem_map.1 (hp.mem_iff.1 hx)
    have := fromWif_wifOf H v
    unfold wifOf at this
    rw [wifKey, this]
  have hsum : ((ws'.map (wifKey H)).map bytesVal).sum = vs.sum := by
    rw [((hp.map (wifKey H)).map bytesVal).sum_eq, List.map_map, List.map_map]
    congr 1
    refine (List.map_congr_left (g := id) (fun v hv => ?_)).trans (List.map_id _)
    have := fromWif_wifOf H v
    unfold wifOf at this
    rw [Function.comp_apply, Function.comp_apply, wifKey, this, id]
    exact bytesVal_beBytes_of_lt (lt_trans (h4 v hv) n_lt)
  have hc := combine_eq H ws' _ hdec
  rw [hsum, h5] at hc
  refine ⟨hc, ?_, by rw [List.length_map, h3]; omega⟩
  intro hlt hw
  rw [hc, Nat.mod_eq_of_lt hlt, beBytes_bytesVal' (privkeyFromWif_sound H w k 0x80 hk).1, ← hw]

/-- C55: a split succeeds in Python 2 whenever the random draws do. -/
theorem C55_split_total (H : Hashes) (w k : Bytes) (count : Nat) (ent : Nat → Nat → Nat → Bytes)
    (hk : privkeyFromWif H w = .ok k) (hr : ∀ i, i < count - 1 → ∃ r, randrange n (ent i) = .ok r) :
    ∃ ws, splitPrivateKey .py2 H w count ent = .ok ws := by
  have hk32 := (privkeyFromWif_sound H w k 0x80 hk).1
  have h1 : (List.range (count - 1)).mapM (fun i => randrange n (ent i)) = .ok ((List.range (count - 1)).map
      (fun i => match randrange n (ent i) with | .ok r => r | .error _ => 0)) := by
    refine Proto.mapM_ok _ (fun i hi => ?_)
    obtain ⟨r, h⟩ := hr i (List.mem_range.1 hi)
    rw [h]
  generalize hxs : (List.range (count - 1)).map
      (fun i => match randrange n (ent i) with | .ok r => r | .error _ => 0) = xs at h1
  have hx : ∀ x ∈ xs, x < n := by
    intro x hx
    obtain ⟨i, _, hi⟩ := (mapM_mem h1).2 x hx
    simp only [randrange, bind_ok_iff] at hi
    obtain ⟨_, _, hi⟩ := hi
    exact (randrangeLoop_range' hi).2
  have hnpos : (0 : Int) < (n : Nat) := by decide
  have h2 : ∀ s ∈ xs.map Int.ofNat ++ [((bytesVal k : Int) - (xs.sum : Nat)) % (n : Nat)],
      numberToString s secp256k1.order = .ok (beBytes 32 s.toNat) := by
    intro s hs
    rcases List.mem_append.1 hs with hs | hs
    · obtain ⟨v, hv, rfl⟩ := List.mem_map.1 hs
      exact toString_n (hx v hv)
    · rw [List.mem_singleton] at hs
      have h0 : 0 ≤ s := by rw [hs]; exact Int.emod_nonneg _ (by omega)
      have h1 : s < (n : Nat) := by rw [hs]; exact Int.emod_lt_of_pos _ hnpos
      obtain ⟨m, rfl⟩ := Int.eq_ofNat_of_zero_le h0
      exact toString_n (by exact_mod_cast h1)
  have h3 := Proto.mapM_ok _ h2
  unfold splitPrivateKey
  rw [hk, ok_bind, toNumber_32 hk32, ok_bind]
  simp only [xrange, ok_bind]
  rw [show secp256k1.order = n from rfl] at *
  rw [h1, ok_bind]
  simp only [h3, ok_bind]
  exact ⟨_, rfl⟩

/-- A source of randomness giving the number `v + 1` at each call. -/
def constEnt (v : Nat) : Nat → Nat → Bytes := fun _ len => beBytes len v

/-- The key 7 split in three. -/
example : splitPrivateKey .py2 Hashes.toy (privkeyToWif Hashes.toy (beBytes 32 7)) 3 (fun i => constEnt i) =
    .ok [privkeyToWif Hashes.toy (beBytes 32 1), privkeyToWif Hashes.toy (beBytes 32 2),
      privkeyToWif Hashes.toy (beBytes 32 4)] := by decide +kernel

/-- C55 fails in Python 3, which has no `xrange`, for every key. -/
theorem C55_python3_false (H : Hashes) (w k : Bytes) (count : Nat) (ent : Nat → Nat → Nat → Bytes)
    (hk : privkeyFromWif H w = .ok k) : splitPrivateKey .py3 H w count ent = .error .nameError := by
  have hk32 := (privkeyFromWif_sound H w k 0x80 hk).1
  unfold splitPrivateKey
  rw [hk, ok_bind, toNumber_32 hk32, ok_bind]
  rfl

/-- C55 fails for every compressed key: another text comes back, the uncompressed one. -/
theorem C55_compressed_false (H : Hashes) (k : Bytes) (count : Nat) (ent : Nat → Nat → Nat → Bytes)
    (ws : List Bytes) (hk : k.length = 32) (hlt : bytesVal k < n)
    (h : splitPrivateKey .py2 H (privkeyToWif H (k ++ [1])) count ent = .ok ws) :
    combinePrivateKeys H ws = .ok (privkeyToWif H k) ∧ privkeyToWif H k ≠ privkeyToWif H (k ++ [1]) := by
  have h1 := (C55_recombine_partial H _ k count ent ws ws (wif_roundtrip_compressed H k hk) h (.refl _)).1
  rw [Nat.mod_eq_of_lt hlt, beBytes_bytesVal' hk] at h1
  refine ⟨h1, fun he => ?_⟩
  have := congrArg List.length (encodeCheck_injective H he)
  simp at this

/-! ### C56 -/

/-- C56: the secret of `combine_private_keys` is the sum of the secrets modulo the group order, and its
multiple of the generator is the sum of the public points of the keys. -/
theorem C56_combined_point (H : Hashes) (ws ks : List Bytes)
    (h : ws.mapM (fun k => privkeyFromWif H k) = .ok ks) :
    ∃ w k, combinePrivateKeys H ws = .ok w ∧ privkeyFromWif H w = .ok k ∧
      bytesVal k < n ∧ bytesVal k % n = (ks.map bytesVal).sum % n ∧
      bytesVal k • g = (ks.map (fun k => bytesVal k • g)).sum := by
  have hlt : (ks.map bytesVal).sum % n < n := Nat.mod_lt _ (by decide)
  have hv := bytesVal_beBytes_of_lt (lt_trans hlt n_lt)
  refine ⟨_, _, combine_eq H ws ks h, wif_roundtrip_uncompressed H _ (beBytes_length _ _), ?_, ?_, ?_⟩
  · rw [hv]; exact hlt
  · rw [hv, Nat.mod_mod]
  · rw [hv]
    have h1 : ((ks.map bytesVal).sum % n) • g = (ks.map bytesVal).sum • g := by
      conv_rhs => rw [← Nat.mod_add_div (ks.map bytesVal).sum n]
      rw [add_nsmul, Nat.mul_comm, mul_nsmul', n_smul_g, nsmul_zero, add_zero]
    rw [h1]
    clear h hlt hv h1
    induction ks with
    | nil => simp
    | cons k ks ih => rw [List.map_cons, List.sum_cons, add_nsmul, ih, List.map_cons, List.sum_cons]

/-- C56 for two keys, on the points the code computes: the public point of the combined key is the sum of
the public points of the two keys. -/
theorem C56_two_keys (H : Hashes) (wa wb a b : Bytes) (ha : privkeyFromWif H wa = .ok a)
    (hb : privkeyFromWif H wb = .ok b) :
    ∃ w k A B R R', combinePrivateKeys H [wa, wb] = .ok w ∧ privkeyFromWif H w = .ok k ∧
      EC.mul K secp256k1.generator (bytesVal a) = .ok A ∧ EC.mul K secp256k1.generator (bytesVal b) = .ok B ∧
      EC.mul K secp256k1.generator (bytesVal k) = .ok R ∧ EC.add K A B = .ok R' ∧
      ∃ Q : (W K).Point, Rep K R Q ∧ Rep K R' Q := by
  obtain ⟨w, k, h1, h2, h3, _, h4⟩ := C56_combined_point H [wa, wb] [a, b] (by
    rw [List.mapM_cons, ha, ok_bind, List.mapM_cons, hb]; rfl)
  obtain ⟨A, hA, rA, _⟩ := genOk.mul (bytesVal a) (by omega)
  obtain ⟨B, hB, rB, _⟩ := genOk.mul (bytesVal b) (by omega)
  obtain ⟨R, hR, rR, _⟩ := genOk.mul (bytesVal k) (by omega)
  obtain ⟨R', hR', rR', _⟩ := add_spec good rA rB
  refine ⟨w, k, A, B, R, R', h1, h2, hA, hB, hR, hR', _, rR, ?_⟩
  have e : ((bytesVal k : Int) • g) = (bytesVal a : Int) • g + (bytesVal b : Int) • g := by
    rw [natCast_zsmul, natCast_zsmul, natCast_zsmul, h4]
    simp
  rw [e]
  exact rR'

/-- Two keys: the order minus one and three combine to two. -/
example : combinePrivateKeys Hashes.toy [privkeyToWif Hashes.toy (beBytes 32 (n - 1)), privkeyToWif Hashes.toy (beBytes 32 3)]
    = .ok (privkeyToWif Hashes.toy (beBytes 32 2)) := by decide +kernel

/-! ### C91 -/

/-- C91 is false: `get_address` returns no address for any arguments. -/
theorem C91_get_address_false (ver : PyVer) (H : Hashes) (pub w : Bytes) :
    ∃ e, getAddress ver H pub w = .error e := by
  cases h : getAddress ver H pub w with
  | error e => exact ⟨e, rfl⟩
  | ok r =>
    exfalso
    unfold getAddress at h
    split_ifs at h
    obtain ⟨_, _, h⟩ := bind_ok_iff.1 h
    split_ifs at h
    obtain ⟨_, _, h⟩ := bind_ok_iff.1 h
    obtain ⟨_, _, h⟩ := bind_ok_iff.1 h
    obtain ⟨_, _, h⟩ := bind_ok_iff.1 h
    obtain ⟨_, _, h⟩ := bind_ok_iff.1 h
    obtain ⟨_, _, h⟩ := bind_ok_iff.1 h
    obtain ⟨_, _, h⟩ := bind_ok_iff.1 h
    obtain ⟨_, _, h⟩ := bind_ok_iff.1 h
    split at h
    · obtain ⟨_, _, h⟩ := bind_ok_iff.1 h
      obtain ⟨_, _, h⟩ := bind_ok_iff.1 h
      cases h
    · cases h

/-- C91 in Python 3: every public key, also an uncompressed one, is refused as not being uncompressed. -/
theorem C91_python3_false (H : Hashes) (pub w : Bytes) : getAddress .py3 H pub w = .error .valueError := by
  unfold getAddress
  by_cases h : pub.length ≠ 65
  · rw [if_pos h]
  · rw [if_neg h]
    cases pub with
    | nil => simp at h
    | cons c t => rfl

/-- C91 in Python 2: for a point of the curve and a private key, everything is computed, and then the call that should make the
address raises `TypeError`; for a key of another form the answer is `ValueError`. -/
theorem C91_python2_false (H : Hashes) :
    (∀ (x y : Nat) (w k : Bytes), x < p → y < p → OnCurve K x y → privkeyFromWif H w = .ok k →
      bytesVal k < n → getAddress .py2 H (4 :: (beBytes 32 x ++ beBytes 32 y)) w = .error .typeError) ∧
    ∀ pub w : Bytes, pub.length ≠ 65 ∨ pub.head? ≠ some 4 → getAddress .py2 H pub w = .error .valueError := by
  constructor
  · intro x y w k hx hy hc hk hkn
    have hk32 := (privkeyFromWif_sound H w k 0x80 hk).1
    have hlen : (4 :: (beBytes 32 x ++ beBytes 32 y) : Bytes).length = 65 := by simp [beBytes_length]
    have e1 : ((4 :: (beBytes 32 x ++ beBytes 32 y) : Bytes).drop 1).take secp256k1.baselen = beBytes 32 x := by
      rw [show secp256k1.baselen = 32 by decide +kernel, List.drop_succ_cons, List.drop_zero,
        List.take_left' (beBytes_length _ _)]
    have e2 : (4 :: (beBytes 32 x ++ beBytes 32 y) : Bytes).drop (1 + secp256k1.baselen) = beBytes 32 y := by
      rw [show 1 + secp256k1.baselen = 32 + 1 by decide +kernel, List.drop_succ_cons, List.drop_left' (beBytes_length _ _)]
    have s1 := stringToNumber_of_length (beBytes_length 32 x) (by omega)
    have s2 := stringToNumber_of_length (beBytes_length 32 y) (by omega)
    have s3 := stringToNumber_of_length hk32 (by omega)
    rw [bytesVal_beBytes_of_lt (lt_trans hx p_lt)] at s1
    rw [bytesVal_beBytes_of_lt (lt_trans hy p_lt)] at s2
    have hm : mkPoint secp256k1.curve (x : Int) (y : Int) (some secp256k1.order) = .ok (.aff x y (some secp256k1.order)) := by
      rw [mkPoint_eq, if_pos ((onCurve_iff K x y).1 hc)]
    obtain ⟨Q, rQ, _⟩ := rep_of_on (some secp256k1.order) (Int.natCast_nonneg x) (by exact_mod_cast hx) hc
    obtain ⟨B, hB, rB, redB⟩ := genOk.mul (bytesVal k) (by omega)
    obtain ⟨R, hR, rR, redR, _⟩ := add_spec good rQ rB
    have hp : ∀ m : Nat, m < p → (m : Int) < K.p := fun m hm => Int.ofNat_lt.2 hm
    have red := redR ⟨Int.natCast_nonneg y, hp y hy⟩ (redB (by exact_mod_cast hkn) reduced_gen)
    unfold getAddress
    rw [if_neg (by rw [hlen]; simp)]
    rw [show pyIndex (4 :: (beBytes 32 x ++ beBytes 32 y) : Bytes) 0 = .ok 4 from rfl, ok_bind, if_neg (by simp), e1, e2, s1, ok_bind, s2, ok_bind, hm, ok_bind, hk, ok_bind, s3, ok_bind, hB, ok_bind, hR, ok_bind]
    cases R with
    | inf => rfl
    | aff X Y o =>
      obtain ⟨hX0, hX, _⟩ := rR
      obtain ⟨hY0, hY⟩ := red
      simp only [Pt.x, Pt.y]
      rw [numberToString_y hX0 hX, ok_bind, numberToString_y hY0 hY, ok_bind]
  · intro pub w h
    unfold getAddress
    by_cases hl : pub.length ≠ 65
    · rw [if_pos hl]
    · rw [if_neg hl]
      cases pub with
      | nil => simp at hl
      | cons c t =>
        have hc : c ≠ 4 := by
          rcases h with h | h
          · exact absurd h hl
          · simpa using h
        rw [show pyIndex (c :: t) 0 = .ok c from rfl, ok_bind, if_pos (.inr hc)]

/-- The generator, and the private key one: a case of both parts. -/
example : getAddress .py2 Hashes.toy (4 :: (beBytes 32 secp256k1.gx.toNat ++ beBytes 32 secp256k1.gy.toNat))
    (privkeyToWif Hashes.toy (beBytes 32 1)) = .error .typeError :=
  (C91_python2_false Hashes.toy).1 _ _ _ _ (by decide +kernel) (by decide +kernel)
    ((onCurve_iff K _ _).2 (by decide +kernel)) (wif_roundtrip_uncompressed Hashes.toy _ (beBytes_length _ _))
    (by decide +kernel)

/-! ### C57 -/

/-- C57, in Python 2, for a key below the group order and key-sets of different keys: let `S` choose some
of the groups and let `ks` have exactly the keys of these groups, in any order.  Then the key comes back (as
an uncompressed WIF text) if `S` contains `required` cyclically consecutive groups, and otherwise the
result is `None`.  `order` is any order of the values of a dictionary.  The full statement, with any `required` groups, is false
(`C57_any_groups_false`), and so it is for repeated keys (`C57_repeated_false`). -/
theorem C57_recover_partial (H : Hashes) (w k : Bytes) (required total : Nat)
    (ent : Nat → Nat → Nat → Nat → Bytes) (gs : List (List Bytes)) (S : Nat → Prop) (ks : List Bytes)
    (order : List (List Bytes) → List (List Bytes)) (ie : Bool)
    (hord : ∀ l, (order l).Perm l) (hk : privkeyFromWif H w = .ok k) (hlt : bytesVal k < n)
    (h1 : 1 ≤ required) (h : partialSplit .py2 H w required total ent = .ok gs)
    (hdiff : ∀ i, i < total → ∀ ws, splitPrivateKey .py2 H w required (ent i) = .ok ws → ws.Nodup)
    (hks : ∀ x, x ∈ ks ↔ ∃ i, S i ∧ ∃ hi : i < gs.length, x ∈ gs[i]) :
    ((∃ a, ∀ j, j < required → S ((a + j) % total)) →
      partialCombine .py2 H order ks ie = .ok (some (privkeyToWif H k))) ∧
    ((¬ ∃ a, ∀ j, j < required → S ((a + j) % total)) →
      partialCombine .py2 H order ks ie = .ok none) := by
  obtain ⟨k', V, hk', hrt, hgl, htot, hreq, hV, hmem⟩ := partialSplit_inv h1 h
  rw [hk] at hk'
  cases hk'
  have hk32 := (privkeyFromWif_sound H w k 0x80 hk).1
  have hr8 : (UInt8.ofNat required).toNat = required := by
    simp only [UInt8.toNat_ofNat']; omega
  have hi8 : ∀ i, i < total → (UInt8.ofNat i).toNat = i := by
    intro i hi; simp only [UInt8.toNat_ofNat']; omega
  have h8i : ∀ u : UInt8, UInt8.ofNat u.toNat = u := fun u => by simp
  -- the items
  have hks' : ∀ x, x ∈ ks ↔ ∃ i, i < total ∧ S i ∧ ∃ j, j < required ∧ ∃ v,
      (V ((i + j) % total))[j]? = some v ∧ x = enc H (UInt8.ofNat required) ((H.sha256d k).take 4)
        (UInt8.ofNat ((i + j) % total), beBytes 32 v) := by
    intro x
    rw [hks]
    constructor
    · rintro ⟨i, hs, hi, hx⟩
      exact ⟨i, by omega, hs, (hmem i hi x).1 hx⟩
    · rintro ⟨i, hi, hs, hx⟩
      exact ⟨i, hs, by omega, (hmem i (by omega) x).2 hx⟩
  obtain ⟨items, rfl⟩ := exists_map_eq (f := enc H (UInt8.ofNat required) ((H.sha256d k).take 4)) (l := ks) (by
    intro x hx
    obtain ⟨i, _, _, j, _, v, _, rfl⟩ := (hks' x).1 hx
    exact ⟨_, rfl⟩)
  have hit : ∀ it, it ∈ items ↔ ∃ i, i < total ∧ S i ∧ ∃ j, j < required ∧ ∃ v,
      (V ((i + j) % total))[j]? = some v ∧ it = (UInt8.ofNat ((i + j) % total), beBytes 32 v) := by
    intro it
    constructor
    · intro hm
      obtain ⟨i, a, b, j, c, v, d, e⟩ := (hks' _).1 (List.mem_map_of_mem hm)
      exact ⟨i, a, b, j, c, v, d, enc_inj e⟩
    · rintro ⟨i, a, b, j, c, v, d, rfl⟩
      have := (hks' _).2 ⟨i, a, b, j, c, v, d, rfl⟩
      obtain ⟨it, h1, h2⟩ := List.mem_map.1 this
      rw [← enc_inj h2]
      exact h1
  have hnd : ∀ i, i < total → (V i).Nodup := by
    intro i hi
    exact List.Nodup.of_map _ (hdiff i hi _ (hV i hi).1)
  have key := partialCombine_items H order hord ie (UInt8.ofNat required) k hk32 hlt (fun u => V u.toNat)
    (by rw [hr8]; omega) items (fun u => u.toNat < total)
    (fun u hu => ⟨by rw [hr8]; exact (hV _ hu).2.1, hnd _ hu, (hV _ hu).2.2.1, by
      rw [(hV _ hu).2.2.2, Nat.mod_eq_of_lt hlt]⟩)
    (by
      intro it hm
      obtain ⟨i, a, b, j, c, v, d, rfl⟩ := (hit it).1 hm
      have hm' : (i + j) % total < total := Nat.mod_lt _ (by omega)
      refine ⟨by rw [hi8 _ hm']; exact hm', v, ?_, rfl⟩
      rw [hi8 _ hm']
      exact List.mem_of_getElem? d)
  have hcomp : (∃ u : UInt8, u.toNat < total ∧ ∀ v ∈ V u.toNat, (u, beBytes 32 v) ∈ items) ↔
      ∃ a, ∀ j, j < required → S ((a + j) % total) := by
    have hw := window (t := total) (e := required - 1) (by omega) S
    rw [show required - 1 + 1 = required by omega] at hw
    rw [← hw]
    constructor
    · rintro ⟨u, hu, hall⟩
      refine ⟨u.toNat, hu, fun j hj => ?_⟩
      have hjl : j < (V u.toNat).length := by rw [(hV _ hu).2.1]; exact hj
      obtain ⟨i, a, b, j', c, v, d, e⟩ := (hit _).1 (hall _ (List.getElem_mem hjl))
      obtain ⟨e1, e2⟩ := Prod.mk.injEq .. ▸ e
      have hm' : (i + j') % total < total := Nat.mod_lt _ (by omega)
      have e3 : u.toNat = (i + j') % total := by rw [e1, hi8 _ hm']
      have e4 : (V u.toNat)[j] = v := by
        have l1 := (hV _ hu).2.2.1 _ (List.getElem_mem hjl)
        have l2 := (hV _ hm').2.2.1 _ (List.mem_of_getElem? d)
        have := congrArg bytesVal e2
        rwa [bytesVal_beBytes_of_lt (lt_trans l1 n_lt), bytesVal_beBytes_of_lt (lt_trans l2 n_lt)] at this
      rw [← e3] at d
      obtain ⟨hj', e5⟩ := List.getElem?_eq_some_iff.1 d
      have : j = j' := (List.Nodup.getElem_inj_iff (hnd _ hu)).1 (e4.trans e5.symm)
      subst this
      rw [e3, mod_sub (by omega) a]
      exact b
    · rintro ⟨i, hi, hall⟩
      refine ⟨UInt8.ofNat i, by rw [hi8 i hi]; exact hi, ?_⟩
      rw [hi8 i hi]
      intro v hv
      obtain ⟨j, hj, rfl⟩ := List.getElem_of_mem hv
      rw [(hV i hi).2.1] at hj
      refine (hit _).2 ⟨(i + total - j) % total, Nat.mod_lt _ (by omega), hall j hj, j, hj, (V i)[j], ?_, ?_⟩
      swap
      · rw [mod_add (by omega) hi]
      · rw [mod_add (by omega) hi]
        exact List.getElem?_eq_getElem _
  rw [hcomp] at key
  exact key

/-- All the groups together recover the key. -/
theorem C57_all_groups (H : Hashes) (w k : Bytes) (required total : Nat)
    (ent : Nat → Nat → Nat → Nat → Bytes) (gs : List (List Bytes)) (hk : privkeyFromWif H w = .ok k)
    (hlt : bytesVal k < n) (h1 : 1 ≤ required) (h : partialSplit .py2 H w required total ent = .ok gs)
    (hdiff : ∀ i, i < total → ∀ ws, splitPrivateKey .py2 H w required (ent i) = .ok ws → ws.Nodup) :
    partialCombine .py2 H id gs.flatten = .ok (some (privkeyToWif H k)) := by
  obtain ⟨_, _, _, hrt, hgl, _⟩ := partialSplit_inv h1 h
  refine (C57_recover_partial H w k required total ent gs (fun i => i < total) _ id false
    (fun l => .refl _) hk hlt h1 h hdiff ?_).1 ⟨0, fun j hj => Nat.mod_lt _ (by omega)⟩
  intro x
  rw [List.mem_flatten]
  constructor
  · rintro ⟨l, hl, hx⟩
    obtain ⟨i, hi, rfl⟩ := List.getElem_of_mem hl
    exact ⟨i, by omega, hi, hx⟩
  · rintro ⟨i, _, hi, hx⟩
    exact ⟨_, List.getElem_mem hi, hx⟩

/-- A two-of-three split of the key 7, with first draws 1, 2 and 3. -/
example : (∃ gs, partialSplit .py2 Hashes.toy (privkeyToWif Hashes.toy (beBytes 32 7)) 2 3 (fun i _ => constEnt i) =
      .ok gs) ∧
    (∀ i, i < 3 → ∀ ws, splitPrivateKey .py2 Hashes.toy (privkeyToWif Hashes.toy (beBytes 32 7)) 2 (fun _ => constEnt i) =
      .ok ws → ws.Nodup) := by
  constructor
  · have : (partialSplit .py2 Hashes.toy (privkeyToWif Hashes.toy (beBytes 32 7)) 2 3
        (fun i _ => constEnt i)).toBool = true := by decide +kernel
    cases h : partialSplit .py2 Hashes.toy (privkeyToWif Hashes.toy (beBytes 32 7)) 2 3 (fun i _ => constEnt i) with
    | ok gs => exact ⟨gs, rfl⟩
    | error e => rw [h] at this; cases this
  · have : ∀ i, i < 3 → (match splitPrivateKey .py2 Hashes.toy (privkeyToWif Hashes.toy (beBytes 32 7)) 2
        (fun _ => constEnt i) with | .ok ws => decide ws.Nodup | .error _ => true) = true := by decide +kernel
    intro i hi ws h
    have := this i hi
    rw [h] at this
    simpa using this

/-- C57 fails for every key and all draws: the groups 0 and 2 of a two-of-four split recover nothing. -/
theorem C57_any_groups_false (H : Hashes) (w k : Bytes) (ent : Nat → Nat → Nat → Nat → Bytes)
    (g0 g1 g2 g3 : List Bytes) (hk : privkeyFromWif H w = .ok k) (hlt : bytesVal k < n)
    (h : partialSplit .py2 H w 2 4 ent = .ok [g0, g1, g2, g3])
    (hdiff : ∀ i, i < 4 → ∀ ws, splitPrivateKey .py2 H w 2 (ent i) = .ok ws → ws.Nodup) :
    partialCombine .py2 H id (g0 ++ g2) = .ok none := by
  refine (C57_recover_partial H w k 2 4 ent _ (fun i => i = 0 ∨ i = 2) _ id false
    (fun l => .refl _) hk hlt (by omega) h hdiff ?_).2 ?_
  · intro x
    rw [List.mem_append]
    constructor
    · rintro (hx | hx)
      · exact ⟨0, .inl rfl, by simp, hx⟩
      · exact ⟨2, .inr rfl, by simp, hx⟩
    · rintro ⟨i, rfl | rfl, hi, hx⟩
      · exact .inl hx
      · exact .inr hx
  · rintro ⟨a, ha⟩
    have h0 := ha 0 (by omega)
    have h1 := ha 1 (by omega)
    omega

/-- C57 fails when a key-set repeats a key: the key 2 split into 1 and 1 is not recovered from all the
groups. -/
theorem C57_repeated_false :
    ∃ gs, partialSplit .py2 Hashes.toy (privkeyToWif Hashes.toy (beBytes 32 2)) 2 2 (fun _ _ => constEnt 0) = .ok gs ∧
      partialCombine .py2 Hashes.toy id gs.flatten = .ok none := by
  have : (match partialSplit .py2 Hashes.toy (privkeyToWif Hashes.toy (beBytes 32 2)) 2 2 (fun _ _ => constEnt 0) with
    | .ok gs => decide (partialCombine .py2 Hashes.toy id gs.flatten = .ok none)
    | .error _ => false) = true := by decide +kernel
  cases h : partialSplit .py2 Hashes.toy (privkeyToWif Hashes.toy (beBytes 32 2)) 2 2 (fun _ _ => constEnt 0) with
  | ok gs => rw [h] at this; exact ⟨gs, rfl, by simpa using this⟩
  | error e => rw [h] at this; cases this

/-- C57 fails in Python 3, whatever the key. -/
theorem C57_python3_false (H : Hashes) (w k : Bytes) (required total : Nat)
    (ent : Nat → Nat → Nat → Nat → Bytes) (hrt : required ≤ total) (hk : privkeyFromWif H w = .ok k) :
    partialSplit .py3 H w required total ent = .error .nameError := by
  unfold partialSplit
  rw [if_neg (by omega), hk, ok_bind]
  rfl

/-! ### C58 -/

/-- C58: every key returned by `partial_split_private_key` starts with the characters `6C`. -/
theorem C58_prefix (ver : PyVer) (H : Hashes) (w : Bytes) (required total : Nat)
    (ent : Nat → Nat → Nat → Nat → Bytes) (gs : List (List Bytes))
    (h : partialSplit ver H w required total ent = .ok gs) :
    ∀ l ∈ gs, ∀ x ∈ l, x.take 2 = ascii "6C" := by
  intro l hl x hx
  cases ver with
  | py3 =>
    unfold partialSplit at h
    split_ifs at h
    obtain ⟨_, _, h⟩ := bind_ok_iff.1 h
    cases h
  | py2 =>
    by_cases h1 : 1 ≤ required
    · obtain ⟨k, V, hk, _, _, _, _, _, hmem⟩ := partialSplit_inv h1 h
      obtain ⟨i, hi, rfl⟩ := List.getElem_of_mem hl
      obtain ⟨j, _, v, _, rfl⟩ := (hmem i hi x).1 hx
      exact partial_prefix H _ _ _ _ (sha256d_take4 H k) (beBytes_length _ _)
    · have h0 : required = 0 := by omega
      subst h0
      unfold partialSplit at h
      split_ifs at h
      obtain ⟨k, _, h⟩ := bind_ok_iff.1 h
      simp only [xrange, ok_bind] at h
      obtain ⟨keys, _, h⟩ := bind_ok_iff.1 h
      obtain ⟨i, _, hi⟩ := (mapM_mem h).2 l hl
      rw [List.range_zero, List.mapM_nil, pure_bind] at hi
      rw [← Except.ok.inj hi] at hx
      simp [toSet] at hx

end NBC.Props
