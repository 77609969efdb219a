import Verif.Props.SplitSecrecy
import Verif.Props.MixedPieces

/-!
# C134: too few partial key-sets say nothing about the key but its checksum
-/

namespace NBC.Props
open NBC Key Ecdsa Base58 EC Aes Spec NBC.Secp Piecewise

/-! ### lists of results -/

theorem mapM_exists {α β : Type} {f : α → Py β} {l : List α} (h : ∀ x ∈ l, ∃ y, f x = .ok y) :
    ∃ r, l.mapM f = .ok r := by
  induction l with
  | nil => exact ⟨[], rfl⟩
  | cons x xs ih =>
    obtain ⟨y, hy⟩ := h x (by simp)
    obtain ⟨r, hr⟩ := ih (fun z hz => h z (by simp [hz]))
    exact ⟨y :: r, by rw [List.mapM_cons, hy, ok_bind, hr, ok_bind]; rfl⟩

theorem mapM_at {α β : Type} {f f' : α → Py β} {l l' : List α} {r r' : List β} (h : l.mapM f = .ok r)
    (h' : l'.mapM f' = .ok r') {j : Nat} (hj : l'[j]? = l[j]?) (hf : ∀ x, l[j]? = some x → f' x = f x) :
    r'[j]? = r[j]? := by
  obtain ⟨e, he⟩ := mapM_inv h
  obtain ⟨e', he'⟩ := mapM_inv h'
  by_cases hlt : j < l.length
  · have hlt' : j < l'.length := by
      rw [List.getElem?_eq_getElem hlt] at hj
      exact (List.getElem?_eq_some_iff.1 hj).1
    rw [List.getElem?_eq_getElem hlt, List.getElem?_eq_getElem hlt', Option.some.injEq] at hj
    have h1 := he j hlt (by omega)
    have h2 := he' j hlt' (by omega)
    rw [hj, hf _ (List.getElem?_eq_getElem hlt), h1] at h2
    rw [List.getElem?_eq_getElem (by omega), List.getElem?_eq_getElem (by omega), Except.ok.inj h2]
  · have hge' : l'.length ≤ j := by
      rw [List.getElem?_eq_none (l := l) (by omega)] at hj
      exact List.getElem?_eq_none_iff.1 hj
    rw [List.getElem?_eq_none (by omega), List.getElem?_eq_none (by omega)]

/-! ### one row -/

theorem eraseIdx_at {α : Type} {l l' : List α} {j : Nat} (h : l'.eraseIdx j = l.eraseIdx j) {i : Nat} (hi : i ≠ j) :
    l'[i]? = l[i]? := by
  rcases Nat.lt_or_gt_of_ne hi with hi | hi
  · have := congrArg (·[i]?) h
    simpa [List.getElem?_eraseIdx, hi] using this
  · have := congrArg (·[i - 1]?) h
    simp only [List.getElem?_eraseIdx, show ¬ (i - 1 < j) by omega, if_false] at this
    rwa [show i - 1 + 1 = i by omega] at this

theorem split_length {H : Hashes} {w : Bytes} {count : Nat} {ent : Nat → Nat → Nat → Bytes} {ws : List Bytes}
    (h : splitPrivateKey .py2 H w count ent = .ok ws) : ws.length = count - 1 + 1 := by
  obtain ⟨k, vs, -, rfl, hp, -⟩ := pieces_of_split h
  rw [List.length_map, hp.len]

/-- The pieces that are not seen: at most one key is excluded, and none if two are not seen. -/
theorem row_secret {H : Hashes} {w : Bytes} {count : Nat} {ent : Nat → Nat → Nat → Bytes} {ws : List Bytes}
    (h : splitPrivateKey .py2 H w count ent = .ok ws) (hc : 1 ≤ count) (Hid : Nat → Prop)
    (hid : ∃ j, j < count ∧ Hid j) :
    ∃ bad : List Nat, bad.length ≤ 1 ∧ ((∃ a b, a < b ∧ b < count ∧ Hid a ∧ Hid b) → bad = []) ∧
      ∀ w' k', privkeyFromWif H w' = .ok k' → bytesVal k' % n ∉ bad →
        ∃ ent' ws', splitPrivateKey .py2 H w' count ent' = .ok ws' ∧ ws'.length = ws.length ∧
          ∀ i, ¬ Hid i → ws'[i]? = ws[i]? := by
  have hl := split_length h
  by_cases h2 : ∃ a b, a < b ∧ b < count ∧ Hid a ∧ Hid b
  · obtain ⟨a, b, hab, hb, ha1, hb1⟩ := h2
    refine ⟨[], by simp, fun _ => rfl, fun w' k' hk' _ => ?_⟩
    obtain ⟨ent', ws', h3, h4, h5⟩ := C106_two_missing H w w' k' count a b ent ws h hab (by omega) hk'
    exact ⟨ent', ws', h3, h4, fun i hi => h5 i (by rintro rfl; exact hi ha1) (by rintro rfl; exact hi hb1)⟩
  · obtain ⟨j, hj, hj1⟩ := hid
    refine ⟨[((ws.eraseIdx j).map (secretOf H)).sum % n], by simp, fun h => absurd h h2, fun w' k' hk' hb => ?_⟩
    obtain ⟨ent', ws', h3, h4⟩ := (C106_one_missing_partial H w w' k' count j ent ws h (by omega) hk').1.2
      (.inr (by simpa using hb))
    exact ⟨ent', ws', h3, by rw [split_length h3, hl], fun i hi => eraseIdx_at h4 (by rintro rfl; exact hi hj1)⟩

/-! ### all rows -/

/-- Piece `j` of row `r` is in no group of `S`. -/
def Hidden (S : Nat → Prop) (total r j : Nat) : Prop := ∃ i, i < total ∧ (i + j) % total = r ∧ ¬ S i

theorem hidden_exists {S : Nat → Prop} {required total r : Nat} (h1 : 1 ≤ required) (hrt : required ≤ total)
    (hr : r < total) (hS : ¬ ∃ a, ∀ j, j < required → S ((a + j) % total)) :
    ∃ j, j < required ∧ Hidden S total r j := by
  have : ∃ j, j < required ∧ ¬ S ((r + total - (required - 1) + j) % total) := by
    by_contra hc
    refine hS ⟨r + total - (required - 1), fun j hj => ?_⟩
    by_contra h
    exact hc ⟨j, hj, h⟩
  obtain ⟨j, hj, hn⟩ := this
  refine ⟨required - 1 - j, by omega, _, Nat.mod_lt _ (by omega), ?_, hn⟩
  rw [Nat.mod_add_mod, show r + total - (required - 1) + j + (required - 1 - j) = r + total by omega,
    Nat.add_mod_right, Nat.mod_eq_of_lt hr]

theorem encode_exists {H : Hashes} {required index : Nat} {cs cs' k k' y p : Bytes}
    (h : partialEncodeKey H required cs k index = .ok y) (hk' : privkeyFromWif H k' = .ok p) :
    ∃ y', partialEncodeKey H required cs' k' index = .ok y' := by
  unfold partialEncodeKey at h ⊢
  obtain ⟨_, -, h⟩ := bind_ok_iff.1 h
  obtain ⟨i, hi, h⟩ := bind_ok_iff.1 h
  obtain ⟨r, hr, h⟩ := bind_ok_iff.1 h
  exact ⟨_, by rw [hk', ok_bind, hi, ok_bind, hr, ok_bind]⟩

theorem pyIndex_ok {α : Type} {l : List α} {i : Nat} (h : i < l.length) : pyIndex l i = .ok l[i] := by
  unfold pyIndex
  rw [List.getElem?_eq_getElem h]

theorem pyIndex_congr {α : Type} {l l' : List α} {i : Nat} (h : l'[i]? = l[i]?) : pyIndex l' i = pyIndex l i := by
  unfold pyIndex
  rw [h]

/-- C134, in Python 2.  Let `S` be groups among which there are no `required` cyclically consecutive ones, for
instance any set of fewer than `required` groups.  There is a list of at most `total` numbers, and an empty one if of
each key-set at least two pieces are in no group of `S`, such that whoever sees the groups of `S` cannot exclude any
other key with the same four bytes of checksum and a number outside of that list: some draws give exactly the same
groups.  Missing: the numbers in the list (`C106_excluded_false`), keys with another checksum
(`C134_checksum_false`), and Python 3, where there is no split (`C57_python3_false`). -/
theorem C134_secret_partial (H : Hashes) (w k : Bytes) (required total : Nat) (ent : Nat → Nat → Nat → Nat → Bytes)
    (gs : List (List Bytes)) (S : Nat → Prop) (hk : privkeyFromWif H w = .ok k) (h1 : 1 ≤ required)
    (h : partialSplit .py2 H w required total ent = .ok gs)
    (hS : ¬ ∃ a, ∀ j, j < required → S ((a + j) % total)) :
    ∃ bad : List Nat, bad.length ≤ total ∧
      ((∀ r, r < total → ∃ a b, a < b ∧ b < required ∧ Hidden S total r a ∧ Hidden S total r b) → bad = []) ∧
      ∀ w' k', privkeyFromWif H w' = .ok k' → (H.sha256d k').take 4 = (H.sha256d k).take 4 →
        bytesVal k' % n ∉ bad →
        ∃ ent' gs', partialSplit .py2 H w' required total ent' = .ok gs' ∧ gs'.length = gs.length ∧
          ∀ i, S i → gs'[i]? = gs[i]? := by
  unfold partialSplit at h
  split at h
  · cases h
  · rename_i hrt
    rw [hk, ok_bind] at h
    simp only [xrange, ok_bind] at h
    obtain ⟨keys, hkeys, h⟩ := bind_ok_iff.1 h
    obtain ⟨hkl, hke⟩ := mapM_inv hkeys
    obtain ⟨hgl, hge⟩ := mapM_inv h
    rw [List.length_range] at hkl hgl
    have hrow : ∀ r, ∃ bad : List Nat, r < total → bad.length ≤ 1 ∧
        ((∃ a b, a < b ∧ b < required ∧ Hidden S total r a ∧ Hidden S total r b) → bad = []) ∧
        ∀ w' k', privkeyFromWif H w' = .ok k' → (H.sha256d k').take 4 = (H.sha256d k).take 4 →
          bytesVal k' % n ∉ bad →
          ∃ ent' ks', getKeys .py2 H w' required ((H.sha256d k').take 4) ent' r = .ok ks' ∧ ks'.length = required ∧
            ∀ j, ¬ Hidden S total r j → ∀ hr : r < keys.length, ks'[j]? = keys[r][j]? := by
      intro r
      by_cases hr : r < total
      · have hg := hke r (by simpa using hr) (by omega)
        rw [List.getElem_range] at hg
        unfold getKeys at hg
        obtain ⟨ws, hws, hm⟩ := bind_ok_iff.1 hg
        obtain ⟨bad, hb1, hb2, hb3⟩ := row_secret hws h1 (Hidden S total r) (hidden_exists h1 (by omega) hr hS)
        refine ⟨bad, fun _ => ⟨hb1, hb2, fun w' k' hk' hcs hbad => ?_⟩⟩
        obtain ⟨ent', ws', hws', hl', hat⟩ := hb3 w' k' hk' hbad
        obtain ⟨hml, hme⟩ := mapM_inv hm
        have hwl := split_length hws
        have hex : ∀ x ∈ ws', ∃ y, partialEncodeKey H required ((H.sha256d k').take 4) x r = .ok y := by
          obtain ⟨k'', us, -, rfl, -, -⟩ := pieces_of_split hws'
          intro x hx
          obtain ⟨u, -, rfl⟩ := List.mem_map.1 hx
          exact encode_exists (hme 0 (by omega) (by omega)) (fromWif_wifOf H u)
        obtain ⟨ks', hks'⟩ := mapM_exists hex
        refine ⟨ent', ks', ?_, ?_, fun j hj hr' => ?_⟩
        · unfold getKeys
          rw [hws', ok_bind, hks']
        · rw [(mapM_inv hks').1, hl', hwl]; omega
        · exact mapM_at hm hks' (hat j hj) (fun x _ => by rw [hcs])
      · exact ⟨[], fun h => absurd h hr⟩
    choose badOf hbad using hrow
    refine ⟨(List.range total).flatMap badOf, ?_, fun h2 => ?_, fun w' k' hk' hcs hnb => ?_⟩
    · have : ∀ m, m ≤ total → ((List.range m).flatMap badOf).length ≤ m := by
        intro m
        induction m with
        | zero => simp
        | succ m ih =>
          intro hm
          rw [List.range_succ, List.flatMap_append, List.length_append]
          have h3 := ih (by omega)
          have h4 := (hbad m (by omega)).1
          simp only [List.flatMap_cons, List.flatMap_nil, List.append_nil]
          omega
      exact this total le_rfl
    · rw [List.flatMap_eq_nil_iff]
      intro r hr
      rw [List.mem_range] at hr
      exact (hbad r hr).2.1 (h2 r hr)
    · have hnb' : ∀ r, r < total → bytesVal k' % n ∉ badOf r := fun r hr hm =>
        hnb (List.mem_flatMap.2 ⟨r, List.mem_range.2 hr, hm⟩)
      have hr2 : ∀ r, ∃ ent' ks', r < total → getKeys .py2 H w' required ((H.sha256d k').take 4) ent' r = .ok ks' ∧
          ks'.length = required ∧ ∀ j, ¬ Hidden S total r j → ∀ hr : r < keys.length, ks'[j]? = keys[r][j]? := by
        intro r
        by_cases hr : r < total
        · obtain ⟨e, ks', h3⟩ := (hbad r hr).2.2 w' k' hk' hcs (hnb' r hr)
          exact ⟨e, ks', fun _ => h3⟩
        · exact ⟨fun _ _ _ => [], [], fun h => absurd h hr⟩
      choose ent' ks' hks' using hr2
      have hkeys' : (List.range total).mapM (fun i => getKeys .py2 H w' required ((H.sha256d k').take 4) (ent' i) i) =
          .ok ((List.range total).map ks') :=
        Proto.mapM_ok _ fun r hr => (hks' r (List.mem_range.1 hr)).1
      have hgroups : ∃ gs', (List.range total).mapM (fun i => do
          let js ← xrange .py2 required
          let group ← js.mapM (fun j => do
            let ks ← pyIndex ((List.range total).map ks') ((i + j) % total)
            pyIndex ks j)
          .ok (toSet group)) = .ok gs' := by
        refine mapM_exists fun i hi => ?_
        have : ∃ group, (List.range required).mapM (fun j => do
            let ks ← pyIndex ((List.range total).map ks') ((i + j) % total)
            pyIndex ks j) = .ok group := by
          refine mapM_exists fun j hj => ?_
          have hlt : (i + j) % total < total := Nat.mod_lt _ (by omega)
          rw [pyIndex_ok (by simpa using hlt), ok_bind]
          rw [List.mem_range] at hj
          refine ⟨_, pyIndex_ok (i := j) ?_⟩
          rw [List.getElem_map, List.getElem_range, (hks' _ hlt).2.1]
          exact hj
        obtain ⟨group, hg⟩ := this
        exact ⟨toSet group, by simp only [xrange, ok_bind, hg]⟩
      obtain ⟨gs', hgs'⟩ := hgroups
      refine ⟨ent', gs', ?_, ?_, fun i hi => ?_⟩
      · unfold partialSplit
        rw [if_neg hrt, hk', ok_bind]
        simp only [xrange, ok_bind] at hgs' ⊢
        rw [hkeys', ok_bind]
        exact hgs'
      · rw [(mapM_inv hgs').1, hgl, List.length_range]
      · refine mapM_at h hgs' rfl fun i' hi' => ?_
        have hi2 : i' = i ∧ i < total := by
          rw [List.getElem?_eq_some_iff] at hi'
          obtain ⟨hlt, he⟩ := hi'
          rw [List.getElem_range] at he
          exact ⟨he.symm, by simpa using hlt⟩
        obtain ⟨rfl, hit⟩ := hi2
        simp only [xrange, ok_bind]
        have : (fun j => do
            let ks ← pyIndex ((List.range total).map ks') ((i' + j) % total)
            pyIndex ks j) = (fun j => do
            let ks ← pyIndex keys ((i' + j) % total)
            pyIndex ks j) := by
          funext j
          have hlt : (i' + j) % total < total := Nat.mod_lt _ (by omega)
          rw [pyIndex_ok (by simpa using hlt), pyIndex_ok (l := keys) (by omega), ok_bind, ok_bind]
          refine pyIndex_congr ?_
          rw [List.getElem_map, List.getElem_range]
          by_cases hH : Hidden S total ((i' + j) % total) j
          · obtain ⟨i2, hi2, he, hn⟩ := hH
            exfalso
            have : i2 = i' := by
              have h3 : i2 + j ≡ i' + j [MOD total] := he
              exact Nat.ModEq.eq_of_lt_of_lt (Nat.ModEq.add_right_cancel' j h3) hi2 hit
            rw [this] at hn
            exact hn hi
          · exact (hks' _ hlt).2.2 j hH (by omega)
        rw [this]

/-- C134 for any fewer than `required` groups. -/
theorem C134_too_few_partial (H : Hashes) (w k : Bytes) (required total : Nat)
    (ent : Nat → Nat → Nat → Nat → Bytes) (gs : List (List Bytes)) (S : Finset Nat)
    (hk : privkeyFromWif H w = .ok k) (h : partialSplit .py2 H w required total ent = .ok gs)
    (hS : S.card < required) :
    ∃ bad : List Nat, bad.length ≤ total ∧
      ∀ w' k', privkeyFromWif H w' = .ok k' → (H.sha256d k').take 4 = (H.sha256d k).take 4 →
        bytesVal k' % n ∉ bad →
        ∃ ent' gs', partialSplit .py2 H w' required total ent' = .ok gs' ∧ ∀ i ∈ S, gs'[i]? = gs[i]? := by
  obtain ⟨_, _, _, hrt, -⟩ := partialSplit_inv (by omega) h
  obtain ⟨bad, hb, -, hc⟩ := C134_secret_partial H w k required total ent gs (· ∈ S) hk (by omega) h (by
    rintro ⟨a, ha⟩
    have hsub : (Finset.range required).image (fun j => (a + j) % total) ⊆ S := by
      intro x hx
      obtain ⟨j, hj, rfl⟩ := Finset.mem_image.1 hx
      exact ha j (Finset.mem_range.1 hj)
    have hcard := Finset.card_le_card hsub
    rw [Finset.card_image_of_injOn, Finset.card_range] at hcard
    · omega
    · intro x hx y hy he
      simp only [Finset.coe_range, Set.mem_Iio] at hx hy
      exact Nat.ModEq.eq_of_lt_of_lt (Nat.ModEq.add_left_cancel' a he) (by omega) (by omega))
  refine ⟨bad, hb, fun w' k' h1 h2 h3 => ?_⟩
  obtain ⟨e, gs', h4, -, h5⟩ := hc w' k' h1 h2 h3
  exact ⟨e, gs', h4, h5⟩

/-- C134 fails for the checksum: any partial key is enough to read the first four bytes of the double SHA-256 of the
key, so a single one excludes every key with other bytes there, whatever the draws. -/
theorem C134_checksum_false (H : Hashes) (w k : Bytes) (required total : Nat)
    (ent : Nat → Nat → Nat → Nat → Bytes) (gs : List (List Bytes)) (hk : privkeyFromWif H w = .ok k)
    (h1 : 1 ≤ required) (h : partialSplit .py2 H w required total ent = .ok gs) (x : Bytes) (hx : x ∈ gs.flatten) :
    (∃ p, decodeCheck H x = .ok (some p) ∧ (p.drop 4).take 4 = (H.sha256d k).take 4) ∧
    ∀ w' k' ent' gs', privkeyFromWif H w' = .ok k' → partialSplit .py2 H w' required total ent' = .ok gs' →
      (H.sha256d k').take 4 ≠ (H.sha256d k).take 4 → x ∉ gs'.flatten := by
  have key : ∀ w k ent gs, privkeyFromWif H w = .ok k → partialSplit .py2 H w required total ent = .ok gs →
      x ∈ gs.flatten → ∃ p, decodeCheck H x = .ok (some p) ∧ (p.drop 4).take 4 = (H.sha256d k).take 4 := by
    intro w k ent gs hk h hx
    obtain ⟨k', V, hk', -, -, -, -, -, hg⟩ := partialSplit_inv h1 h
    rw [hk] at hk'
    cases hk'
    obtain ⟨g, hgm, hxg⟩ := List.mem_flatten.1 hx
    obtain ⟨i, hi, rfl⟩ := List.mem_iff_getElem.1 hgm
    obtain ⟨j, -, v, -, rfl⟩ := (hg i hi x).1 hxg
    refine ⟨_, decodeCheck_encodeCheck H _, ?_⟩
    have hl : ((H.sha256d k).take 4).length = 4 := by simp [Hashes.sha256d, H.sha256_length]
    simp [hl]
  refine ⟨key w k ent gs hk h hx, fun w' k' ent' gs' hk' h' hne hx' => hne ?_⟩
  obtain ⟨p, hp, e⟩ := key w k ent gs hk h hx
  obtain ⟨p', hp', e'⟩ := key w' k' ent' gs' hk' h' hx'
  rw [hp] at hp'
  cases hp'
  exact e'.symm.trans e

/-- The key 7 in a two-of-three split; the key 8 has the same checksum with the hash of the examples. -/
example : ∃ gs, partialSplit .py2 Hashes.toy (wifOf Hashes.toy 7) 2 3 (fun r i _ len => beBytes len (r + i + 1)) = .ok gs ∧
    gs.map List.length = [2, 2, 2] ∧ ({0} : Finset Nat).card < 2 ∧
    (Hashes.toy.sha256d (beBytes 32 8)).take 4 = (Hashes.toy.sha256d (beBytes 32 7)).take 4 := by
  have : (match partialSplit .py2 Hashes.toy (wifOf Hashes.toy 7) 2 3 (fun r i _ len => beBytes len (r + i + 1)) with
    | .ok gs => decide (gs.map List.length = [2, 2, 2])
    | .error _ => false) = true := by decide +kernel
  cases h : partialSplit .py2 Hashes.toy (wifOf Hashes.toy 7) 2 3 (fun r i _ len => beBytes len (r + i + 1)) with
  | ok gs => rw [h] at this; exact ⟨gs, rfl, by simpa using this, by decide, by decide +kernel⟩
  | error e => rw [h] at this; cases this

end NBC.Props
