import Verif.Proofs.Piecewise

/-!
# Lemmas about partial key-sets
-/

namespace NBC.Piecewise
open NBC Key Ecdsa Base58 EC Aes Spec NBC.Secp

/-- The WIF text of the number `v`. -/
def wifOf (H : Hashes) (v : Nat) : Bytes := privkeyToWif H (beBytes 32 v)

theorem fromWif_wifOf (H : Hashes) (v : Nat) : privkeyFromWif H (wifOf H v) = .ok (beBytes 32 v) :=
  wif_roundtrip_uncompressed H _ (beBytes_length _ _)

theorem getKeys_inv {H : Hashes} {w : Bytes} {req idx : Nat} {cs : Bytes} {ent : Nat → Nat → Nat → Bytes}
    {ks : List Bytes} (hreq : 1 ≤ req) (h : getKeys .py2 H w req cs ent idx = .ok ks) :
    ∃ (k : Bytes) (vs : List Nat), privkeyFromWif H w = .ok k ∧ idx < 256 ∧ req < 256 ∧
      splitPrivateKey .py2 H w req ent = .ok (vs.map (wifOf H)) ∧ vs.length = req ∧ (∀ v ∈ vs, v < n) ∧
      vs.sum % n = bytesVal k % n ∧
      ks = vs.map (fun v => enc H (UInt8.ofNat req) cs (UInt8.ofNat idx, beBytes 32 v)) := by
  unfold getKeys at h
  obtain ⟨ws, h1, h2⟩ := bind_ok_iff.1 h
  obtain ⟨k, vs, hk, hws, hlen, hlt, hsum⟩ := split_inv h1
  have hws' : ws = vs.map (wifOf H) := hws
  subst hws'
  have hne : vs ≠ [] := by intro h0; rw [h0] at hlen; simp at hlen
  obtain ⟨v0, hv0⟩ := List.exists_mem_of_ne_nil _ hne
  have hb : idx < 256 ∧ req < 256 := by
    obtain ⟨y, _, hy⟩ := (mapM_mem h2).1 (wifOf H v0) (List.mem_map_of_mem hv0)
    unfold partialEncodeKey at hy
    rw [fromWif_wifOf, ok_bind] at hy
    obtain ⟨i, h3, hy⟩ := bind_ok_iff.1 hy
    obtain ⟨r, h4, _⟩ := bind_ok_iff.1 hy
    unfold CHR at h3 h4
    constructor
    · by_contra hc; rw [if_neg hc] at h3; cases h3
    · by_contra hc; rw [if_neg hc] at h4; cases h4
  refine ⟨k, vs, hk, hb.1, hb.2, h1, by omega, hlt, hsum, ?_⟩
  have h3 : (vs.map (wifOf H)).mapM (fun k => partialEncodeKey H req cs k idx) =
      .ok (vs.map (fun v => enc H (UInt8.ofNat req) cs (UInt8.ofNat idx, beBytes 32 v))) := by
    clear hlen hlt hsum hne hv0 h1 hws h h2
    induction vs with
    | nil => rfl
    | cons v vs ih =>
      rw [List.map_cons, List.mapM_cons, ih]
      unfold partialEncodeKey
      rw [fromWif_wifOf, ok_bind, CHR, if_pos hb.1, CHR, if_pos hb.2]
      rfl
  rw [h3] at h2
  exact (Except.ok.inj h2).symm

theorem pyIndex_ok {α : Type} {l : List α} {i : Nat} {x : α} (h : pyIndex l i = .ok x) :
    ∃ hi : i < l.length, x = l[i] := by
  unfold pyIndex at h
  split at h
  · rename_i y hy
    obtain ⟨hi, rfl⟩ := List.getElem?_eq_some_iff.1 hy
    exact ⟨hi, (Except.ok.inj h).symm⟩
  · cases h

/-- What `partial_split_private_key` returns. -/
theorem partialSplit_inv {H : Hashes} {w : Bytes} {req total : Nat} {ent : Nat → Nat → Nat → Nat → Bytes}
    {gs : List (List Bytes)} (hreq : 1 ≤ req) (h : partialSplit .py2 H w req total ent = .ok gs) :
    ∃ (k : Bytes) (V : Nat → List Nat), privkeyFromWif H w = .ok k ∧ req ≤ total ∧ gs.length = total ∧
      total ≤ 256 ∧ req < 256 ∧
      (∀ i < total, splitPrivateKey .py2 H w req (ent i) = .ok ((V i).map (wifOf H)) ∧ (V i).length = req ∧
        (∀ v ∈ V i, v < n) ∧ (V i).sum % n = bytesVal k % n) ∧
      ∀ i (hi : i < gs.length) x, x ∈ gs[i] ↔ ∃ j, j < req ∧ ∃ v, (V ((i + j) % total))[j]? = some v ∧
        x = enc H (UInt8.ofNat req) ((H.sha256d k).take 4) (UInt8.ofNat ((i + j) % total), beBytes 32 v) := by
  unfold partialSplit at h
  split_ifs at h with hrt
  obtain ⟨k, h1, h⟩ := bind_ok_iff.1 h
  simp only [xrange, ok_bind] at h
  obtain ⟨keys, h2, h⟩ := bind_ok_iff.1 h
  obtain ⟨hkl, hki⟩ := mapM_inv h2
  obtain ⟨hgl, hgi⟩ := mapM_inv h
  rw [List.length_range] at hkl hgl
  have hkeys : ∀ i, i < total → ∃ vs : List Nat, i < 256 ∧ req < 256 ∧
      splitPrivateKey .py2 H w req (ent i) = .ok (vs.map (wifOf H)) ∧ vs.length = req ∧ (∀ v ∈ vs, v < n) ∧
      vs.sum % n = bytesVal k % n ∧
      keys[i]? = some (vs.map (fun v =>
        enc H (UInt8.ofNat req) ((H.sha256d k).take 4) (UInt8.ofNat i, beBytes 32 v))) := by
    intro i hi
    have h3 := hki i (by simpa using hi) (by omega)
    rw [List.getElem_range] at h3
    obtain ⟨k', vs, e1, e2, e3, e4, e5, e6, e7, e8⟩ := getKeys_inv hreq h3
    rw [h1] at e1
    cases e1
    exact ⟨vs, e2, e3, e4, e5, e6, e7, by rw [List.getElem?_eq_getElem (by omega), e8]⟩
  have htot : 0 < total := by omega
  let V : Nat → List Nat := fun i => if hi : i < total then (hkeys i hi).choose else []
  have hV : ∀ i, i < total → i < 256 ∧ req < 256 ∧
      splitPrivateKey .py2 H w req (ent i) = .ok ((V i).map (wifOf H)) ∧ (V i).length = req ∧
      (∀ v ∈ V i, v < n) ∧ (V i).sum % n = bytesVal k % n ∧
      keys[i]? = some ((V i).map (fun v =>
        enc H (UInt8.ofNat req) ((H.sha256d k).take 4) (UInt8.ofNat i, beBytes 32 v))) := by
    intro i hi
    simp only [V, dif_pos hi]
    exact (hkeys i hi).choose_spec
  refine ⟨k, V, h1, by omega, hgl, ?_, (hV 0 htot).2.1, fun i hi => ?_, ?_⟩
  · have := (hV (total - 1) (by omega)).1; omega
  · obtain ⟨_, _, a, b, c, d, _⟩ := hV i hi
    exact ⟨a, b, c, d⟩
  · intro i hi x
    have h3 := hgi i (by simpa using (by omega : i < total)) hi
    rw [List.getElem_range] at h3
    obtain ⟨group, h4, h5⟩ := bind_ok_iff.1 h3
    rw [← Except.ok.inj h5, mem_toSet]
    have hstep : ∀ j y, j < req → ((do
        let ks ← pyIndex keys ((i + j) % total)
        pyIndex ks j : Py Bytes) = .ok y ↔ ∃ v, (V ((i + j) % total))[j]? = some v ∧
        y = enc H (UInt8.ofNat req) ((H.sha256d k).take 4) (UInt8.ofNat ((i + j) % total), beBytes 32 v)) := by
      intro j y hj
      have hm : (i + j) % total < total := Nat.mod_lt _ htot
      obtain ⟨_, _, _, hl, _, _, hk'⟩ := hV _ hm
      have e1 : pyIndex keys ((i + j) % total) = .ok ((V ((i + j) % total)).map (fun v =>
          enc H (UInt8.ofNat req) ((H.sha256d k).take 4) (UInt8.ofNat ((i + j) % total), beBytes 32 v))) := by
        unfold pyIndex
        rw [hk']
      rw [e1, ok_bind]
      unfold pyIndex
      rw [List.getElem?_map, List.getElem?_eq_getElem (by omega)]
      constructor
      · intro hy
        exact ⟨_, rfl, (Except.ok.inj hy).symm⟩
      · rintro ⟨v, hv, rfl⟩
        cases hv
        rfl
    constructor
    · intro hx
      obtain ⟨j, hj, he⟩ := (mapM_mem h4).2 x hx
      rw [List.mem_range] at hj
      exact ⟨j, hj, (hstep j x hj).1 he⟩
    · rintro ⟨j, hj, hv⟩
      obtain ⟨y, hy, he⟩ := (mapM_mem h4).1 j (List.mem_range.2 hj)
      rw [(hstep j x hj).2 hv] at he
      cases he
      exact hy

theorem exists_map_eq {α β : Type} {f : α → β} : ∀ {l : List β}, (∀ x ∈ l, ∃ a, f a = x) → ∃ l' : List α, l'.map f = l
  | [], _ => ⟨[], rfl⟩
  | x :: l, h => by
    obtain ⟨a, ha⟩ := h x (by simp)
    obtain ⟨l', hl⟩ := exists_map_eq (l := l) (fun y hy => h y (by simp [hy]))
    exact ⟨a :: l', by rw [List.map_cons, ha, hl]⟩

theorem mod_sub {i j t : Nat} (hj : j ≤ t) (hi : i < t) : ((i + j) % t + t - j) % t = i := by
  rw [Nat.add_sub_assoc hj, Nat.mod_add_mod, show i + j + (t - j) = i + t by omega, Nat.add_mod_right,
    Nat.mod_eq_of_lt hi]

theorem mod_add {i j t : Nat} (hj : j ≤ t) (hi : i < t) : ((i + t - j) % t + j) % t = i := by
  rw [Nat.mod_add_mod, show i + t - j + j = i + t by omega, Nat.add_mod_right, Nat.mod_eq_of_lt hi]

theorem window {t e : Nat} (he : e < t) (S : Nat → Prop) :
    (∃ i, i < t ∧ ∀ j, j < e + 1 → S ((i + t - j) % t)) ↔ ∃ a, ∀ j, j < e + 1 → S ((a + j) % t) := by
  constructor
  · rintro ⟨i, _, h⟩
    refine ⟨i + t - e, fun j hj => ?_⟩
    have := h (e - j) (by omega)
    rwa [show i + t - e + j = i + t - (e - j) by omega]
  · rintro ⟨a, h⟩
    refine ⟨(a + e) % t, Nat.mod_lt _ (by omega), fun j hj => ?_⟩
    have := h (e - j) (by omega)
    rw [Nat.add_sub_assoc (by omega), Nat.mod_add_mod, show a + e + (t - j) = a + (e - j) + t by omega,
      Nat.add_mod_right]
    exact this

end NBC.Piecewise
