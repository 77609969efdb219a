import Verif.Proofs.SplitDraws
import Mathlib.Data.List.InsertIdx

/-!
# C106, C107: what the pieces of a split key tell, and whether they are keys
-/

namespace NBC.Props
open NBC Key Ecdsa Base58 EC Aes Spec NBC.Secp Piecewise

/-- The secret number of a WIF text (0 for a text that is none). -/
def secretOf (H : Hashes) (w : Bytes) : Nat :=
  match privkeyFromWif H w with
  | .ok k => bytesVal k
  | .error _ => 0

theorem secretOf_wifOf (H : Hashes) {v : Nat} (h : v < n) : secretOf H (wifOf H v) = v := by
  rw [secretOf, fromWif_wifOf]
  exact bytesVal_beBytes_of_lt (lt_trans h n_lt)

theorem secrets_map (H : Hashes) {vs : List Nat} (h : ∀ v ∈ vs, v < n) :
    (vs.map (wifOf H)).map (secretOf H) = vs := by
  rw [List.map_map]
  refine (List.map_congr_left (g := id) ?_).trans (List.map_id _)
  intro v hv
  exact secretOf_wifOf H (h v hv)

/-- Pieces that a split of the secret `s` in `count` can give. -/
structure Pieces (count s : Nat) (vs : List Nat) : Prop where
  len : vs.length = count - 1 + 1
  lt : ∀ v ∈ vs, v < n
  sum : vs.sum % n = s % n
  drawn : ∀ i (hi : i < vs.length), i < count - 1 → 1 ≤ vs[i]

theorem pieces_of_split {H : Hashes} {w : Bytes} {count : Nat} {ent : Nat → Nat → Nat → Bytes} {ws : List Bytes}
    (h : splitPrivateKey .py2 H w count ent = .ok ws) :
    ∃ (k : Bytes) (vs : List Nat), privkeyFromWif H w = .ok k ∧ ws = vs.map (wifOf H) ∧
      Pieces count (bytesVal k) vs ∧
      ∀ i (hi : i < vs.length), i < count - 1 → randrange n (ent i) = .ok vs[i] := by
  obtain ⟨k, xs, h1, h2, h3, h4⟩ := split_draws h
  refine ⟨k, _, h1, h4, ⟨by simp [h2], ?_, ?_, ?_⟩, ?_⟩
  · intro v hv
    rcases List.mem_append.1 hv with hv | hv
    · obtain ⟨i, hi, rfl⟩ := List.getElem_of_mem hv
      exact (randrange_range (h3 i hi)).2
    · rw [List.mem_singleton] at hv; rw [hv]; exact lastPiece_lt _ _
  · rw [List.sum_append, List.sum_singleton, lastPiece_sum]
  · intro i hi hic
    rw [List.getElem_append_left (by omega)]
    exact (randrange_range (h3 i (by omega))).1
  · intro i hi hic
    rw [List.getElem_append_left (by omega)]
    exact h3 i (by omega)

theorem split_of_pieces {H : Hashes} {w k : Bytes} {count : Nat} {vs : List Nat}
    (hk : privkeyFromWif H w = .ok k) (h : Pieces count (bytesVal k) vs) :
    ∃ ent, splitPrivateKey .py2 H w count ent = .ok (vs.map (wifOf H)) := by
  have hne : vs ≠ [] := by intro h0; have := h.len; rw [h0] at this; simp at this
  have hd := List.dropLast_append_getLast hne
  have hlen : vs.dropLast.length = count - 1 := by rw [List.length_dropLast, h.len]; omega
  refine ⟨fun i => fun _ len => beBytes len (vs.getD i 0 - 1), ?_⟩
  have hx : ∀ i (hi : i < vs.dropLast.length),
      randrange n ((fun i => fun _ len => beBytes len (vs.getD i 0 - 1)) i) = .ok vs.dropLast[i] := by
    intro i hi
    have hi' : i < vs.length := by rw [h.len]; omega
    have e : vs.getD i 0 = vs[i] := List.getD_eq_getElem _ _ hi'
    rw [List.getElem_dropLast]
    simp only [e]
    exact randrange_surj (h.drawn i hi' (by omega)) (h.lt _ (List.getElem_mem hi'))
  rw [split_eq hk hlen hx]
  have : vs.getLast hne = lastPiece (bytesVal k) vs.dropLast := by
    refine lastPiece_unique (h.lt _ (List.getLast_mem hne)) ?_
    have := h.sum
    rw [← hd, List.sum_append, List.sum_singleton] at this
    exact this
  rw [← this, hd]

theorem sum_eraseIdx {vs : List Nat} {j : Nat} (hj : j < vs.length) :
    (vs.eraseIdx j).sum + vs[j] = vs.sum := by
  induction vs generalizing j with
  | nil => simp at hj
  | cons a t ih =>
    cases j with
    | zero => simp [Nat.add_comm]
    | succ j =>
      have := ih (j := j) (by simpa using hj)
      simp only [List.eraseIdx_cons_succ, List.sum_cons, List.getElem_cons_succ]
      omega

theorem eq_of_eraseIdx {us vs : List Nat} {j : Nat} (hl : us.length = vs.length) (hj : j < vs.length)
    (h : us.eraseIdx j = vs.eraseIdx j) (he : us[j] = vs[j]) : us = vs := by
  induction us generalizing vs j with
  | nil => simp at hl; rw [← hl] at hj; simp at hj
  | cons a t ih =>
    cases vs with
    | nil => simp at hj
    | cons b s =>
      cases j with
      | zero =>
        simp only [List.eraseIdx_cons_zero] at h
        simp only [List.getElem_cons_zero] at he
        rw [h, he]
      | succ j =>
        simp only [List.eraseIdx_cons_succ, List.cons.injEq] at h
        simp only [List.getElem_cons_succ] at he
        rw [h.1, ih (by simpa using hl) (by simpa using hj) h.2 he]

/-- The pieces with one replaced so that they add up to `s'`. -/
theorem pieces_set {count s s' j : Nat} {vs : List Nat} (h : Pieces count s vs) (hj : j < vs.length)
    (hok : j = count - 1 ∨ s' % n ≠ (vs.eraseIdx j).sum % n) :
    Pieces count s' (vs.set j (lastPiece s' (vs.eraseIdx j))) := by
  have hsum := lastPiece_sum s' (vs.eraseIdx j)
  have hlt := lastPiece_lt s' (vs.eraseIdx j)
  have hpos : j ≠ count - 1 → 1 ≤ lastPiece s' (vs.eraseIdx j) := by
    intro hne
    by_contra h0
    have h0' : lastPiece s' (vs.eraseIdx j) = 0 := by omega
    rw [h0', Nat.add_zero] at hsum
    rcases hok with hok | hok
    · exact hne hok
    · exact hok hsum.symm
  generalize lastPiece s' (vs.eraseIdx j) = y at hsum hlt hpos
  refine ⟨by rw [List.length_set, h.len], ?_, ?_, ?_⟩
  · intro v hv
    rcases List.mem_or_eq_of_mem_set hv with hv | rfl
    · exact h.lt v hv
    · exact hlt
  · have := sum_eraseIdx (vs := vs.set j y) (j := j) (by simpa using hj)
    rw [List.eraseIdx_set_eq, List.getElem_set_self] at this
    rw [← this]
    exact hsum
  · intro i hi hic
    rw [List.getElem_set]
    split_ifs with hij
    · exact hpos (by omega)
    · exact h.drawn i (by simpa using hi) hic

/-! ### C106 -/

/-- C106, for one withheld piece, number `j`, in Python 2.  Whoever sees the other pieces of a split of some
key cannot exclude another key `k'`, except, when the withheld piece is one of the random ones, the key that
is the sum of the pieces seen; and every key that is possible is so for exactly one outcome of the draws.
Missing: that no key at all is excluded (`C106_excluded_false`), and Python 3, where there is no split
(`C55_python3_false`). -/
theorem C106_one_missing_partial (H : Hashes) (w w' k' : Bytes) (count j : Nat)
    (ent : Nat → Nat → Nat → Bytes) (ws : List Bytes) (h : splitPrivateKey .py2 H w count ent = .ok ws)
    (hj : j < ws.length) (hk' : privkeyFromWif H w' = .ok k') :
    ((∃ ent' ws', splitPrivateKey .py2 H w' count ent' = .ok ws' ∧ ws'.eraseIdx j = ws.eraseIdx j) ↔
      (j = count - 1 ∨ bytesVal k' % n ≠ ((ws.eraseIdx j).map (secretOf H)).sum % n)) ∧
    ∀ ent₁ ws₁ ent₂ ws₂, splitPrivateKey .py2 H w' count ent₁ = .ok ws₁ → ws₁.eraseIdx j = ws.eraseIdx j →
      splitPrivateKey .py2 H w' count ent₂ = .ok ws₂ → ws₂.eraseIdx j = ws.eraseIdx j →
      ws₁ = ws₂ ∧ ∀ i, i < count - 1 → randrange n (ent₁ i) = randrange n (ent₂ i) := by
  obtain ⟨k, vs, _, rfl, hp, _⟩ := pieces_of_split h
  rw [List.length_map] at hj
  have her : ∀ us : List Nat, (us.map (wifOf H)).eraseIdx j = (us.eraseIdx j).map (wifOf H) := fun us =>
    List.eraseIdx_map _ _ _
  have hlt : ∀ {us : List Nat}, (∀ v ∈ us, v < n) → ∀ v ∈ us.eraseIdx j, v < n := fun hu v hv =>
    hu v (List.mem_of_mem_eraseIdx hv)
  rw [her, secrets_map H (hlt hp.lt)]
  have hinv : ∀ ent' ws', splitPrivateKey .py2 H w' count ent' = .ok ws' →
      ws'.eraseIdx j = (vs.eraseIdx j).map (wifOf H) →
      ∃ us, ws' = us.map (wifOf H) ∧ Pieces count (bytesVal k') us ∧ us.eraseIdx j = vs.eraseIdx j ∧
        ∀ i (hi : i < us.length), i < count - 1 → randrange n (ent' i) = .ok us[i] := by
    intro ent' ws' h1 h2
    obtain ⟨k'', us, hk'', rfl, hq, hr⟩ := pieces_of_split h1
    rw [hk'] at hk''
    cases hk''
    rw [her] at h2
    exact ⟨us, rfl, hq, map_wifOf_inj (hlt hq.lt) (hlt hp.lt) h2, hr⟩
  refine ⟨⟨?_, ?_⟩, ?_⟩
  · rintro ⟨ent', ws', h1, h2⟩
    obtain ⟨us, rfl, hq, he, _⟩ := hinv ent' ws' h1 h2
    by_contra hc
    rw [not_or, not_not] at hc
    have hju : j < us.length := by rw [hq.len, ← hp.len]; exact hj
    have h3 := sum_eraseIdx hju
    have h4 := hq.sum
    rw [← h3, he, hc.2] at h4
    have h5 : us[j] ≡ 0 [MOD n] := Nat.ModEq.add_left_cancel' (vs.eraseIdx j).sum (by rw [Nat.ModEq, h4, Nat.add_zero])
    rw [Nat.ModEq, Nat.mod_eq_of_lt (hq.lt _ (List.getElem_mem hju)), Nat.zero_mod] at h5
    have := hq.drawn j hju (by have := hq.len; omega)
    omega
  · intro hok
    obtain ⟨ent', h1⟩ := split_of_pieces hk' (pieces_set (s' := bytesVal k') hp hj hok)
    exact ⟨ent', _, h1, by rw [her, List.eraseIdx_set_eq]⟩
  · intro ent₁ ws₁ ent₂ ws₂ h1 e1 h2 e2
    obtain ⟨us₁, rfl, q1, e1, r1⟩ := hinv ent₁ ws₁ h1 e1
    obtain ⟨us₂, rfl, q2, e2, r2⟩ := hinv ent₂ ws₂ h2 e2
    have j1 : j < us₁.length := by rw [q1.len, ← hp.len]; exact hj
    have j2 : j < us₂.length := by rw [q2.len, ← hp.len]; exact hj
    have h3 := q1.sum
    have h4 := q2.sum
    rw [← sum_eraseIdx j1, e1] at h3
    rw [← sum_eraseIdx j2, e2] at h4
    have h5 : us₁[j] ≡ us₂[j] [MOD n] := Nat.ModEq.add_left_cancel' (vs.eraseIdx j).sum (by rw [Nat.ModEq, h3, h4])
    rw [Nat.ModEq, Nat.mod_eq_of_lt (q1.lt _ (List.getElem_mem j1)),
      Nat.mod_eq_of_lt (q2.lt _ (List.getElem_mem j2))] at h5
    have h6 : us₁ = us₂ := eq_of_eraseIdx (by rw [q1.len, q2.len]) j2 (by rw [e1, e2]) h5
    subst h6
    refine ⟨rfl, fun i hi => ?_⟩
    rw [r1 i (by rw [q1.len]; omega) hi, r2 i (by rw [q1.len]; omega) hi]

/-- C106, for two or more withheld pieces: the others exclude no key at all. -/
theorem C106_two_missing (H : Hashes) (w w' k' : Bytes) (count a b : Nat)
    (ent : Nat → Nat → Nat → Bytes) (ws : List Bytes) (h : splitPrivateKey .py2 H w count ent = .ok ws)
    (hab : a < b) (hb : b < ws.length) (hk' : privkeyFromWif H w' = .ok k') :
    ∃ ent' ws', splitPrivateKey .py2 H w' count ent' = .ok ws' ∧ ws'.length = ws.length ∧
      ∀ i, i ≠ a → i ≠ b → ws'[i]? = ws[i]? := by
  obtain ⟨k, vs, _, rfl, hp, _⟩ := pieces_of_split h
  rw [List.length_map] at hb
  have hset : ∀ t, 1 ≤ t → t < n → Pieces count (vs.set a t).sum (vs.set a t) := by
    intro t h1 h2
    refine ⟨by rw [List.length_set, hp.len], ?_, rfl, ?_⟩
    · intro v hv
      rcases List.mem_or_eq_of_mem_set hv with hv | rfl
      · exact hp.lt v hv
      · exact h2
    · intro i hi hic
      rw [List.getElem_set]
      split_ifs
      · exact h1
      · exact hp.drawn i (by simpa using hi) hic
  have main : ∀ t, 1 ≤ t → t < n →
      (b = count - 1 ∨ bytesVal k' % n ≠ ((vs.set a t).eraseIdx b).sum % n) →
      ∃ ent' ws', splitPrivateKey .py2 H w' count ent' = .ok ws' ∧ ws'.length = (vs.map (wifOf H)).length ∧
        ∀ i, i ≠ a → i ≠ b → ws'[i]? = (vs.map (wifOf H))[i]? := by
    intro t h1 h2 hok
    obtain ⟨ent', h3⟩ := split_of_pieces hk' (pieces_set (s' := bytesVal k') (hset t h1 h2)
      (by simpa using hb) hok)
    refine ⟨ent', _, h3, by simp, ?_⟩
    intro i hia hib
    rw [List.getElem?_map, List.getElem?_map, List.getElem?_set_ne (Ne.symm hib), List.getElem?_set_ne (Ne.symm hia)]
  by_cases hok : b = count - 1 ∨ bytesVal k' % n ≠ ((vs.set a 1).eraseIdx b).sum % n
  · exact main 1 (by omega) (by decide) hok
  · refine main 2 (by omega) (by decide) (.inr ?_)
    rw [not_or, not_not] at hok
    rw [hok.2]
    intro heq
    have hs : ∀ t, ((vs.set a t).eraseIdx b).sum = ((vs.eraseIdx b).eraseIdx a).sum + t := by
      intro t
      have ha : a < (vs.eraseIdx b).length := by rw [List.length_eraseIdx_of_lt hb]; omega
      have e1 : (vs.set a t).eraseIdx b = (vs.eraseIdx b).set a t := by
        rw [List.eraseIdx_set_gt hab]
      have := sum_eraseIdx (vs := (vs.eraseIdx b).set a t) (j := a) (by simpa using ha)
      rw [List.eraseIdx_set_eq, List.getElem_set_self] at this
      rw [e1, this]
    rw [hs, hs] at heq
    have : 1 ≡ 2 [MOD n] := Nat.ModEq.add_left_cancel' _ heq
    exact absurd this (by decide)

/-- C106 fails: all the pieces but a random one exclude a key, the sum of the pieces seen. -/
theorem C106_excluded_false (H : Hashes) (w : Bytes) (count j : Nat)
    (ent : Nat → Nat → Nat → Bytes) (ws : List Bytes) (h : splitPrivateKey .py2 H w count ent = .ok ws)
    (hj : j < count - 1) :
    ∃ w' k', privkeyFromWif H w' = .ok k' ∧ bytesVal k' = ((ws.eraseIdx j).map (secretOf H)).sum % n ∧
      ¬ ∃ ent' ws', splitPrivateKey .py2 H w' count ent' = .ok ws' ∧ ws'.eraseIdx j = ws.eraseIdx j := by
  have hlen : ws.length = count - 1 + 1 := by
    obtain ⟨k, vs, _, rfl, hp, _⟩ := pieces_of_split h
    rw [List.length_map, hp.len]
  have hlt : ((ws.eraseIdx j).map (secretOf H)).sum % n < n := Nat.mod_lt _ n_pos
  have hv := bytesVal_beBytes_of_lt (lt_trans hlt n_lt)
  refine ⟨_, _, fromWif_wifOf H (((ws.eraseIdx j).map (secretOf H)).sum % n), hv, ?_⟩
  rw [(C106_one_missing_partial H w _ _ count j ent ws h (by omega) (fromWif_wifOf H _)).1, hv, Nat.mod_mod]
  rintro (h | h)
  · omega
  · exact h rfl

/-- The key 7 split in 1, 2 and 4: seeing 2 and 4, the key 6 is excluded; seeing 1 and 2, none is. -/
example : splitPrivateKey .py2 Hashes.toy (wifOf Hashes.toy 7) 3 (fun i _ len => beBytes len i) =
    .ok [wifOf Hashes.toy 1, wifOf Hashes.toy 2, wifOf Hashes.toy 4] := by decide +kernel

/-! ### C107 -/

/-- C107 in Python 2: each piece is a number below the group order; the random ones are positive, and the
computed one is 0 exactly when the others add up to the key.  Missing: that it is never 0
(`C107_zero_false`). -/
theorem C107_pieces_partial (H : Hashes) (w k : Bytes) (count i : Nat) (ent : Nat → Nat → Nat → Bytes)
    (ws : List Bytes) (h : splitPrivateKey .py2 H w count ent = .ok ws) (hk : privkeyFromWif H w = .ok k)
    (hi : i < ws.length) :
    (∃ p, privkeyFromWif H ws[i] = .ok p) ∧ secretOf H ws[i] < n ∧ (i < count - 1 → 1 ≤ secretOf H ws[i]) ∧
    (i = count - 1 → (secretOf H ws[i] = 0 ↔ ((ws.eraseIdx i).map (secretOf H)).sum % n = bytesVal k % n)) := by
  obtain ⟨k₁, vs, hk₁, rfl, hp, _⟩ := pieces_of_split h
  rw [hk] at hk₁
  cases hk₁
  have hi' : i < vs.length := by simpa using hi
  have hv : vs[i] < n := hp.lt _ (List.getElem_mem hi')
  have he : ∀ v ∈ vs.eraseIdx i, v < n := fun v hv => hp.lt v (List.mem_of_mem_eraseIdx hv)
  rw [List.getElem_map, secretOf_wifOf H hv, List.eraseIdx_map, secrets_map H he]
  refine ⟨⟨_, fromWif_wifOf H _⟩, hv, hp.drawn i hi', fun _ => ?_⟩
  have hs := hp.sum
  rw [← sum_eraseIdx hi'] at hs
  constructor
  · intro h0
    rw [h0, Nat.add_zero] at hs
    exact hs
  · intro h0
    have : vs[i] ≡ 0 [MOD n] := Nat.ModEq.add_left_cancel' (vs.eraseIdx i).sum (by
      rw [Nat.ModEq, hs, Nat.add_zero, h0])
    rwa [Nat.ModEq, Nat.mod_eq_of_lt hv, Nat.zero_mod] at this

/-- C107 fails for every key: it may be split into itself and 0, which is no private key. -/
theorem C107_zero_false (H : Hashes) (k : Nat) (h1 : 1 ≤ k) (h2 : k < n) :
    ∃ ent, splitPrivateKey .py2 H (wifOf H k) 2 ent = .ok [wifOf H k, wifOf H 0] ∧
      privkeyFromWif H (wifOf H 0) = .ok (beBytes 32 0) ∧
      SigningKey.fromString (beBytes 32 0) secp256k1 = .error .assertionError := by
  have hv : bytesVal (beBytes 32 k) = k := bytesVal_beBytes_of_lt (lt_trans h2 n_lt)
  obtain ⟨ent, h⟩ := split_of_pieces (count := 2) (vs := [k, 0]) (fromWif_wifOf H k) ⟨rfl, by
    intro v hv
    simp only [List.mem_cons, List.not_mem_nil, or_false] at hv
    rcases hv with rfl | rfl
    · exact h2
    · exact n_pos, by simp [hv], by
    intro i hi hic
    have : i = 0 := by omega
    subst this
    exact h1⟩
  exact ⟨ent, h, fromWif_wifOf H 0, by decide +kernel⟩

example : (1 : Nat) ≤ 7 ∧ 7 < n := by decide

end NBC.Props
