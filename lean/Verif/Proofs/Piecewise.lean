import Verif.Model.Piecewise
import Verif.Proofs.Key
import Verif.Proofs.IpText
import Verif.Proofs.Rand
import Verif.Proofs.SecpKeys
import Mathlib.Data.List.Perm.Subperm

/-!
# Lemmas about split and partial keys
-/

namespace NBC.Piecewise
open NBC Key Ecdsa Base58 EC Aes Spec NBC.Secp

theorem mapM_inv {α β : Type} {f : α → Py β} {l : List α} {r : List β} (h : l.mapM f = .ok r) :
    r.length = l.length ∧ ∀ i (hi : i < l.length) (hr : i < r.length), f l[i] = .ok r[i] := by
  induction l generalizing r with
  | nil =>
    rw [List.mapM_nil, pure_ok_iff] at h
    subst h
    exact ⟨rfl, fun i hi => absurd hi (by simp)⟩
  | cons a t ih =>
    rw [List.mapM_cons] at h
    obtain ⟨b, h1, h⟩ := bind_ok_iff.1 h
    obtain ⟨bs, h2, h⟩ := bind_ok_iff.1 h
    rw [pure_ok_iff] at h
    subst h
    obtain ⟨h3, h4⟩ := ih h2
    refine ⟨by simp [h3], ?_⟩
    intro i hi hr
    cases i with
    | zero => exact h1
    | succ i => exact h4 i (by simpa using hi) (by simpa using hr)

theorem mapM_mem {α β : Type} {f : α → Py β} {l : List α} {r : List β} (h : l.mapM f = .ok r) :
    (∀ x ∈ l, ∃ y ∈ r, f x = .ok y) ∧ ∀ y ∈ r, ∃ x ∈ l, f x = .ok y := by
  obtain ⟨h1, h2⟩ := mapM_inv h
  constructor
  · intro x hx
    obtain ⟨i, hi, rfl⟩ := List.getElem_of_mem hx
    exact ⟨r[i], List.getElem_mem _, h2 i hi (by omega)⟩
  · intro y hy
    obtain ⟨i, hi, rfl⟩ := List.getElem_of_mem hy
    exact ⟨l[i]'(by omega), List.getElem_mem _, h2 i (by omega) hi⟩

theorem ne_nil_of_length {s : Bytes} {k : Nat} (h : s.length = k + 1) : s ≠ [] := by
  rintro rfl; simp at h

theorem n_lt : n < 256 ^ 32 := by decide

theorem toString_n {v : Nat} (h : v < n) : numberToString v secp256k1.order = .ok (beBytes 32 v) := by
  have h1 := orderlen_n
  rw [numberToString_eq (n := v) (order := secp256k1.order) (by rw [h1]; exact lt_trans h n_lt), h1]

theorem toNumber_32 {s : Bytes} (h : s.length = 32) : stringToNumber s = .ok (bytesVal s) :=
  stringToNumber_eq s (ne_nil_of_length (k := 31) h)

/-! ### Combining -/

theorem combine_eq (H : Hashes) (ws ks : List Bytes) (h : ws.mapM (fun k => privkeyFromWif H k) = .ok ks) :
    combinePrivateKeys H ws = .ok (privkeyToWif H (beBytes 32 ((ks.map bytesVal).sum % n))) := by
  have h32 : ∀ k ∈ ks, k.length = 32 := by
    intro k hk
    obtain ⟨w, _, hw⟩ := (mapM_mem h).2 k hk
    exact (privkeyFromWif_sound H w k 0x80 hw).1
  have hs : ks.mapM stringToNumber = .ok (ks.map bytesVal) :=
    Proto.mapM_ok ks (fun k hk => toNumber_32 (h32 k hk))
  have hlt : (ks.map bytesVal).sum % n < n := Nat.mod_lt _ (by decide)
  have ht := toString_n hlt
  simp only [combinePrivateKeys, h, ok_bind, hs]
  rw [show secp256k1.order = n from rfl] at *
  rw [show (((ks.map bytesVal).sum : Nat) % n : Nat) = (ks.map bytesVal).sum % n from rfl, ht, ok_bind]

/-! ### Splitting -/

theorem split_inv {H : Hashes} {w : Bytes} {count : Nat} {ent : Nat → Nat → Nat → Bytes} {ws : List Bytes}
    (h : splitPrivateKey .py2 H w count ent = .ok ws) :
    ∃ (k : Bytes) (vs : List Nat), privkeyFromWif H w = .ok k ∧ ws = vs.map (fun v => privkeyToWif H (beBytes 32 v)) ∧
      vs.length = count - 1 + 1 ∧ (∀ v ∈ vs, v < n) ∧ vs.sum % n = bytesVal k % n := by
  simp only [splitPrivateKey, xrange, ok_bind] at h
  obtain ⟨k, h1, h⟩ := bind_ok_iff.1 h
  obtain ⟨s, h2, h⟩ := bind_ok_iff.1 h
  obtain ⟨xs, h3, h⟩ := bind_ok_iff.1 h
  obtain ⟨ks, h4, h⟩ := bind_ok_iff.1 h
  have hws := Except.ok.inj h
  have hk := (privkeyFromWif_sound H w k 0x80 h1).1
  rw [toNumber_32 hk] at h2
  replace h2 := Except.ok.inj h2
  subst h2
  have hx : ∀ x ∈ xs, x < n := by
    intro x hx
    obtain ⟨i, _, hi⟩ := (mapM_mem h3).2 x hx
    simp only [randrange, bind_ok_iff] at hi
    obtain ⟨_, _, hi⟩ := hi
    exact (randrangeLoop_range' hi).2
  have hlen : xs.length = count - 1 := by rw [(mapM_inv h3).1, List.length_range]
  have hnpos : (0 : Int) < (n : Nat) := by decide
  have ho : secp256k1.order = n := rfl
  rw [ho] at h4
  generalize hm : ((bytesVal k : Int) - (xs.sum : Nat)) % (n : Int) = mi at h4
  have hm0 : 0 ≤ mi := by rw [← hm]; exact Int.emod_nonneg _ (by omega)
  have hm1 : mi < (n : Nat) := by rw [← hm]; exact Int.emod_lt_of_pos _ hnpos
  obtain ⟨m, rfl⟩ := Int.eq_ofNat_of_zero_le hm0
  have hmn : m < n := by exact_mod_cast hm1
  refine ⟨k, xs ++ [m], h1, ?_, by simp [hlen], ?_, ?_⟩
  · have e : (xs.map Int.ofNat ++ [(m : Int)]) = (xs ++ [m]).map Int.ofNat := by simp
    rw [e] at h4
    have h5 : ((xs ++ [m]).map Int.ofNat).mapM (fun s => numberToString s n) =
        .ok (((xs ++ [m]).map Int.ofNat).map (fun s => beBytes 32 s.toNat)) := by
      refine Proto.mapM_ok _ ?_
      intro s hs
      obtain ⟨v, hv, rfl⟩ := List.mem_map.1 hs
      have : v < n := by
        rcases List.mem_append.1 hv with hv | hv
        · exact hx v hv
        · rw [List.mem_singleton] at hv; rw [hv]; exact hmn
      exact toString_n this
    rw [h5] at h4
    replace h4 := Except.ok.inj h4
    rw [← hws, ← h4]
    simp only [List.map_map]
    rfl
  · intro v hv
    rcases List.mem_append.1 hv with hv | hv
    · exact hx v hv
    · rw [List.mem_singleton] at hv; rw [hv]; exact hmn
  · rw [List.sum_append, List.sum_singleton]
    have h6 : (((xs.sum + m : Nat) : Int)) % (n : Int) = (bytesVal k : Int) % (n : Int) := by
      rw [Int.natCast_add, ← hm, Int.add_emod_emod]
      congr 1
      omega
    exact_mod_cast h6

/-! ### The first two characters -/

theorem digitsBE_prefix {b q : Nat} (hb : 2 ≤ b) (hq : 0 < q) :
    ∀ (k x : Nat), q * b ^ k ≤ x → x < (q + 1) * b ^ k → ∃ t, digitsBE b x = digitsBE b q ++ t := by
  intro k
  induction k with
  | zero =>
    intro x h1 h2
    have : x = q := by simp only [pow_zero, Nat.mul_one] at h1 h2; omega
    exact ⟨[], by rw [this, List.append_nil]⟩
  | succ k ih =>
    intro x h1 h2
    have hx : x ≠ 0 := by
      have : 0 < q * b ^ (k + 1) := Nat.mul_pos hq (Nat.pow_pos (by omega))
      omega
    rw [pow_succ, ← Nat.mul_assoc] at h1 h2
    obtain ⟨t, ht⟩ := ih (x / b) ((Nat.le_div_iff_mul_le (by omega)).2 h1)
      ((Nat.div_lt_iff_lt_mul (by omega)).2 h2)
    exact ⟨t ++ [x % b], by rw [digitsBE_step b x hb hx, ht, List.append_assoc]⟩

theorem partial_prefix (H : Hashes) (i r : UInt8) (cs pk : Bytes) (hc : cs.length = 4) (hp : pk.length = 32) :
    (encodeCheck H ([0x10, 0x01] ++ [i] ++ [r] ++ cs ++ pk)).take 2 = ascii "6C" := by
  unfold encodeCheck
  generalize hck : (H.sha256d ([0x10, 0x01] ++ [i] ++ [r] ++ cs ++ pk)).take 4 = ck
  have hckl : ck.length = 4 := by rw [← hck]; exact sha256d_take4 H _
  have e : [0x10, 0x01] ++ [i] ++ [r] ++ cs ++ pk ++ ck = 0x10 :: 0x01 :: ([i] ++ [r] ++ cs ++ pk ++ ck) := by
    simp
  rw [e]
  generalize ht : ([i] ++ [r] ++ cs ++ pk ++ ck) = t
  have htl : t.length = 42 := by rw [← ht]; simp [hc, hp, hckl]
  have hb := bytesVal_bounds 0x01 t 42 htl
  have hv := bytesVal_lt t
  rw [htl] at hv
  have hval : bytesVal (0x10 :: 0x01 :: t) = 0x1001 * 256 ^ 42 + bytesVal t := by
    rw [bytesVal_cons, bytesVal_cons, List.length_cons, htl]
    show 16 * 256 ^ 43 + (1 * 256 ^ 42 + bytesVal t) = _
    rw [show (256 : Nat) ^ 43 = 256 * 256 ^ 42 from rfl]
    omega
  have h58 := b58encode_eq 0 (0x10 :: 0x01 :: t) (by intro x hx; simp at hx; rw [← hx]; decide)
  simp only [List.replicate_zero, List.nil_append] at h58
  rw [h58]
  obtain ⟨u, hu⟩ := digitsBE_prefix (b := 58) (q := 301) (by omega) (by omega) 58 (bytesVal (0x10 :: 0x01 :: t))
    (by rw [hval]; exact le_trans (by decide) (Nat.le_add_right _ _))
    (by rw [hval]; exact lt_of_lt_of_le (Nat.add_lt_add_left hv _) (by decide))
  rw [hu, show digitsBE 58 301 = [5, 11] from by decide]
  rfl

/-! ### Partial keys -/

/-- The text of a partial key. -/
def enc (H : Hashes) (req : UInt8) (cs : Bytes) (it : UInt8 × Bytes) : Bytes :=
  encodeCheck H ([0x10, 0x01] ++ [it.1] ++ [req] ++ cs ++ it.2)

theorem enc_inj {H : Hashes} {req : UInt8} {cs : Bytes} {x y : UInt8 × Bytes}
    (h : enc H req cs x = enc H req cs y) : x = y := by
  have := encodeCheck_injective H h
  simp only [List.cons_append, List.nil_append, List.cons.injEq, true_and] at this
  obtain ⟨h1, h2⟩ := this
  exact Prod.ext h1 (List.append_cancel_left h2)

theorem combineStep_enc (H : Hashes) (ie : Bool) (req : UInt8) (cs : Bytes) (hcs : cs.length = 4)
    (it : UInt8 × Bytes) (st : PState) (h1 : st.required = none ∨ st.required = some req.toNat)
    (h2 : st.checksum = none ∨ st.checksum = some cs) :
    combineStep .py2 H ie st (enc H req cs it) =
      .ok ⟨partsAdd st.parts it.1 it.2, some req.toNat, some cs⟩ := by
  have e1 : st.required.getD req.toNat = req.toNat := by rcases h1 with h | h <;> rw [h] <;> rfl
  have e2 : st.checksum.getD cs = cs := by rcases h2 with h | h <;> rw [h] <;> rfl
  unfold combineStep enc
  rw [decodeCheck_encodeCheck, ok_bind]
  have hc : ([0x10, 0x01] ++ [it.1] ++ [req] ++ cs ++ it.2) = 0x10 :: 0x01 :: it.1 :: req :: (cs ++ it.2) := by
    simp
  rw [hc]
  have hd4 : ((0x10 :: 0x01 :: it.1 :: req :: (cs ++ it.2)).drop 4).take 4 = cs := by
    show (cs ++ it.2).take 4 = cs
    rw [List.take_append_of_le_length (by omega), List.take_of_length_le (by omega)]
  have hd8 : (0x10 :: 0x01 :: it.1 :: req :: (cs ++ it.2)).drop 8 = it.2 := by
    show (cs ++ it.2).drop 4 = it.2
    rw [List.drop_append_of_le_length (by omega), List.drop_of_length_le (by omega), List.nil_append]
  have hi2 : pyIndex (0x10 :: 0x01 :: it.1 :: req :: (cs ++ it.2)) 2 = .ok it.1 := rfl
  have hi3 : pyIndex (0x10 :: 0x01 :: it.1 :: req :: (cs ++ it.2)) 3 = .ok req := rfl
  have ht2 : (0x10 :: 0x01 :: it.1 :: req :: (cs ++ it.2)).take 2 = [0x10, 0x01] := rfl
  simp only [hi3, ok_bind, hd4, hd8, e1, e2, hi2, ht2, ne_eq, not_true_eq_false, if_false, reduceCtorEq]

theorem foldlM_enc (H : Hashes) (ie : Bool) (req : UInt8) (cs : Bytes) (hcs : cs.length = 4)
    (items : List (UInt8 × Bytes)) (st : PState) (h1 : st.required = none ∨ st.required = some req.toNat)
    (h2 : st.checksum = none ∨ st.checksum = some cs) (hne : items ≠ []) :
    (items.map (enc H req cs)).foldlM (combineStep .py2 H ie) st =
      .ok ⟨items.foldl (fun p it => partsAdd p it.1 it.2) st.parts, some req.toNat, some cs⟩ := by
  induction items generalizing st with
  | nil => exact absurd rfl hne
  | cons it items ih =>
    rw [List.map_cons, List.foldlM_cons, combineStep_enc H ie req cs hcs it st h1 h2, ok_bind]
    by_cases hi : items = []
    · subst hi; rfl
    · rw [ih _ (.inr rfl) (.inr rfl) hi]
      rfl

theorem setAdd_nodup {s : List Bytes} (h : s.Nodup) (x : Bytes) : (setAdd s x).Nodup := by
  unfold setAdd
  split_ifs with hx
  · exact h
  · rw [List.nodup_append]
    exact ⟨h, by simp, by intro a ha b hb; rw [List.mem_singleton] at hb; rintro rfl; exact hx (hb ▸ ha)⟩

theorem mem_setAdd {s : List Bytes} {x y : Bytes} : y ∈ setAdd s x ↔ y ∈ s ∨ y = x := by
  unfold setAdd
  split_ifs with hx
  · constructor
    · exact .inl
    · rintro (h | rfl)
      · exact h
      · exact hx
  · simp

theorem mem_toSet (l : List Bytes) (y : Bytes) : y ∈ toSet l ↔ y ∈ l := by
  have key : ∀ (l s : List Bytes), y ∈ l.foldl setAdd s ↔ y ∈ s ∨ y ∈ l := by
    intro l
    induction l with
    | nil => intro s; simp
    | cons a t ih =>
      intro s
      rw [List.foldl_cons, ih, mem_setAdd, List.mem_cons]
      tauto
  rw [toSet, key]
  simp

/-- `parts` after the items: one entry for each index, with exactly the payloads of that index. -/
structure Inv (parts : List (UInt8 × List Bytes)) (items : List (UInt8 × Bytes)) : Prop where
  keys : (parts.map (·.1)).Nodup
  nodup : ∀ p ∈ parts, p.2.Nodup
  mem : ∀ p ∈ parts, ∀ x, x ∈ p.2 ↔ (p.1, x) ∈ items
  cover : ∀ it ∈ items, it.1 ∈ parts.map (·.1)

theorem partsAdd_spec (parts : List (UInt8 × List Bytes)) (i : UInt8) (x : Bytes)
    (hk : (parts.map (·.1)).Nodup) (hn : ∀ p ∈ parts, p.2.Nodup) :
    ((partsAdd parts i x).map (·.1)).Nodup ∧ (∀ p ∈ partsAdd parts i x, p.2.Nodup) ∧
    (∀ j, j ∈ (partsAdd parts i x).map (·.1) ↔ j ∈ parts.map (·.1) ∨ j = i) ∧
    (∀ p ∈ partsAdd parts i x, (p.1 ≠ i ∧ p ∈ parts) ∨
      (p.1 = i ∧ ((∃ s, (i, s) ∈ parts ∧ ∀ y, y ∈ p.2 ↔ y ∈ s ∨ y = x) ∨
        (i ∉ parts.map (·.1) ∧ p.2 = [x])))) := by
  induction parts with
  | nil =>
    simp only [partsAdd, setAdd, List.not_mem_nil, if_false, List.nil_append]
    refine ⟨by simp, by simp, by simp, ?_⟩
    intro p hp
    rw [List.mem_singleton] at hp
    subst hp
    exact .inr ⟨rfl, .inr ⟨by simp, rfl⟩⟩
  | cons q parts ih =>
    obtain ⟨j, s⟩ := q
    simp only [partsAdd]
    rw [List.map_cons, List.nodup_cons] at hk
    split_ifs with hj
    · subst hj
      refine ⟨by rw [List.map_cons, List.nodup_cons]; exact hk, ?_, ?_, ?_⟩
      · intro p hp
        rcases List.mem_cons.1 hp with rfl | hp
        · exact setAdd_nodup (hn (j, s) (by simp)) x
        · exact hn p (by simp [hp])
      · intro k; simp
        intro h; exact .inl h
      · intro p hp
        rcases List.mem_cons.1 hp with rfl | hp
        · exact .inr ⟨rfl, .inl ⟨s, by simp, fun y => mem_setAdd⟩⟩
        · refine .inl ⟨?_, by simp [hp]⟩
          intro h
          exact hk.1 (h ▸ List.mem_map_of_mem (f := (·.1)) hp)
    · obtain ⟨i1, i2, i3, i4⟩ := ih hk.2 (fun p hp => hn p (by simp [hp]))
      refine ⟨?_, ?_, ?_, ?_⟩
      · rw [List.map_cons, List.nodup_cons]
        refine ⟨?_, i1⟩
        rw [i3]
        rintro (h | h)
        · exact hk.1 h
        · exact hj h
      · intro p hp
        rcases List.mem_cons.1 hp with rfl | hp
        · exact hn _ (by simp)
        · exact i2 p hp
      · intro k
        rw [List.map_cons, List.mem_cons, i3, List.map_cons, List.mem_cons]
        tauto
      · intro p hp
        rcases List.mem_cons.1 hp with rfl | hp
        · exact .inl ⟨hj, by simp⟩
        · rcases i4 p hp with ⟨h1, h2⟩ | ⟨h1, ⟨s', h2, h3⟩ | ⟨h2, h3⟩⟩
          · exact .inl ⟨h1, by simp [h2]⟩
          · exact .inr ⟨h1, .inl ⟨s', by simp [h2], h3⟩⟩
          · refine .inr ⟨h1, .inr ⟨?_, h3⟩⟩
            rw [List.map_cons, List.mem_cons]
            rintro (h | h)
            · exact hj h.symm
            · exact h2 h

theorem partsAdd_inv {parts : List (UInt8 × List Bytes)} {items : List (UInt8 × Bytes)} (h : Inv parts items)
    (i : UInt8) (x : Bytes) : Inv (partsAdd parts i x) (items ++ [(i, x)]) := by
  obtain ⟨s1, s2, s3, s4⟩ := partsAdd_spec parts i x h.keys h.nodup
  refine ⟨s1, s2, ?_, ?_⟩
  · intro p hp y
    rw [List.mem_append, List.mem_singleton, Prod.mk.injEq]
    rcases s4 p hp with ⟨h1, h2⟩ | ⟨h1, ⟨s, h2, h3⟩ | ⟨h2, h3⟩⟩
    · rw [h.mem p h2]
      simp [h1]
    · rw [h3, h.mem (i, s) h2, h1]
      simp
    · rw [h3, h1, List.mem_singleton]
      constructor
      · intro h; exact .inr ⟨rfl, h⟩
      · rintro (hm | hm)
        · exact absurd (h.cover _ hm) h2
        · exact hm.2
  · intro it hit
    rw [s3]
    rcases List.mem_append.1 hit with hit | hit
    · exact .inl (h.cover it hit)
    · rw [List.mem_singleton] at hit; rw [hit]; exact .inr rfl

theorem foldl_inv (items done : List (UInt8 × Bytes)) {parts : List (UInt8 × List Bytes)} (h : Inv parts done) :
    Inv (items.foldl (fun p it => partsAdd p it.1 it.2) parts) (done ++ items) := by
  induction items generalizing done parts with
  | nil => rw [List.append_nil]; exact h
  | cons it items ih =>
    have := ih (done ++ [it]) (partsAdd_inv h it.1 it.2)
    rw [List.append_assoc] at this
    exact this

theorem inv_nil : Inv [] [] := ⟨by simp, by simp, by simp, by simp⟩

/-! ### Finding a complete key-set -/

theorem combineFind_none {H : Hashes} {r : Option Nat} {cs : Option Bytes} {groups : List (List Bytes)}
    (h : ∀ g ∈ groups, some g.length ≠ r) : combineFind H r cs groups = .ok none := by
  induction groups with
  | nil => rfl
  | cons g groups ih =>
    rw [combineFind, if_neg (h g (by simp)), ih (fun g hg => h g (by simp [hg]))]

theorem combineFind_some {H : Hashes} {r : Nat} {k : Bytes} {groups : List (List Bytes)}
    (hs : bytesVal k < n) (hk : k.length = 32)
    (h32 : ∀ g ∈ groups, ∀ x ∈ g, x.length = 32)
    (hall : ∀ g ∈ groups, g.length = r → (g.map bytesVal).sum % n = bytesVal k)
    (hex : ∃ g ∈ groups, g.length = r) :
    combineFind H (some r) (some ((H.sha256d k).take 4)) groups = .ok (some (privkeyToWif H k)) := by
  induction groups with
  | nil => obtain ⟨g, hg, _⟩ := hex; simp at hg
  | cons g groups ih =>
    rw [combineFind]
    by_cases hr : g.length = r
    · rw [if_pos (by rw [hr])]
      have hm : g.mapM stringToNumber = .ok (g.map bytesVal) :=
        Proto.mapM_ok g (fun x hx => toNumber_32 (h32 g (by simp) x hx))
      have hsum := hall g (by simp) hr
      have ht : numberToString (((g.map bytesVal).sum % n : Nat) : Int) secp256k1.order = .ok k := by
        rw [hsum, toString_n hs, beBytes_bytesVal' hk]
      rw [hm, ok_bind]
      rw [show secp256k1.order = n from rfl] at *
      simp only [ht, ok_bind, ne_eq, not_true_eq_false, if_false]
    · rw [if_neg (by simpa using hr)]
      refine ih (fun g hg => h32 g (by simp [hg])) (fun g hg => hall g (by simp [hg])) ?_
      obtain ⟨g', h1, h2⟩ := hex
      rcases List.mem_cons.1 h1 with rfl | h1
      · exact absurd h2 hr
      · exact ⟨g', h1, h2⟩

/-- Items taken from key-sets `V i`, each of `m` different numbers with the sum of the key: combining them
gives the key if some key-set is there in full, and nothing otherwise. -/
theorem partialCombine_items (H : Hashes) (order : List (List Bytes) → List (List Bytes))
    (hord : ∀ l, (order l).Perm l) (ie : Bool) (req : UInt8) (k : Bytes) (hk : k.length = 32)
    (hs : bytesVal k < n) (V : UInt8 → List Nat) (hm : 0 < req.toNat)
    (items : List (UInt8 × Bytes)) (I : UInt8 → Prop)
    (hV : ∀ i, I i → (V i).length = req.toNat ∧ (V i).Nodup ∧ (∀ v ∈ V i, v < n) ∧
      (V i).sum % n = bytesVal k)
    (hitems : ∀ it ∈ items, I it.1 ∧ ∃ v ∈ V it.1, it.2 = beBytes 32 v) :
    ((∃ i, I i ∧ ∀ v ∈ V i, (i, beBytes 32 v) ∈ items) →
      partialCombine .py2 H order (items.map (enc H req ((H.sha256d k).take 4))) ie =
        .ok (some (privkeyToWif H k))) ∧
    ((¬ ∃ i, I i ∧ ∀ v ∈ V i, (i, beBytes 32 v) ∈ items) →
      partialCombine .py2 H order (items.map (enc H req ((H.sha256d k).take 4))) ie = .ok none) := by
  by_cases hne : items = []
  · subst hne
    constructor
    · rintro ⟨i, hi, h⟩
      obtain ⟨h1, _⟩ := hV i hi
      have : (V i) ≠ [] := by intro h0; rw [h0] at h1; simp at h1; omega
      obtain ⟨v, hv⟩ := List.exists_mem_of_ne_nil _ this
      exact absurd (h v hv) (by simp)
    · intro _
      have h0 : order [] = [] := List.Perm.eq_nil (hord [])
      rw [List.map_nil, partialCombine, List.foldlM_nil]
      simp only [pure_bind, List.map_nil, h0, combineFind]
  have hfold := foldlM_enc H ie req _ (sha256d_take4 H k) items ⟨[], none, none⟩ (.inl rfl) (.inl rfl) hne
  have hinv : Inv (items.foldl (fun p it => partsAdd p it.1 it.2) []) items := foldl_inv items [] inv_nil
  generalize hparts : items.foldl (fun p it => partsAdd p it.1 it.2) [] = parts at hfold hinv
  have hpc : partialCombine .py2 H order (items.map (enc H req ((H.sha256d k).take 4))) ie =
      combineFind H (some req.toNat) (some ((H.sha256d k).take 4)) (order (parts.map (·.2))) := by
    rw [partialCombine, hfold, ok_bind]
  have hI : ∀ p ∈ parts, I p.1 ∧ ∀ x ∈ p.2, ∃ v ∈ V p.1, x = beBytes 32 v := by
    intro p hp
    have hx : ∀ x ∈ p.2, I p.1 ∧ ∃ v ∈ V p.1, x = beBytes 32 v := by
      intro x hx
      exact hitems _ ((hinv.mem p hp x).1 hx)
    refine ⟨?_, fun x h => (hx x h).2⟩
    have : ∃ x, x ∈ p.2 := by
      have hkey : ∀ (items : List (UInt8 × Bytes)) (parts : List (UInt8 × List Bytes)),
          (∀ p ∈ parts, p.2 ≠ []) → ∀ p ∈ items.foldl (fun p it => partsAdd p it.1 it.2) parts, p.2 ≠ [] := by
        intro items
        induction items with
        | nil => intro parts h; exact h
        | cons it items ih =>
          intro parts h
          refine ih _ ?_
          have hpa : ∀ (parts : List (UInt8 × List Bytes)), (∀ p ∈ parts, p.2 ≠ []) →
              ∀ p ∈ partsAdd parts it.1 it.2, p.2 ≠ [] := by
            intro parts
            induction parts with
            | nil => intro _ p hp; simp only [partsAdd, List.mem_singleton] at hp; subst hp; simp [setAdd]
            | cons q parts ih2 =>
              intro h p hp
              obtain ⟨j, s⟩ := q
              simp only [partsAdd] at hp
              split_ifs at hp
              · rcases List.mem_cons.1 hp with rfl | hp
                · intro h0
                  have : it.2 ∈ setAdd s it.2 := mem_setAdd.2 (.inr rfl)
                  simp only at h0
                  rw [h0] at this
                  simp at this
                · exact h p (by simp [hp])
              · rcases List.mem_cons.1 hp with rfl | hp
                · exact h _ (by simp)
                · exact ih2 (fun p hp => h p (by simp [hp])) p hp
          exact hpa parts h
      exact List.exists_mem_of_ne_nil _ (hkey items [] (by simp) p (hparts ▸ hp))
    obtain ⟨x, hx'⟩ := this
    exact (hx x hx').1
  have binj : ∀ i, I i → ∀ u ∈ V i, ∀ v ∈ V i, beBytes 32 u = beBytes 32 v → u = v := by
    intro i hi u hu v hv h
    have hu' := lt_trans ((hV i hi).2.2.1 u hu) n_lt
    have hv' := lt_trans ((hV i hi).2.2.1 v hv) n_lt
    have := congrArg bytesVal h
    rwa [bytesVal_beBytes_of_lt hu', bytesVal_beBytes_of_lt hv'] at this
  have hnodup : ∀ i, I i → ((V i).map (beBytes 32)).Nodup := by
    intro i hi
    exact List.Nodup.map_on (fun u hu v hv h => binj i hi u hu v hv h) (hV i hi).2.1
  have hsub : ∀ p ∈ parts, p.2.Subperm ((V p.1).map (beBytes 32)) := by
    intro p hp
    refine List.subperm_of_subset (hinv.nodup p hp) ?_
    intro x hx
    obtain ⟨v, hv, rfl⟩ := (hI p hp).2 x hx
    exact List.mem_map_of_mem hv
  have hval : ∀ i, I i → (((V i).map (beBytes 32)).map bytesVal) = V i := by
    intro i hi
    rw [List.map_map]
    refine (List.map_congr_left (g := id) ?_).trans (List.map_id _)
    intro v hv
    rw [Function.comp_apply, id]
    exact bytesVal_beBytes_of_lt (lt_trans ((hV i hi).2.2.1 v hv) n_lt)
  have hcomplete : ∀ p ∈ parts, p.2.length = req.toNat → p.2.Perm ((V p.1).map (beBytes 32)) := by
    intro p hp hl
    refine (hsub p hp).perm_of_length_le ?_
    rw [List.length_map, (hV p.1 (hI p hp).1).1, hl]
  constructor
  · rintro ⟨i, hi, hall⟩
    rw [hpc]
    refine combineFind_some hs hk ?_ ?_ ?_
    · intro g hg x hx
      obtain ⟨p, hp, rfl⟩ := List.mem_map.1 ((hord _).mem_iff.1 hg)
      obtain ⟨v, _, rfl⟩ := (hI p hp).2 x hx
      exact beBytes_length _ _
    · intro g hg hl
      obtain ⟨p, hp, rfl⟩ := List.mem_map.1 ((hord _).mem_iff.1 hg)
      have := ((hcomplete p hp hl).map bytesVal).sum_eq
      rw [this, hval p.1 (hI p hp).1]
      exact (hV p.1 (hI p hp).1).2.2.2
    · have hlen := (hV i hi).1
      have : (V i) ≠ [] := by intro h0; rw [h0] at hlen; simp at hlen; omega
      obtain ⟨v, hv⟩ := List.exists_mem_of_ne_nil _ this
      obtain ⟨p, hp, hpi⟩ := List.mem_map.1 (hinv.cover _ (hall v hv))
      simp only at hpi
      subst hpi
      refine ⟨p.2, (hord _).mem_iff.2 (List.mem_map_of_mem hp), ?_⟩
      have h1 := (hsub p hp).length_le
      rw [List.length_map, hlen] at h1
      have h2 : ((V p.1).map (beBytes 32)).Subperm p.2 := by
        refine List.subperm_of_subset (hnodup p.1 hi) ?_
        intro x hx
        obtain ⟨v, hv, rfl⟩ := List.mem_map.1 hx
        exact (hinv.mem p hp _).2 (hall v hv)
      have h3 := h2.length_le
      rw [List.length_map, hlen] at h3
      omega
  · intro hno
    rw [hpc]
    refine combineFind_none ?_
    intro g hg hl
    injection hl with hl
    obtain ⟨p, hp, rfl⟩ := List.mem_map.1 ((hord _).mem_iff.1 hg)
    refine hno ⟨p.1, (hI p hp).1, ?_⟩
    intro v hv
    rw [← hinv.mem p hp]
    exact (hcomplete p hp hl).mem_iff.2 (List.mem_map_of_mem hv)

end NBC.Piecewise
