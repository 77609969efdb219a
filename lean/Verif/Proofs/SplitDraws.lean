import Verif.Proofs.PartialKeys
import Mathlib.Algebra.BigOperators.Group.List.Basic
import Mathlib.Data.Nat.ModEq

/-!
# The draws behind a split
-/

namespace NBC.Piecewise
open NBC Key Ecdsa Base58 EC Aes Spec NBC.Secp

/-- The computed piece, `secexp_missing`. -/
def lastPiece (s : Nat) (xs : List Nat) : Nat := (((s : Int) - (xs.sum : Nat)) % (n : Int)).toNat

theorem n_pos : 0 < n := by decide

theorem lastPiece_lt (s : Nat) (xs : List Nat) : lastPiece s xs < n := by
  unfold lastPiece
  have h1 := Int.emod_lt_of_pos ((s : Int) - (xs.sum : Nat)) (b := (n : Int)) (by exact_mod_cast n_pos)
  have h0 := Int.emod_nonneg ((s : Int) - (xs.sum : Nat)) (b := (n : Int)) (by have := n_pos; omega)
  omega

theorem lastPiece_cast (s : Nat) (xs : List Nat) :
    ((lastPiece s xs : Nat) : Int) = ((s : Int) - (xs.sum : Nat)) % (n : Int) := by
  unfold lastPiece
  exact Int.toNat_of_nonneg (Int.emod_nonneg _ (by have := n_pos; omega))

theorem lastPiece_sum (s : Nat) (xs : List Nat) : (xs.sum + lastPiece s xs) % n = s % n := by
  have h : (((xs.sum + lastPiece s xs : Nat) : Int)) % (n : Int) = (s : Int) % (n : Int) := by
    rw [Int.natCast_add, lastPiece_cast, Int.add_emod_emod]
    congr 1
    omega
  exact_mod_cast h

/-- The piece is the only number below the order with the right sum. -/
theorem lastPiece_unique {s m : Nat} {xs : List Nat} (hm : m < n) (h : (xs.sum + m) % n = s % n) :
    m = lastPiece s xs := by
  have h1 : xs.sum + m ≡ xs.sum + lastPiece s xs [MOD n] := by
    rw [Nat.ModEq, h, lastPiece_sum]
  have h2 := Nat.ModEq.add_left_cancel' _ h1
  rwa [Nat.ModEq, Nat.mod_eq_of_lt hm, Nat.mod_eq_of_lt (lastPiece_lt s xs)] at h2

theorem randrange_range {x : Nat} {ent : Nat → Nat → Bytes} (h : randrange n ent = .ok x) : 1 ≤ x ∧ x < n := by
  simp only [randrange, bind_ok_iff] at h
  obtain ⟨_, _, h⟩ := h
  exact randrangeLoop_range' h

/-- Every number in range is drawn from some source. -/
theorem randrange_surj {x : Nat} (h1 : 1 ≤ x) (h2 : x < n) :
    randrange n (fun _ len => beBytes len (x - 1)) = .ok x := by
  have ho : orderlen n = 32 := orderlen_n
  have hv : bytesVal (beBytes 32 (x - 1)) = x - 1 :=
    bytesVal_beBytes_of_lt (lt_trans (by omega : x - 1 < n) n_lt)
  unfold randrange
  rw [show pyAssert (decide (n > 1)) = .ok () from rfl, ok_bind, ho]
  have key : ∀ fuel, randrangeLoop n 32 (fun _ len => beBytes len (x - 1)) (fuel + 1) 0 = .ok x := by
    intro fuel
    have hs := stringToNumber_eq (beBytes 32 (x - 1)) (ne_nil_of_length (k := 31) (beBytes_length _ _))
    simp only [randrangeLoop, hs, ok_bind, hv]
    rw [if_pos (by omega), show x - 1 + 1 = x by omega]
    rfl
  exact key 9999

/-- What a split computes from its draws. -/
theorem split_eq {H : Hashes} {w k : Bytes} {count : Nat} {ent : Nat → Nat → Nat → Bytes} {xs : List Nat}
    (hk : privkeyFromWif H w = .ok k) (hlen : xs.length = count - 1)
    (hx : ∀ i (hi : i < xs.length), randrange n (ent i) = .ok xs[i]) :
    splitPrivateKey .py2 H w count ent = .ok ((xs ++ [lastPiece (bytesVal k) xs]).map (wifOf H)) := by
  have hk32 := (privkeyFromWif_sound H w k 0x80 hk).1
  have h3 : (List.range (count - 1)).mapM (fun i => randrange n (ent i)) = .ok xs := by
    have : (List.range (count - 1)).mapM (fun i => randrange n (ent i)) =
        .ok ((List.range (count - 1)).map (fun i => xs.getD i 0)) := by
      refine Proto.mapM_ok _ (fun i hi => ?_)
      rw [List.mem_range] at hi
      rw [hx i (by omega), List.getD_eq_getElem _ _ (by omega)]
    rw [this]
    congr 1
    refine List.ext_getElem (by simp [hlen]) ?_
    intro i h1 h2
    simp [h2]
  have ho : secp256k1.order = n := rfl
  have hlt : ∀ x ∈ xs ++ [lastPiece (bytesVal k) xs], x < n := by
    intro x hm
    rcases List.mem_append.1 hm with hm | hm
    · obtain ⟨i, hi, rfl⟩ := List.getElem_of_mem hm
      exact (randrange_range (hx i hi)).2
    · rw [List.mem_singleton] at hm; rw [hm]; exact lastPiece_lt _ _
  have e : (xs.map Int.ofNat ++ [((bytesVal k : Int) - (xs.sum : Nat)) % (n : Int)]) =
      (xs ++ [lastPiece (bytesVal k) xs]).map Int.ofNat := by
    rw [List.map_append, List.map_singleton, ← lastPiece_cast]; rfl
  have h5 : ((xs ++ [lastPiece (bytesVal k) xs]).map Int.ofNat).mapM (fun s => numberToString s n) =
      .ok (((xs ++ [lastPiece (bytesVal k) xs]).map Int.ofNat).map (fun s => beBytes 32 s.toNat)) := by
    refine Proto.mapM_ok _ ?_
    intro s hs
    obtain ⟨v, hv, rfl⟩ := List.mem_map.1 hs
    exact toString_n (hlt v hv)
  unfold splitPrivateKey
  rw [hk, ok_bind, toNumber_32 hk32, ok_bind, xrange, ok_bind, ho, h3, ok_bind]
  simp only [e, h5, ok_bind, List.map_map]
  rfl

theorem split_draws {H : Hashes} {w : Bytes} {count : Nat} {ent : Nat → Nat → Nat → Bytes} {ws : List Bytes}
    (h : splitPrivateKey .py2 H w count ent = .ok ws) :
    ∃ (k : Bytes) (xs : List Nat), privkeyFromWif H w = .ok k ∧ xs.length = count - 1 ∧
      (∀ i (hi : i < xs.length), randrange n (ent i) = .ok xs[i]) ∧
      ws = (xs ++ [lastPiece (bytesVal k) xs]).map (wifOf H) := by
  have h0 := h
  simp only [splitPrivateKey, xrange, ok_bind] at h
  obtain ⟨k, h1, h⟩ := bind_ok_iff.1 h
  obtain ⟨s, h2, h⟩ := bind_ok_iff.1 h
  obtain ⟨xs, h3, h⟩ := bind_ok_iff.1 h
  obtain ⟨hl, hi⟩ := mapM_inv h3
  rw [List.length_range] at hl
  have hx : ∀ i (hi : i < xs.length), randrange n (ent i) = .ok xs[i] := by
    intro i hi'
    have := hi i (by simp; omega) hi'
    rw [List.getElem_range] at this
    exact this
  refine ⟨k, xs, h1, hl, hx, ?_⟩
  rw [split_eq h1 hl hx] at h0
  exact (Except.ok.inj h0).symm

theorem wifOf_inj {H : Hashes} {u v : Nat} (hu : u < n) (hv : v < n) (h : wifOf H u = wifOf H v) : u = v := by
  have h1 := fromWif_wifOf H u
  rw [h, fromWif_wifOf] at h1
  have := congrArg bytesVal (Except.ok.inj h1)
  rw [bytesVal_beBytes_of_lt (lt_trans hu n_lt), bytesVal_beBytes_of_lt (lt_trans hv n_lt)] at this
  exact this.symm

theorem map_wifOf_inj {H : Hashes} : ∀ {us vs : List Nat}, (∀ u ∈ us, u < n) → (∀ v ∈ vs, v < n) →
    us.map (wifOf H) = vs.map (wifOf H) → us = vs
  | [], [], _, _, _ => rfl
  | [], v :: vs, _, _, h => by simp at h
  | u :: us, [], _, _, h => by simp at h
  | u :: us, v :: vs, hu, hv, h => by
    rw [List.map_cons, List.map_cons, List.cons.injEq] at h
    rw [wifOf_inj (hu u (by simp)) (hv v (by simp)) h.1,
      map_wifOf_inj (fun x hx => hu x (by simp [hx])) (fun x hx => hv x (by simp [hx])) h.2]

end NBC.Piecewise
