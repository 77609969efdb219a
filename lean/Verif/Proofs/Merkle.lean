import Verif.Model.Util
import Verif.Spec.Merkle
import Verif.Proofs.PyBind

/-!
# Lemmas about Merkle roots
-/

namespace NBC.Util
open NBC NBC.Spec.Merkle

theorem merkleStep_even (H : Hashes) (l : List Bytes) (h : l.length % 2 = 0) :
    ((stride2 l).zip (stride2 l.tail)).map (fun (a, b) => H.sha256d (a ++ b)) = next H l := by
  induction l using stride2.induct with
  | case1 => rfl
  | case2 a => simp at h
  | case3 a b t ih =>
    have ht : t.length % 2 = 0 := by simp only [List.length_cons] at h; omega
    have := ih ht
    cases t with
    | nil => rfl
    | cons c u =>
      cases u with
      | nil => simp at ht
      | cons d v =>
        simp only [next, stride2, List.tail_cons, List.zip_cons_cons, List.map_cons, concatPairs] at this ⊢
        rw [this]

theorem concatPairs_odd (l : List Bytes) (h : l.length % 2 = 1) :
    concatPairs (l ++ l.getLast?.toList) = concatPairs l := by
  induction l using stride2.induct with
  | case1 => simp at h
  | case2 a => rfl
  | case3 a b t ih =>
    have ht : t.length % 2 = 1 := by simp only [List.length_cons] at h; omega
    have hg : (a :: b :: t).getLast? = t.getLast? := by
      cases t with
      | nil => simp at ht
      | cons c u => simp
    rw [hg]
    simp only [List.cons_append, concatPairs, ih ht]

theorem merkleStep_eq (H : Hashes) (l : List Bytes) : merkleStep H l = next H l := by
  unfold merkleStep
  by_cases h : l.length % 2 = 1
  · simp only [if_pos h]
    rw [merkleStep_even]
    · simp only [next, concatPairs_odd l h]
    · cases hl : l.getLast? with
      | none => rw [List.getLast?_eq_none_iff] at hl; subst hl; simp at h
      | some x => simp only [Option.toList, List.length_append, List.length_singleton]; omega
  · simp only [if_neg h]
    exact merkleStep_even H l (by omega)

theorem concatPairs_length (l : List Bytes) : (concatPairs l).length = (l.length + 1) / 2 := by
  induction l using stride2.induct with
  | case1 => rfl
  | case2 a => simp [concatPairs]
  | case3 a b t ih => simp only [concatPairs, List.length_cons, ih]; omega

theorem next_length (H : Hashes) (l : List Bytes) : (next H l).length = (l.length + 1) / 2 := by
  rw [next, List.length_map, concatPairs_length]

theorem merkleLoop_spec (H : Hashes) (fuel : Nat) (l : List Bytes) (hf : l.length ≤ fuel) (hl : l ≠ []) :
    ∃ r, merkleLoop H fuel l = [r] ∧ IsRoot H l r := by
  induction fuel generalizing l with
  | zero => simp only [Nat.le_zero, List.length_eq_zero_iff] at hf; exact absurd hf hl
  | succ n ih =>
    simp only [merkleLoop]
    have hpos := List.length_pos_iff.2 hl
    by_cases h1 : 1 < l.length
    · rw [if_pos h1, merkleStep_eq]
      have hn := next_length H l
      obtain ⟨r, h2, k, h3, h4⟩ := ih (next H l) (by omega) (by
        intro h0; rw [h0] at hn; simp only [List.length_nil] at hn; omega)
      refine ⟨r, h2, k + 1, h3, ?_⟩
      intro j hj
      cases j with
      | zero => exact h1
      | succ j => exact h4 j (by omega)
    · rw [if_neg h1]
      obtain ⟨r, rfl⟩ : ∃ r, l = [r] := List.length_eq_one_iff.1 (by omega)
      exact ⟨r, rfl, 0, rfl, by intro j hj; omega⟩

/-- All the nodes are 32 bytes. -/
def All32 (l : List Bytes) : Prop := ∀ x ∈ l, x.length = 32

theorem next_all32 (H : Hashes) (l : List Bytes) : All32 (next H l) := by
  intro x hx
  simp only [next, List.mem_map] at hx
  obtain ⟨y, _, rfl⟩ := hx
  exact H.sha256_length _

theorem iter_all32 (H : Hashes) {l : List Bytes} (h : All32 l) (k : Nat) : All32 ((next H)^[k] l) := by
  cases k with
  | zero => exact h
  | succ k => rw [Function.iterate_succ_apply']; exact next_all32 H _

theorem mem_hashed {H : Hashes} {l : List Bytes} {k : Nat} (hk : 1 < ((next H)^[k] l).length)
    {x : Bytes} (hx : x ∈ concatPairs ((next H)^[k] l)) : x ∈ hashed H l := by
  have key : ∀ (k : Nat) (l : List Bytes), 1 < ((next H)^[k] l).length → k + 1 < l.length := by
    intro k
    induction k with
    | zero => intro l h; simp only [Function.iterate_zero, id] at h; omega
    | succ k ih =>
      intro l h
      rw [Function.iterate_succ_apply] at h
      have := ih _ h
      rw [next_length] at this
      omega
  rw [hashed, List.mem_flatMap]
  refine ⟨k, List.mem_range.2 (by have := key k l hk; omega), ?_⟩
  rw [if_pos hk]
  exact hx

theorem concatPairs_inj : ∀ (x y : List Bytes), All32 x → All32 y → concatPairs x = concatPairs y →
    x = y ∨ LastTwoEqual x ∨ LastTwoEqual y := by
  intro x
  induction x using stride2.induct with
  | case1 =>
    intro y _ _ h
    have := congrArg List.length h
    rw [concatPairs_length, concatPairs_length, List.length_nil] at this
    exact .inl (List.length_eq_zero_iff.1 (by omega)).symm
  | case2 a =>
    intro y hx hy h
    match y, h with
    | [b], h =>
      simp only [concatPairs, List.cons.injEq, and_true] at h
      exact .inl (by rw [(List.append_inj h (by rw [hx a (by simp), hy b (by simp)])).1])
    | [b, c], h =>
      simp only [concatPairs, List.cons.injEq, and_true] at h
      obtain ⟨rfl, rfl⟩ := List.append_inj h (by rw [hx a (by simp), hy b (by simp)])
      exact .inr (.inr ⟨by simp, [], a, rfl⟩)
    | b :: c :: d :: t, h =>
      exfalso
      have := congrArg List.length h
      simp only [concatPairs_length, List.length_cons, List.length_nil] at this
      omega
  | case3 a b t ih =>
    intro y hx hy h
    match y, h with
    | [c], h =>
      have hl := congrArg List.length h
      simp only [concatPairs_length, List.length_cons, List.length_nil] at hl
      have ht : t = [] := List.length_eq_zero_iff.1 (by omega)
      subst ht
      simp only [concatPairs, List.cons.injEq, and_true] at h
      obtain ⟨rfl, rfl⟩ := List.append_inj h (by rw [hx a (by simp), hy c (by simp)])
      exact .inr (.inl ⟨by simp, [], b, rfl⟩)
    | c :: d :: u, h =>
      simp only [concatPairs, List.cons.injEq] at h
      obtain ⟨rfl, rfl⟩ := List.append_inj h.1 (by rw [hx a (by simp), hy c (by simp)])
      rcases ih u (fun z hz => hx z (by simp [hz])) (fun z hz => hy z (by simp [hz])) h.2 with h | h | h
      · exact .inl (by rw [h])
      · obtain ⟨h1, i, z, rfl⟩ := h
        refine .inr (.inl ⟨?_, a :: b :: i, z, rfl⟩)
        simp only [List.length_cons]; omega
      · obtain ⟨h1, i, z, rfl⟩ := h
        refine .inr (.inr ⟨?_, a :: b :: i, z, rfl⟩)
        simp only [List.length_cons]; omega

theorem map_inj_on {H : Hashes} {x y S : List Bytes} (hS : CollisionFree H S) (hx : ∀ z ∈ x, z ∈ S)
    (hy : ∀ z ∈ y, z ∈ S) (h : x.map H.sha256d = y.map H.sha256d) : x = y := by
  induction x generalizing y with
  | nil => simp only [List.map_nil] at h; exact (List.map_eq_nil_iff.1 h.symm).symm
  | cons a t ih =>
    cases y with
    | nil => simp at h
    | cons b u =>
      simp only [List.map_cons, List.cons.injEq] at h
      rw [hS a (hx a (by simp)) b (hy b (by simp)) h.1,
        ih (fun z hz => hx z (by simp [hz])) (fun z hz => hy z (by simp [hz])) h.2]

/-- Trees of the same height with the same root have the same nodes at each level, or one of them ends a
level with two equal nodes. -/
theorem same_height {H : Hashes} {l m : List Bytes} {r : Bytes} {k : Nat} (hl : All32 l) (hm : All32 m)
    (h1 : (next H)^[k] l = [r]) (h1' : ∀ j < k, 1 < ((next H)^[j] l).length)
    (h2 : (next H)^[k] m = [r]) (h2' : ∀ j < k, 1 < ((next H)^[j] m).length)
    (hS : CollisionFree H (hashed H l ++ hashed H m)) :
    l = m ∨ (l.length ≠ m.length ∧ (Doubled H l ∨ Doubled H m)) := by
  have key : ∀ j ≤ k, (next H)^[k - j] l = (next H)^[k - j] m ∨ 
      (l.length ≠ m.length ∧ (Doubled H l ∨ Doubled H m)) := by
    intro j
    induction j with
    | zero => intro _; exact .inl (by rw [Nat.sub_zero, h1, h2])
    | succ j ih =>
      intro hj
      rcases ih (by omega) with h | h
      · have e : k - j = (k - (j + 1)) + 1 := by omega
        rw [e, Function.iterate_succ_apply', Function.iterate_succ_apply'] at h
        set i := k - (j + 1)
        have hc := map_inj_on hS
          (fun z hz => List.mem_append_left _ (mem_hashed (h1' i (by omega)) hz))
          (fun z hz => List.mem_append_right _ (mem_hashed (h2' i (by omega)) hz)) h
        rcases concatPairs_inj _ _ (iter_all32 H hl i) (iter_all32 H hm i) hc with h | h
        · exact .inl h
        · by_cases he : (next H)^[i] l = (next H)^[i] m
          · exact .inl he
          · refine .inr ⟨?_, ?_⟩
            · intro hlen
              have hlen' : ∀ i, ((next H)^[i] l).length = ((next H)^[i] m).length := by
                intro i
                induction i with
                | zero => exact hlen
                | succ i ih => rw [Function.iterate_succ_apply', Function.iterate_succ_apply', next_length,
                    next_length, ih]
              have hpre : ∀ (x y : List Bytes), All32 x → All32 y → x.length = y.length →
                  concatPairs x = concatPairs y → x = y := by
                intro x
                induction x using stride2.induct with
                | case1 => intro y _ _ h _; exact (List.length_eq_zero_iff.1 h.symm).symm
                | case2 a =>
                  intro y hx hy hl h
                  obtain ⟨b, rfl⟩ := List.length_eq_one_iff.1 hl.symm
                  simp only [concatPairs, List.cons.injEq, and_true] at h
                  rw [(List.append_inj h (by rw [hx a (by simp), hy b (by simp)])).1]
                | case3 a b t ih =>
                  intro y hx hy hl h
                  match y, hl, h with
                  | [c], hl, _ => simp at hl
                  | c :: d :: u, hl, h =>
                    simp only [concatPairs, List.cons.injEq] at h
                    obtain ⟨rfl, rfl⟩ := List.append_inj h.1 (by rw [hx a (by simp), hy c (by simp)])
                    rw [ih u (fun z hz => hx z (by simp [hz])) (fun z hz => hy z (by simp [hz]))
                      (by simpa using hl) h.2]
              exact he (hpre _ _ (iter_all32 H hl i) (iter_all32 H hm i) (hlen' i) hc)
            · rcases h with h | h
              · exact .inl ⟨i, h⟩
              · exact .inr ⟨i, h⟩
      · exact .inr h
  have := key k (le_refl _)
  rwa [Nat.sub_self] at this

/-- With the same root, the first leaf of the lower tree is a node of the higher one. -/
theorem first_node {H : Hashes} {l m : List Bytes} {r : Bytes} {k d : Nat} (hl : All32 l) (hm : All32 m)
    (h1 : (next H)^[k] l = [r]) (h1' : ∀ j < k, 1 < ((next H)^[j] l).length)
    (h2 : (next H)^[k + d] m = [r]) (h2' : ∀ j < k + d, 1 < ((next H)^[j] m).length)
    (hS : CollisionFree H (hashed H l ++ hashed H m)) : l.head? = ((next H)^[d] m).head? := by
  have hcp : ∀ x : List Bytes, 1 < x.length → ∃ a b, x.head? = some a ∧ (concatPairs x).head? = some (a ++ b)
      ∧ a ∈ x := by
    intro x hx
    match x, hx with
    | a :: b :: t, _ => exact ⟨a, b, rfl, rfl, by simp⟩
  have key : ∀ j ≤ k, ((next H)^[k - j] l).head? = ((next H)^[k + d - j] m).head? := by
    intro j
    induction j with
    | zero => intro _; rw [Nat.sub_zero, Nat.sub_zero, h1, h2]
    | succ j ih =>
      intro hj
      have h := ih (by omega)
      have e : k - j = (k - (j + 1)) + 1 := by omega
      have e' : k + d - j = (k + d - (j + 1)) + 1 := by omega
      rw [e, e', Function.iterate_succ_apply', Function.iterate_succ_apply'] at h
      set i := k - (j + 1)
      set i' := k + d - (j + 1)
      have hi := h1' i (by omega)
      have hi' := h2' i' (by omega)
      obtain ⟨a, b, ha, hab, hma⟩ := hcp _ hi
      obtain ⟨a', b', ha', hab', hma'⟩ := hcp _ hi'
      simp only [next, List.head?_map] at h
      have h : ((concatPairs ((next H)^[i] l)).head?.map H.sha256d) =
        ((concatPairs ((next H)^[i'] m)).head?.map H.sha256d) := h
      rw [hab, hab', Option.map_some, Option.map_some, Option.some.injEq] at h
      have := hS _ (List.mem_append_left _ (mem_hashed hi (List.mem_of_mem_head? hab)))
        _ (List.mem_append_right _ (mem_hashed hi' (List.mem_of_mem_head? hab'))) h
      rw [ha, ha', (List.append_inj this (by
        rw [iter_all32 H hl i a hma, iter_all32 H hm i' a' hma'])).1]
  have := key k (le_refl _)
  rwa [Nat.sub_self, Nat.add_sub_cancel_left] at this

theorem concatPairs_64 {l : List Bytes} (h : All32 l) : ∀ x ∈ concatPairs l, x.length = 64 := by
  induction l using stride2.induct with
  | case1 => simp [concatPairs]
  | case2 a => intro x hx; simp only [concatPairs, List.mem_singleton] at hx; subst hx
               rw [List.length_append, h a (by simp)]
  | case3 a b t ih =>
    intro x hx
    simp only [concatPairs, List.mem_cons] at hx
    rcases hx with rfl | hx
    · rw [List.length_append, h a (by simp), h b (by simp)]
    · exact ih (fun z hz => h z (by simp [hz])) x hx

end NBC.Util
