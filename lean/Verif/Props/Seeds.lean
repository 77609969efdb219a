import Verif.Props.Scalars

/-!
# Property C133: scalars made from the digest of a seed
-/

namespace NBC.Props
open NBC Ecdsa Spec

theorem seedNumber_eq {base : Bytes} (h : base ≠ []) (order : Nat) :
    seedNumber base order =
      if 1 + bytesVal base < order then .ok (1 + bytesVal base) else .error .assertionError := by
  have hs := stringToNumber_eq base h
  rw [stringToNumber] at hs
  unfold seedNumber
  rw [hs, ok_bind]
  simp only
  split
  · rename_i hlt
    have : pyAssert (decide (1 ≤ 1 + bytesVal base) && decide (1 + bytesVal base < order)) = .ok () := by
      rw [pyAssert_ok_iff]; simp [hlt]
    rw [this]; rfl
  · rename_i hlt
    simp only [hlt, decide_false, Bool.and_false]
    rfl

theorem bytesVal_zeros (k : Nat) (s : Bytes) : bytesVal (List.replicate k 0 ++ s) = bytesVal s := by
  induction k with
  | zero => rfl
  | succ k ih => rw [List.replicate_succ, List.cons_append, bytesVal_cons, ih]; simp

/-- The value of the first `l` bytes of a digest. -/
def lead (digest : Bytes) (l : Nat) : Nat := bytesVal (digest.take l)

theorem lead_lt (digest : Bytes) (l : Nat) : lead digest l < 256 ^ l :=
  lt_of_lt_of_le (bytesVal_lt _) (Nat.pow_le_pow_right (by decide) (by simp))

/-- The scalar as the code computes it from the leading bytes: of the first byte the lowest `t` bits are kept, if `t`
is not zero. -/
def keepTop (v l t : Nat) : Nat :=
  if t = 0 then v else v / 256 ^ (l - 1) % 2 ^ t * 256 ^ (l - 1) + v % 256 ^ (l - 1)

theorem truncateBytes_eq (hash : Bytes → Bytes) (seed : Bytes) (order bits : Nat) (hb : 1 ≤ bits) :
    truncateBytes false hash seed order bits =
      if 1 + lead (hash seed) ((bits + 7) / 8) < order then .ok (1 + lead (hash seed) ((bits + 7) / 8))
      else .error .assertionError := by
  have hl : (if bits % 8 ≠ 0 then bits / 8 + 1 else bits / 8) = (bits + 7) / 8 := by split <;> omega
  unfold truncateBytes
  simp only [hl, padSeed, Bool.false_eq_true, if_false, ok_bind]
  rw [seedNumber_eq, bytesVal_zeros]
  · rfl
  · intro h0
    have := congrArg List.length h0
    simp at this
    omega

theorem truncateBits_eq (hash : Bytes → Bytes) (seed : Bytes) (order bits : Nat) (hb : 1 ≤ bits) :
    truncateBits false hash seed order bits =
      if 1 + keepTop (lead (hash seed) ((bits + 7) / 8)) ((bits + 7) / 8) (8 * ((bits + 7) / 8) - bits) < order
      then .ok (1 + keepTop (lead (hash seed) ((bits + 7) / 8)) ((bits + 7) / 8) (8 * ((bits + 7) / 8) - bits))
      else .error .assertionError := by
  have hl : 1 ≤ (bits + 7) / 8 := by omega
  have ht : 8 * ((bits + 7) / 8) - bits < 8 := by omega
  unfold truncateBits
  simp only [padSeed, Bool.false_eq_true, if_false, ok_bind]
  generalize (bits + 7) / 8 = l at *
  generalize 8 * l - bits = t at *
  have hlen : (List.replicate (l - ((hash seed).take l).length) 0 ++ (hash seed).take l).length = l := by
    simp only [List.length_append, List.length_replicate, List.length_take]; omega
  have hval : bytesVal (List.replicate (l - ((hash seed).take l).length) 0 ++ (hash seed).take l) = lead (hash seed) l :=
    bytesVal_zeros _ _
  generalize List.replicate (l - ((hash seed).take l).length) 0 ++ (hash seed).take l = base at *
  cases base with
  | nil => rw [List.length_nil] at hlen; omega
  | cons b rest =>
    by_cases h0 : t = 0
    · subst h0
      rw [if_neg (by simp)]
      rw [seedNumber_eq (by simp), hval]
      rfl
    · rw [if_pos h0]
      simp only
      rw [seedNumber_eq (by simp)]
      have hr : rest.length = l - 1 := by rw [List.length_cons] at hlen; omega
      have hb2 : (UInt8.ofNat (b.toNat &&& lsbOfOnes t)).toNat = b.toNat % 2 ^ t := by
        rw [lsbOfOnes, Nat.one_shiftLeft, Nat.and_two_pow_sub_one_eq_mod, UInt8.toNat_ofNat']
        exact Nat.mod_eq_of_lt (lt_of_le_of_lt (Nat.mod_le _ _) b.toNat_lt)
      have hlt : bytesVal rest < 256 ^ (l - 1) := by rw [← hr]; exact bytesVal_lt rest
      have hpos : 0 < 256 ^ (l - 1) := Nat.pow_pos (by decide)
      have he : bytesVal (UInt8.ofNat (b.toNat &&& lsbOfOnes t) :: rest) = keepTop (lead (hash seed) l) l t := by
        rw [keepTop, if_neg h0, ← hval, bytesVal_cons, bytesVal_cons, hb2, hr, Nat.mul_add_mod', Nat.mod_eq_of_lt hlt,
          Nat.add_comm (b.toNat * 256 ^ (l - 1)), Nat.add_mul_div_right _ _ hpos, Nat.div_eq_of_lt hlt, Nat.zero_add]
      rw [he]

/-- C133.  Whatever the two functions return is in range. -/
theorem C133_range (py3 : Bool) (hash : Bytes → Bytes) (seed : Bytes) (order bits k : Nat)
    (h : truncateBytes py3 hash seed order bits = .ok k ∨ truncateBits py3 hash seed order bits = .ok k) :
    1 ≤ k ∧ k < order := by
  have key : ∀ base, seedNumber base order = .ok k → 1 ≤ k ∧ k < order := by
    intro base h
    unfold seedNumber at h
    obtain ⟨v, -, h⟩ := bind_ok_iff.1 h
    obtain ⟨_, h1, h⟩ := bind_ok_iff.1 h
    cases h
    rw [pyAssert_ok_iff] at h1
    simpa using h1
  rcases h with h | h
  · unfold truncateBytes at h
    obtain ⟨_, -, h⟩ := bind_ok_iff.1 h
    exact key _ h
  · unfold truncateBits at h
    obtain ⟨w, -, h⟩ := bind_ok_iff.1 h
    simp only at h
    split at h
    · cases w with
      | nil => cases h
      | cons b rest => exact key _ h
    · exact key _ h

/-- C133 under Python 2, exactly.  `truncate_bytes` gives one plus the number in the first bytes of the digest, and
raises `AssertionError` if that is not below the order.  `truncate_bits` does the same after reducing the first byte
to its lowest `t` bits, `t` being the number of bits that should go; so it computes what it is meant to, the lowest
`bits` bits, if `t` is 0 or 4, or if the digest is shorter than the order.  (Missing: the other `t`, and digests
above the order.) -/
theorem C133_value_partial (hash : Bytes → Bytes) (seed : Bytes) (order bits : Nat) (hb : 1 ≤ bits) :
    let l := (bits + 7) / 8
    let t := 8 * l - bits
    let v := bytesVal ((hash seed).take l)
    (1 + v < order → truncateBytes false hash seed order bits = .ok (1 + v)) ∧
    (order ≤ 1 + v → truncateBytes false hash seed order bits = .error .assertionError) ∧
    ((t = 0 ∨ t = 4 ∨ (hash seed).length < l) →
      (1 + v % 2 ^ bits < order → truncateBits false hash seed order bits = .ok (1 + v % 2 ^ bits)) ∧
      (order ≤ 1 + v % 2 ^ bits → truncateBits false hash seed order bits = .error .assertionError)) := by
  intro l t v
  have hl : 1 ≤ l := by omega
  have htl : t + bits = 8 * l := by omega
  have ht8 : t < 8 := by omega
  have e1 := truncateBytes_eq hash seed order bits hb
  have e2 := truncateBits_eq hash seed order bits hb
  have hv : v < 256 ^ l := lead_lt _ _
  change truncateBytes false hash seed order bits = (if 1 + v < order then .ok (1 + v) else .error .assertionError) at e1
  change truncateBits false hash seed order bits =
    (if 1 + keepTop v l t < order then .ok (1 + keepTop v l t) else .error .assertionError) at e2
  rw [e1, e2]
  refine ⟨fun h => if_pos h, fun h => if_neg (by omega), fun h => ?_⟩
  have h256 : ∀ k, 256 ^ k = 2 ^ (8 * k) := fun k => by rw [pow_mul]; norm_num
  have hk : keepTop v l t = v % 2 ^ bits := by
    rcases h with h | h | h
    · rw [keepTop, if_pos h]
      have : bits = 8 * l := by omega
      rw [this, ← h256, Nat.mod_eq_of_lt hv]
    · rw [keepTop, if_neg (by omega), h]
      have : 2 ^ bits = 256 ^ (l - 1) * 2 ^ 4 := by rw [h256, ← pow_add]; congr 1; omega
      rw [this, Nat.mod_mul, Nat.mul_comm, Nat.add_comm]
    · have hlt : v < 256 ^ (l - 1) := by
        refine lt_of_lt_of_le (bytesVal_lt _) (Nat.pow_le_pow_right (by decide) ?_)
        rw [List.length_take]; omega
      have hlt2 : v < 2 ^ bits := by
        refine lt_of_lt_of_le hlt ?_
        rw [h256]
        exact Nat.pow_le_pow_right (by decide) (by omega)
      rw [Nat.mod_eq_of_lt hlt2, keepTop]
      split
      · rfl
      · rw [Nat.div_eq_of_lt hlt, Nat.zero_mod, Nat.zero_mul, Nat.zero_add, Nat.mod_eq_of_lt hlt]
  rw [hk]
  exact ⟨fun h => if_pos h, fun h => if_neg (by omega)⟩

/-- C133: under Python 3 both functions raise `TypeError` for every seed. -/
theorem C133_python3_false (hash : Bytes → Bytes) (seed : Bytes) (order bits : Nat) :
    truncateBytes true hash seed order bits = .error .typeError ∧
    truncateBits true hash seed order bits = .error .typeError := ⟨rfl, rfl⟩

/-- C133: for a 9-bit order (`t = 7`) `truncate_bits` keeps 15 bits and raises where it should give a scalar; for a
15-bit order (`t = 1`) it keeps 9 bits, so no scalar above 512 is ever made. -/
theorem C133_bits_false (hash : Bytes → Bytes) (seed : Bytes) :
    ((hash seed).take 2 = [2, 0] → truncateBits false hash seed 509 9 = .error .assertionError) ∧
    (∀ k, truncateBits false hash seed 32749 15 = .ok k → k ≤ 512) := by
  constructor
  · intro h
    rw [truncateBits_eq _ _ _ _ (by decide)]
    have : lead (hash seed) ((9 + 7) / 8) = 512 := by
      show bytesVal ((hash seed).take 2) = 512
      rw [h]; decide
    rw [this]
    decide +kernel
  · intro k hk
    rw [truncateBits_eq _ _ _ _ (by decide)] at hk
    split at hk
    · cases hk
      have h1 : lead (hash seed) 2 < 65536 := lead_lt _ _
      show 1 + keepTop (lead (hash seed) 2) 2 1 ≤ 512
      rw [keepTop, if_neg (by decide)]
      generalize lead (hash seed) 2 = v at *
      norm_num
      omega
    · cases hk

/-- A digest below the order of NIST192p, whose 192 bits need no cutting. -/
example : truncateBits false (fun s => s ++ [1, 2, 3]) (List.replicate 24 7) nist192p.order 192 =
    .ok (1 + bytesVal (List.replicate 24 7)) := by decide +kernel

end NBC.Props
