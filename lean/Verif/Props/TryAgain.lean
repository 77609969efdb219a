import Mathlib.Algebra.Order.Field.Basic
import Mathlib.Algebra.BigOperators.Field
import Mathlib.Logic.Equiv.Fin.Basic
import Mathlib.Tactic.FieldSimp
import Mathlib.Tactic.Linarith
import Verif.Props.SeedText

/-!
# Property C177: scalars from a seed by trying again

`randrange_from_seed__trytryagain`: "figure out exactly how many bits we need (rounded up to the nearest bit), so we can
reduce the chance of looping to less than 0.5.  [...]  The average number of loops will range from 1.0 (when
order=2**k-1) to 2.0 (when order=2**k+1)."  As in C145 and C148, by counting: what the generator gives for a try is one
of the `256 ^ l` strings of its length, all of them equally likely.
-/

namespace NBC.Props
open NBC NT EC Ecdsa Spec Key Der Secp Wallet Aes Proto

/-- The number of different numbers a try can give. -/
def tryRange (bytes extrabits : Nat) : Nat := 2 ^ extrabits * 256 ^ bytes

/-- When the generator gives the strings of the values `s t`, one for each of `T` tries, the function has returned `r` after
these tries (`none`: it has not returned). -/
def Yields (order bytes extrabits : Nat) {T : Nat} (s : Fin T → Fin (256 ^ tryLength bytes extrabits)) (r : Option Nat) :
    Prop :=
  ∀ (H : Hashes) (seed : Bytes), (∀ t : Fin T, prng H seed (t * tryLength bytes extrabits) (tryLength bytes extrabits) =
      beBytes (tryLength bytes extrabits) (s t)) → tryTryAgain H seed order bytes extrabits T = .ok r

open Classical in
/-- The number of sequences of strings with this outcome. -/
noncomputable def tryWays (order bytes extrabits T : Nat) (r : Option Nat) : Nat :=
  (Finset.univ.filter fun s : Fin T → Fin (256 ^ tryLength bytes extrabits) => Yields order bytes extrabits s r).card

/-! ### What a try gives -/

theorem tryLength_pos {bytes extrabits : Nat} (h : bytes ≠ 0 ∨ extrabits ≠ 0) : 0 < tryLength bytes extrabits := by
  unfold tryLength
  split <;> omega

theorem tryRange_pos (bytes extrabits : Nat) : 0 < tryRange bytes extrabits := by
  unfold tryRange
  positivity

/-- The strings of a try are numbers of tries and something that is thrown away. -/
theorem try_parts {bytes extrabits : Nat} (he : extrabits < 8) :
    256 ^ tryLength bytes extrabits = (if extrabits = 0 then 1 else 2 ^ (8 - extrabits)) * tryRange bytes extrabits := by
  unfold tryLength tryRange
  by_cases h : extrabits = 0
  · rw [if_pos h, if_pos h, h]
    ring
  · rw [if_neg h, if_neg h, ← mul_assoc, ← pow_add, Nat.sub_add_cancel he.le, pow_succ]
    ring

theorem tryNumber_eq {H : Hashes} {seed : Bytes} {bytes extrabits t v : Nat} (he : extrabits < 8)
    (hv : v < 256 ^ tryLength bytes extrabits)
    (h : prng H seed (t * tryLength bytes extrabits) (tryLength bytes extrabits) = beBytes (tryLength bytes extrabits) v) :
    tryNumber H seed bytes extrabits t = v % tryRange bytes extrabits + 1 := by
  unfold tryNumber
  by_cases hx : extrabits = 0
  · subst hx
    have hl : tryLength bytes 0 = bytes := rfl
    have hr : tryRange bytes 0 = 256 ^ bytes := by simp [tryRange]
    rw [hl] at h hv
    rw [hr]
    dsimp only
    rw [if_pos rfl, hl, h, bytesVal_beBytes]
  · have hl : tryLength bytes extrabits = 1 + bytes := by
      unfold tryLength
      rw [if_neg hx]
      omega
    dsimp only
    rw [if_neg hx]
    generalize t * tryLength bytes extrabits = pos at *
    rw [hl] at h hv
    rw [(C87_prng H seed pos 1 bytes).1] at h
    have h0 : prng H seed pos 1 = [prngByte H seed pos] := by simp [prng]
    have hb : bytesVal (prng H seed pos 1 ++ prng H seed (pos + 1) bytes) = v := by
      rw [h, bytesVal_beBytes_of_lt hv]
    rw [h0, bytesVal_append] at hb
    have hlen : (prng H seed (pos + 1) bytes).length = bytes := (C87_prng H seed (pos + 1) bytes 0).2
    have h1 : bytesVal [prngByte H seed pos] = (prngByte H seed pos).toNat := by simp [bytesVal, beVal]
    rw [h1, hlen] at hb
    have hlow : bytesVal (prng H seed (pos + 1) bytes) < 256 ^ bytes := by
      conv_rhs => rw [← hlen]
      exact bytesVal_lt _
    generalize bytesVal (prng H seed (pos + 1) bytes) = low at *
    generalize (prngByte H seed pos).toNat = top at *
    rw [← hb, tryRange, mul_comm (2 ^ extrabits), Nat.add_comm (top * 256 ^ bytes), Nat.mod_mul,
      Nat.add_mul_mod_self_right, Nat.mod_eq_of_lt hlow, Nat.add_mul_div_right _ _ (by positivity),
      Nat.div_eq_of_lt hlow, Nat.zero_add]
    ring

theorem loop_returns (H : Hashes) (seed : Bytes) (order bytes extrabits : Nat) (hne : bytes ≠ 0 ∨ extrabits ≠ 0) :
    ∀ fuel pos, ∃ r, tryTryAgainLoop H seed order bytes extrabits fuel pos = .ok r
  | 0, _ => ⟨none, rfl⟩
  | fuel + 1, pos => by
    unfold tryTryAgainLoop
    dsimp only
    rw [stringToNumber_eq _ (by
      intro h
      have := congrArg List.length h
      by_cases hx : extrabits = 0
      · simp [hx, prng] at this hne
        omega
      · simp [hx] at this), ok_bind]
    by_cases hx : extrabits = 0
    · simp only [hx, ne_eq, not_true_eq_false, if_false]
      split
      · exact ⟨_, rfl⟩
      · rw [← hx]
        exact loop_returns H seed order bytes extrabits hne fuel _
    · simp only [hx, ne_eq, not_false_eq_true, if_true]
      split
      · exact ⟨_, rfl⟩
      · exact loop_returns H seed order bytes extrabits hne fuel _

/-- The first try with a number below the order gives `k`. -/
def FirstTry {T M : Nat} (order B : Nat) (s : Fin T → Fin M) (k : Nat) : Prop :=
  ∃ j : Fin T, (∀ t < j, order ≤ (s t : Nat) % B + 1) ∧ (s j : Nat) % B + 1 = k ∧ k < order

theorem exists_stream (L : Nat) (hL : 0 < L) {T : Nat} (s : Fin T → Fin (256 ^ L)) :
    ∃ H : Hashes, ∀ (seed : Bytes) (t : Fin T), prng H seed (t * L) L = beBytes L (s t) := by
  refine ⟨streams fun _ i => (beBytes L (if h : i / L < T then (s ⟨i / L, h⟩ : Nat) else 0)).getD (i % L) 0,
    fun seed t => ?_⟩
  rw [streams_prng, ← range_getD (beBytes L (s t)) L (beBytes_length _ _)]
  apply List.map_congr_left
  intro j hj
  have hj := List.mem_range.1 hj
  have e1 : (↑t * L + j) / L = t := by
    rw [Nat.add_comm, Nat.add_mul_div_right _ _ hL, Nat.div_eq_of_lt hj, Nat.zero_add]
  have e2 : (↑t * L + j) % L = j := by
    rw [Nat.add_comm, Nat.add_mul_mod_self_right, Nat.mod_eq_of_lt hj]
  rw [e2]
  simp only [e1, t.2, dite_true, Fin.eta]

theorem yields_some {order bytes extrabits T : Nat} (ho : 1 < order) (hne : bytes ≠ 0 ∨ extrabits ≠ 0) (he : extrabits < 8)
    (s : Fin T → Fin (256 ^ tryLength bytes extrabits)) (k : Nat) :
    Yields order bytes extrabits s (some k) ↔ FirstTry order (tryRange bytes extrabits) s k := by
  have key : ∀ (H : Hashes) (seed : Bytes), (∀ t : Fin T, prng H seed (t * tryLength bytes extrabits)
      (tryLength bytes extrabits) = beBytes (tryLength bytes extrabits) (s t)) →
      (tryTryAgain H seed order bytes extrabits T = .ok (some k) ↔ FirstTry order (tryRange bytes extrabits) s k) := by
    intro H seed hs
    rw [(C87_first H seed order bytes extrabits T hne).2 ho k]
    have hn : ∀ t : Fin T, tryNumber H seed bytes extrabits t = (s t : Nat) % tryRange bytes extrabits + 1 := fun t =>
      tryNumber_eq he (s t).2 (hs t)
    constructor
    · rintro ⟨j, hj, h1, h2, h3⟩
      refine ⟨⟨j, hj⟩, fun t ht => ?_, ?_, h2⟩
      · rw [← hn t]
        exact h3 t ht
      · rw [← hn ⟨j, hj⟩, h1]
    · rintro ⟨j, h1, h2, h3⟩
      refine ⟨j, j.2, by rw [hn j, h2], h3, fun l hl => ?_⟩
      have := h1 ⟨l, hl.trans j.2⟩ hl
      rw [← hn ⟨l, hl.trans j.2⟩] at this
      exact this
  constructor
  · intro h
    obtain ⟨H, hH⟩ := exists_stream _ (tryLength_pos hne) s
    exact (key H [] (hH [])).1 (h H [] (hH []))
  · intro h H seed hs
    exact (key H seed hs).2 h

theorem yields_none {order bytes extrabits T : Nat} (ho : 1 < order) (hne : bytes ≠ 0 ∨ extrabits ≠ 0) (he : extrabits < 8)
    (s : Fin T → Fin (256 ^ tryLength bytes extrabits)) :
    Yields order bytes extrabits s none ↔ ∀ t, order ≤ (s t : Nat) % tryRange bytes extrabits + 1 := by
  have ret : ∀ (H : Hashes) (seed : Bytes), ∃ r, tryTryAgain H seed order bytes extrabits T = .ok r := by
    intro H seed
    unfold tryTryAgain
    rw [decide_eq_true ho]
    exact loop_returns H seed order bytes extrabits hne T 0
  constructor
  · intro h
    by_contra hc
    push Not at hc
    have hex : ∃ t : Nat, ∃ ht : t < T, (s ⟨t, ht⟩ : Nat) % tryRange bytes extrabits + 1 < order := by
      obtain ⟨t, ht⟩ := hc
      exact ⟨t, t.2, ht⟩
    classical
    obtain ⟨ht, hlt⟩ := Nat.find_spec hex
    have hf : FirstTry order (tryRange bytes extrabits) s ((s ⟨Nat.find hex, ht⟩ : Nat) % tryRange bytes extrabits + 1) := by
      refine ⟨⟨Nat.find hex, ht⟩, fun u hu => ?_, rfl, hlt⟩
      by_contra hcu
      exact Nat.find_min hex hu ⟨u.2, not_le.1 hcu⟩
    obtain ⟨H, hH⟩ := exists_stream _ (tryLength_pos hne) s
    have h1 := h H [] (hH [])
    rw [(yields_some ho hne he s _).2 hf H [] (hH [])] at h1
    cases h1
  · intro h H seed hs
    obtain ⟨r, hr⟩ := ret H seed
    cases r with
    | none => exact hr
    | some k =>
      obtain ⟨j, hj, h1, h2, -⟩ := ((C87_first H seed order bytes extrabits T hne).2 ho k).1 hr
      have := h ⟨j, hj⟩
      rw [← tryNumber_eq he (s ⟨j, hj⟩).2 (hs ⟨j, hj⟩)] at this
      simp only at this
      omega

/-! ### Uniform -/

/-- Exchanging two numbers in what is left of a string. -/
def swapIn (B a b v : Nat) : Nat := if v % B = a then v - a + b else if v % B = b then v - b + a else v

theorem swapIn_mod {B a b : Nat} (ha : a < B) (hb : b < B) (v : Nat) :
    swapIn B a b v % B = if v % B = a then b else if v % B = b then a else v % B := by
  have hm := Nat.mod_add_div v B
  unfold swapIn
  split_ifs with h1 h2
  · have : v - a + b = b + B * (v / B) := by omega
    rw [this, Nat.add_mul_mod_self_left, Nat.mod_eq_of_lt hb]
  · have : v - b + a = a + B * (v / B) := by omega
    rw [this, Nat.add_mul_mod_self_left, Nat.mod_eq_of_lt ha]
  · rfl

theorem swapIn_lt {B a b q v : Nat} (ha : a < B) (hb : b < B) (h : v < q * B) : swapIn B a b v < q * B := by
  have hm := Nat.mod_add_div v B
  have hq : v / B < q := Nat.div_lt_of_lt_mul (by rwa [mul_comm])
  have h2 : B * (v / B) + B ≤ q * B := by
    calc B * (v / B) + B = (v / B + 1) * B := by ring
      _ ≤ q * B := Nat.mul_le_mul_right _ hq
  unfold swapIn
  split_ifs <;> omega

theorem swapIn_self {B a b : Nat} (ha : a < B) (hb : b < B) (v : Nat) : swapIn B a b (swapIn B a b v) = v := by
  have hm := Nat.mod_add_div v B
  have h := swapIn_mod ha hb v
  have h' : swapIn B a b v = if v % B = a then v - a + b else if v % B = b then v - b + a else v := rfl
  generalize swapIn B a b v = w at *
  unfold swapIn
  rw [h]
  split_ifs at h' ⊢ <;> omega

theorem firstTry_swap {T M B order a b : Nat} (ha : a < B) (hb : b < B) (ha' : a + 1 < order) (hb' : b + 1 < order)
    (s s' : Fin T → Fin M) (hs : ∀ t, (s' t : Nat) = swapIn B a b (s t)) (h : FirstTry order B s (a + 1)) :
    FirstTry order B s' (b + 1) := by
  obtain ⟨j, h1, h2, -⟩ := h
  refine ⟨j, fun t ht => ?_, ?_, hb'⟩
  · have := h1 t ht
    rw [hs t, swapIn_mod ha hb]
    split_ifs <;> omega
  · rw [hs j, swapIn_mod ha hb, if_pos (by omega)]

/-- C177: every scalar of `[1, order - 1]` is the outcome of equally many sequences of strings, after any number of tries. -/
theorem C177_uniform (order bytes extrabits T k k' : Nat) (hne : bytes ≠ 0 ∨ extrabits ≠ 0) (he : extrabits < 8)
    (hB : order ≤ tryRange bytes extrabits + 1) (hk : 1 ≤ k ∧ k < order) (hk' : 1 ≤ k' ∧ k' < order) :
    tryWays order bytes extrabits T (some k) = tryWays order bytes extrabits T (some k') := by
  classical
  obtain ⟨a, rfl⟩ : ∃ a, k = a + 1 := ⟨k - 1, by omega⟩
  obtain ⟨b, rfl⟩ : ∃ b, k' = b + 1 := ⟨k' - 1, by omega⟩
  have ho : 1 < order := by omega
  have hp := tryRange_pos bytes extrabits
  have ha : a < tryRange bytes extrabits := by omega
  have hb : b < tryRange bytes extrabits := by omega
  have hlt : ∀ v : Fin (256 ^ tryLength bytes extrabits), swapIn (tryRange bytes extrabits) a b v <
      256 ^ tryLength bytes extrabits := by
    intro v
    have h := v.2
    generalize (v : Nat) = x at h ⊢
    rw [try_parts he] at h ⊢
    exact swapIn_lt ha hb h
  let f : (Fin T → Fin (256 ^ tryLength bytes extrabits)) → (Fin T → Fin (256 ^ tryLength bytes extrabits)) :=
    fun s t => ⟨swapIn (tryRange bytes extrabits) a b (s t), hlt (s t)⟩
  have hf : Function.Involutive f := by
    intro s
    funext t
    exact Fin.ext (swapIn_self ha hb (s t))
  have hcomm : ∀ v, swapIn (tryRange bytes extrabits) a b v = swapIn (tryRange bytes extrabits) b a v := by
    intro v
    unfold swapIn
    split_ifs <;> omega
  unfold tryWays
  refine Finset.card_equiv hf.toPerm (fun s => ?_)
  simp only [Finset.mem_filter, Finset.mem_univ, true_and, Function.Involutive.coe_toPerm]
  rw [yields_some ho hne he, yields_some ho hne he]
  constructor
  · exact firstTry_swap ha hb hk.2 hk'.2 s (f s) (fun _ => rfl)
  · intro h
    have := firstTry_swap hb ha hk'.2 hk.2 (f s) (f (f s)) (fun t => hcomm _) h
    rwa [hf s] at this

/-! ### How long it takes -/

theorem card_mod (q B order : Nat) (ho : 1 < order) (hB : order ≤ B + 1) :
    (Finset.univ.filter fun v : Fin (q * B) => order ≤ (v : Nat) % B + 1).card = q * (B - (order - 1)) := by
  classical
  have h1 : (Finset.univ.filter fun r : Fin B => order ≤ (r : Nat) + 1).card = B - (order - 1) := by
    rcases Nat.lt_or_ge B order with h | h
    · have : (Finset.univ.filter fun r : Fin B => order ≤ (r : Nat) + 1) = ∅ := by
        apply Finset.filter_eq_empty_iff.2
        intro r _
        have := r.2
        omega
      rw [this, Finset.card_empty]
      omega
    · exact card_large B order ho h
  have h2 : (Finset.univ.filter fun v : Fin (q * B) => order ≤ (v : Nat) % B + 1).card =
      ((Finset.univ : Finset (Fin q)) ×ˢ (Finset.univ.filter fun r : Fin B => order ≤ (r : Nat) + 1)).card := by
    symm
    refine Finset.card_equiv finProdFinEquiv (fun x => ?_)
    simp only [Finset.mem_product, Finset.mem_univ, true_and, Finset.mem_filter, finProdFinEquiv_apply_val]
    rw [Nat.add_mul_mod_self_left, Nat.mod_eq_of_lt x.2.2]
  rw [h2, Finset.card_product, Finset.card_univ, Fintype.card_fin, h1]

/-- C177: the sequences of strings for which `T` tries are not enough, among all of them: each try fails, independently of the
others, for `range - (order - 1)` of the `range` numbers a try can give. -/
theorem C177_again (order bytes extrabits T : Nat) (ho : 1 < order) (hne : bytes ≠ 0 ∨ extrabits ≠ 0) (he : extrabits < 8)
    (hB : order ≤ tryRange bytes extrabits + 1) :
    tryWays order bytes extrabits T none * tryRange bytes extrabits ^ T =
      (256 ^ tryLength bytes extrabits) ^ T * (tryRange bytes extrabits - (order - 1)) ^ T := by
  classical
  have e : (Finset.univ.filter fun s : Fin T → Fin (256 ^ tryLength bytes extrabits) => Yields order bytes extrabits s none) =
      Fintype.piFinset fun _ : Fin T => Finset.univ.filter fun v : Fin (256 ^ tryLength bytes extrabits) =>
        order ≤ (v : Nat) % tryRange bytes extrabits + 1 := by
    ext s
    simp only [Finset.mem_filter, Finset.mem_univ, true_and, Fintype.mem_piFinset]
    exact yields_none ho hne he s
  have hc : ∀ q, 256 ^ tryLength bytes extrabits = q * tryRange bytes extrabits →
      (Finset.univ.filter fun v : Fin (256 ^ tryLength bytes extrabits) =>
        order ≤ (v : Nat) % tryRange bytes extrabits + 1).card = q * (tryRange bytes extrabits - (order - 1)) := by
    intro q hq
    rw [hq]
    exact card_mod q _ order ho hB
  unfold tryWays
  rw [e, Fintype.card_piFinset_const, hc _ (try_parts he), ← mul_pow, ← mul_pow]
  congr 1
  conv_rhs => rw [try_parts he]
  ring

/-- C177, "the chance of looping": at most one half, if the bits of a try are as many as those of `order - 1`. -/
theorem C177_half_partial (order bytes extrabits T : Nat) (ho : 1 < order) (hne : bytes ≠ 0 ∨ extrabits ≠ 0)
    (he : extrabits < 8) (hB : order ≤ tryRange bytes extrabits + 1) (hbits : tryRange bytes extrabits ≤ 2 * (order - 1)) :
    tryWays order bytes extrabits T none * 2 ^ T ≤ (256 ^ tryLength bytes extrabits) ^ T := by
  have h := C177_again order bytes extrabits T ho hne he hB
  have hp := tryRange_pos bytes extrabits
  have h2 : (tryRange bytes extrabits - (order - 1)) * 2 ≤ tryRange bytes extrabits := by omega
  have h3 := Nat.pow_le_pow_left h2 T
  rw [mul_pow] at h3
  have : tryWays order bytes extrabits T none * 2 ^ T * tryRange bytes extrabits ^ T ≤
      (256 ^ tryLength bytes extrabits) ^ T * tryRange bytes extrabits ^ T := by
    calc tryWays order bytes extrabits T none * 2 ^ T * tryRange bytes extrabits ^ T
        = tryWays order bytes extrabits T none * tryRange bytes extrabits ^ T * 2 ^ T := by ring
      _ = (256 ^ tryLength bytes extrabits) ^ T * ((tryRange bytes extrabits - (order - 1)) ^ T * 2 ^ T) := by rw [h]; ring
      _ ≤ _ := Nat.mul_le_mul_left _ h3
  exact Nat.le_of_mul_le_mul_right this (Nat.pow_pos hp)

/-- C177, "the average number of loops": the sum of the probabilities that more than `0, 1, ... N - 1` tries are made comes to
`range / (order - 1)`, up to a part that goes to 0. -/
theorem C177_average (order bytes extrabits N : Nat) (ho : 1 < order) (hne : bytes ≠ 0 ∨ extrabits ≠ 0) (he : extrabits < 8)
    (hB : order ≤ tryRange bytes extrabits + 1) :
    (∑ j ∈ Finset.range N, (tryWays order bytes extrabits j none : ℚ) / (256 ^ tryLength bytes extrabits) ^ j) *
        ((order - 1 : Nat) : ℚ) =
      tryRange bytes extrabits * (1 - (tryWays order bytes extrabits N none : ℚ) / (256 ^ tryLength bytes extrabits) ^ N) := by
  have hp := tryRange_pos bytes extrabits
  have hR : (tryRange bytes extrabits : ℚ) ≠ 0 := by exact_mod_cast hp.ne'
  have hM : ((256 : ℚ) ^ tryLength bytes extrabits) ≠ 0 := by positivity
  set x : ℚ := ((tryRange bytes extrabits - (order - 1) : Nat) : ℚ) / tryRange bytes extrabits with hx
  have hw : ∀ j, (tryWays order bytes extrabits j none : ℚ) / (256 ^ tryLength bytes extrabits) ^ j = x ^ j := by
    intro j
    have h : (tryWays order bytes extrabits j none : ℚ) * (tryRange bytes extrabits : ℚ) ^ j =
        ((256 : ℚ) ^ tryLength bytes extrabits) ^ j * ((tryRange bytes extrabits - (order - 1) : Nat) : ℚ) ^ j := by
      exact_mod_cast C177_again order bytes extrabits j ho hne he hB
    rw [hx, div_pow, div_eq_div_iff (pow_ne_zero _ hM) (pow_ne_zero _ hR), h]
    ring
  have h1 : ((order - 1 : Nat) : ℚ) = tryRange bytes extrabits * (1 - x) := by
    have : ((tryRange bytes extrabits - (order - 1) : Nat) : ℚ) = tryRange bytes extrabits - ((order - 1 : Nat) : ℚ) :=
      Nat.cast_sub (by omega)
    rw [hx, this]
    field_simp
    ring
  simp only [hw, h1]
  have hg : ∀ n, (∑ j ∈ Finset.range n, x ^ j) * (1 - x) = 1 - x ^ n := by
    intro n
    induction n with
    | zero => simp
    | succ n ih =>
      rw [Finset.sum_range_succ, add_mul, ih]
      ring
  rw [mul_left_comm, hg N]

/-- The bits of a try are counted by a logarithm in floating point: `int(math.log(order-1, 2)+1)` is 257 for the order of
secp256k1 (and one too many for all curves of the library but NIST256p), so a try takes 32 bytes and one bit. -/
theorem C177_half_false : 256 ^ tryLength 32 1 < 2 * tryWays secp256k1.order 32 1 1 none := by
  have h := C177_again secp256k1.order 32 1 1 (by decide +kernel) (Or.inl (by decide)) (by decide) (by decide +kernel)
  rw [pow_one, pow_one, pow_one] at h
  have h1 : tryRange 32 1 < 2 * (tryRange 32 1 - (secp256k1.order - 1)) := by decide +kernel
  have hM : 0 < 256 ^ tryLength 32 1 := Nat.pow_pos (by norm_num)
  generalize 256 ^ tryLength 32 1 = M at *
  generalize tryWays secp256k1.order 32 1 1 none = w at *
  generalize tryRange 32 1 - (secp256k1.order - 1) = d at *
  generalize tryRange 32 1 = R at *
  by_contra hc
  have h2 : 2 * w * R ≤ M * R := Nat.mul_le_mul_right _ (not_lt.1 hc)
  have h3 : M * R < M * (2 * d) := Nat.mul_lt_mul_of_pos_left h1 hM
  have h4 : 2 * w * R = M * (2 * d) := by
    calc 2 * w * R = 2 * (w * R) := by ring
      _ = M * (2 * d) := by rw [h]; ring
  omega

/-! ### Examples -/

/-- The order 200 takes 8 bits (`math.log(199, 2)` is 7.6), which is one byte: 57 of 256 strings are not accepted. -/
example : tryWays 200 1 0 1 none = 57 := by
  have h := C177_again 200 1 0 1 (by decide) (Or.inl (by decide)) (by decide) (by decide)
  have e1 : tryRange 1 0 = 256 := by decide
  have e2 : tryLength 1 0 = 1 := rfl
  rw [e1, e2, pow_one, pow_one, pow_one] at h
  generalize tryWays 200 1 0 1 none = w at *
  omega

/-- The hypotheses of `C177_half_partial` for NIST256p, where the logarithm is right. -/
example : nist256p.order ≤ tryRange 32 0 + 1 ∧ tryRange 32 0 ≤ 2 * (nist256p.order - 1) := by decide +kernel

/-- Those of `C177_uniform` hold for all curves of the library with the numbers of bits the logarithm gives. -/
example : nist192p.order ≤ tryRange 24 1 + 1 ∧ nist224p.order ≤ tryRange 28 1 + 1 ∧ nist256p.order ≤ tryRange 32 0 + 1 ∧
    nist384p.order ≤ tryRange 48 1 + 1 ∧ nist521p.order ≤ tryRange 65 2 + 1 ∧ secp256k1.order ≤ tryRange 32 1 + 1 := by
  decide +kernel

end NBC.Props
