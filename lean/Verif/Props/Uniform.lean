import Mathlib.Data.Fintype.BigOperators
import Mathlib.Data.Fintype.Pi
import Mathlib.Algebra.Order.BigOperators.Group.Finset
import Verif.Props.Scalars
import Verif.Props.Wallet

/-!
# Property C145: random scalars are uniform

"Uniform" is said by counting: an entropy source answers every request for `l` bytes with one of
`256 ^ l` strings, all of them equally likely and independent.  So the probability of an outcome is
the number of sequences of answers with that outcome, divided by the number of all sequences.
-/

namespace NBC.Props
open NBC NT EC Ecdsa Spec Key Der Secp Wallet

/-- The entropy source whose `i`-th answer is the string of value `s i`.  (`beBytes b v` runs through
all strings of `b` bytes when `v` runs through the numbers below `256 ^ b`, `C145_strings`.) -/
def answers {T M : Nat} (s : Fin T → Fin M) (i b : Nat) : Bytes :=
  beBytes b (if h : i < T then (s ⟨i, h⟩ : Nat) else 0)

/-- C145: the strings of `b` bytes are the values below `256 ^ b`, each once. -/
theorem C145_strings (b : Nat) (t : Bytes) (ht : t.length = b) :
    ∃! v, v < 256 ^ b ∧ beBytes b v = t := by
  refine ⟨bytesVal t, ⟨by rw [← ht]; exact bytesVal_lt t, by rw [← ht]; exact beBytes_bytesVal t⟩, ?_⟩
  rintro v ⟨h1, h2⟩
  rw [← h2, bytesVal_beBytes_of_lt h1]

/-- The first answer below `order - 1` is the one that gives `k`. -/
def FirstFit {T M : Nat} (order : Nat) (s : Fin T → Fin M) (k : Nat) : Prop :=
  ∃ j : Fin T, (∀ t < j, order ≤ (s t : Nat) + 1) ∧ (s j : Nat) + 1 = k ∧ k < order

/-- No answer is below `order - 1`. -/
def NoFit {T M : Nat} (order : Nat) (s : Fin T → Fin M) : Prop := ∀ t, order ≤ (s t : Nat) + 1

theorem fit_cases {T M : Nat} (order : Nat) (s : Fin T → Fin M) :
    NoFit order s ∨ ∃ j : Fin T, (∀ t < j, order ≤ (s t : Nat) + 1) ∧ (s j : Nat) + 1 < order := by
  classical
  by_cases h : NoFit order s
  · exact Or.inl h
  · right
    unfold NoFit at h
    push Not at h
    obtain ⟨t, ht⟩ := h
    have hne : (Finset.univ.filter (fun t : Fin T => (s t : Nat) + 1 < order)).Nonempty :=
      ⟨t, by simpa using ht⟩
    refine ⟨Finset.min' _ hne, fun u hu => ?_, ?_⟩
    · by_contra hc
      have hm : u ∈ Finset.univ.filter (fun t : Fin T => (s t : Nat) + 1 < order) :=
        Finset.mem_filter.2 ⟨Finset.mem_univ u, by omega⟩
      exact absurd hu (not_lt.2 (Finset.min'_le _ u hm))
    · exact (Finset.mem_filter.1 (Finset.min'_mem _ hne)).2

theorem firstFit_unique {T M : Nat} {order : Nat} {s : Fin T → Fin M} {k k' : Nat}
    (h : FirstFit order s k) (h' : FirstFit order s k') : k = k' := by
  obtain ⟨j, h1, h2, h3⟩ := h
  obtain ⟨j', h1', h2', h3'⟩ := h'
  rcases lt_trichotomy j j' with hj | hj | hj
  · have := h1' j hj; omega
  · subst hj; omega
  · have := h1 j' hj; omega

theorem noFit_not_first {T M : Nat} {order : Nat} {s : Fin T → Fin M} {k : Nat} (h : NoFit order s) :
    ¬ FirstFit order s k := by
  rintro ⟨j, -, h2, h3⟩
  have := h j
  omega

/-- What `randrange` does with 10000 answers, in the words of the specification. -/
theorem randrange_answers (order : Nat) (ho : 1 < order)
    (s : Fin 10000 → Fin (256 ^ orderlen order)) (k : Nat) :
    (randrange order (answers s) = .ok k ↔ FirstFit order s k) ∧
    (randrange order (answers s) = .error .runtimeError ↔ NoFit order s) := by
  obtain ⟨h1, h2⟩ := C32_first order ho (answers s) (fun i b => beBytes_length b _)
  simp only at h1 h2
  have hv : ∀ t : Fin 10000, bytesVal (answers s t (orderlen order)) = s t := by
    intro t
    unfold answers
    rw [dif_pos t.2, bytesVal_beBytes_of_lt (s t).2]
  rcases fit_cases order s with h | ⟨j, hj1, hj2⟩
  · have e := h2 (fun t ht => by have := hv ⟨t, ht⟩; simp only at this; rw [this]; exact h _)
    rw [e]
    exact ⟨Iff.intro (fun h' => nomatch h') (fun h' => absurd h' (noFit_not_first h)),
      Iff.intro (fun _ => h) (fun _ => rfl)⟩
  · have e := h1 j j.2 (fun t ht => by 
      have := hv ⟨t, lt_trans ht j.2⟩; simp only at this; rw [this]; exact hj1 _ ht) (by rw [hv j]; exact hj2)
    rw [hv j] at e
    rw [e]
    constructor
    · constructor
      · intro h'
        have : (s j : Nat) + 1 = k := Except.ok.inj h'
        exact ⟨j, hj1, this, by omega⟩
      · intro h'
        rw [firstFit_unique h' ⟨j, hj1, rfl, hj2⟩]
    · constructor
      · intro h'; exact nomatch h'
      · intro h'; exact absurd (h' j) (by omega)

/-- Exchanging two values in all answers. -/
def exchange {T M : Nat} (a b : Fin M) : (Fin T → Fin M) ≃ (Fin T → Fin M) :=
  Equiv.piCongrRight (fun _ => Equiv.swap a b)

theorem exchange_fit {M order : Nat} (a b : Fin M) (ha : (a : Nat) + 1 < order) (hb : (b : Nat) + 1 < order)
    (v : Fin M) : order ≤ (Equiv.swap a b v : Nat) + 1 ↔ order ≤ (v : Nat) + 1 := by
  rcases eq_or_ne v a with rfl | h1
  · rw [Equiv.swap_apply_left]; omega
  rcases eq_or_ne v b with rfl | h2
  · rw [Equiv.swap_apply_right]; omega
  rw [Equiv.swap_apply_of_ne_of_ne h1 h2]

theorem exchange_first {T M order : Nat} (a b : Fin M) (ha : (a : Nat) + 1 < order) (hb : (b : Nat) + 1 < order)
    (s : Fin T → Fin M) (h : FirstFit order s ((a : Nat) + 1)) :
    FirstFit order (exchange a b s) ((b : Nat) + 1) := by
  obtain ⟨j, h1, h2, -⟩ := h
  refine ⟨j, fun t ht => ?_, ?_, hb⟩
  · exact (exchange_fit a b ha hb (s t)).2 (h1 t ht)
  · show ((Equiv.swap a b (s j) : Fin M) : Nat) + 1 = _
    have : s j = a := Fin.ext (by omega)
    rw [this, Equiv.swap_apply_left]

theorem firstFit_card {T M order : Nat} (a b : Fin M) (ha : (a : Nat) + 1 < order) (hb : (b : Nat) + 1 < order)
    [DecidablePred fun s : Fin T → Fin M => FirstFit order s ((a : Nat) + 1)]
    [DecidablePred fun s : Fin T → Fin M => FirstFit order s ((b : Nat) + 1)] :
    (Finset.univ.filter (fun s : Fin T → Fin M => FirstFit order s ((a : Nat) + 1))).card =
      (Finset.univ.filter (fun s : Fin T → Fin M => FirstFit order s ((b : Nat) + 1))).card := by
  refine Finset.card_equiv (exchange a b) (fun s => ?_)
  simp only [Finset.mem_filter, Finset.mem_univ, true_and]
  refine ⟨exchange_first a b ha hb s, fun h => ?_⟩
  have := exchange_first b a hb ha _ h
  have e : exchange b a (exchange a b s) = s := by
    funext t
    show Equiv.swap b a (Equiv.swap a b (s t)) = s t
    rw [Equiv.swap_comm b a, ← Equiv.trans_apply, Equiv.swap_swap, Equiv.refl_apply]
  rwa [e] at this

open Classical in
/-- The number of sequences of 10000 answers with the outcome `r`. -/
noncomputable def ways (order : Nat) (r : Py Nat) : Nat :=
  (Finset.univ.filter (fun s : Fin 10000 → Fin (256 ^ orderlen order) => randrange order (answers s) = r)).card

theorem ways_first (order k : Nat) (ho : 1 < order)
    [DecidablePred fun s : Fin 10000 → Fin (256 ^ orderlen order) => FirstFit order s k] :
    ways order (.ok k) =
      (Finset.univ.filter (fun s : Fin 10000 → Fin (256 ^ orderlen order) => FirstFit order s k)).card := by
  unfold ways
  refine congrArg Finset.card (Finset.filter_congr (fun s _ => ?_))
  exact (randrange_answers order ho s k).1

/-- C145: every scalar of `[1, order - 1]` is the outcome of equally many sequences of answers. -/
theorem C145_uniform (order k k' : Nat) (hk : 1 ≤ k ∧ k < order) (hk' : 1 ≤ k' ∧ k' < order) :
    ways order (.ok k) = ways order (.ok k') := by
  classical
  have hM := lt_256_pow_orderlen order
  have h := firstFit_card (T := 10000) (M := 256 ^ orderlen order) (order := order)
    ⟨k - 1, by omega⟩ ⟨k' - 1, by omega⟩ (by show k - 1 + 1 < order; omega) (by show k' - 1 + 1 < order; omega)
  have e1 : k - 1 + 1 = k := by omega
  have e2 : k' - 1 + 1 = k' := by omega
  simp only [e1, e2] at h
  rw [ways_first order k (by omega), ways_first order k' (by omega), h]

theorem card_large (M order : Nat) (ho : 1 < order) (hM : order ≤ M) :
    (Finset.univ.filter (fun v : Fin M => order ≤ (v : Nat) + 1)).card = M - (order - 1) := by
  have h1 : (Finset.univ.filter (fun v : Fin M => order ≤ (v : Nat) + 1)) =
      Finset.Ici (⟨order - 1, by omega⟩ : Fin M) := by
    ext v
    simp only [Finset.mem_filter, Finset.mem_univ, true_and, Finset.mem_Ici, Fin.le_def]
    omega
  rw [h1, Fin.card_Ici]

/-- C145: the number of sequences of answers for which `randrange` gives up is exactly the number of
sequences without a string below `order - 1`. -/
theorem C145_failures (order : Nat) (ho : 1 < order) :
    ways order (.error .runtimeError) = (256 ^ orderlen order - (order - 1)) ^ 10000 := by
  classical
  have hM := lt_256_pow_orderlen order
  rw [← card_large (256 ^ orderlen order) order ho hM.le]
  have : (Finset.univ.filter (fun s : Fin 10000 → Fin (256 ^ orderlen order) =>
      randrange order (answers s) = .error .runtimeError)) =
      Fintype.piFinset (fun _ : Fin 10000 =>
        Finset.univ.filter (fun v : Fin (256 ^ orderlen order) => order ≤ (v : Nat) + 1)) := by
    ext s
    simp only [Finset.mem_filter, Finset.mem_univ, true_and, Fintype.mem_piFinset]
    exact (randrange_answers order ho s 0).2
  unfold ways
  rw [this, Fintype.card_piFinset, Finset.prod_const, Finset.card_univ, Fintype.card_fin]

/-- The scalar returned, 0 for an exception. -/
def outcome : Py Nat → Nat
  | .ok k => k
  | .error _ => 0

/-- C145: so every scalar has the probability `1 / (order - 1)`, up to the failures: the sequences that
give `k`, times `order - 1`, and the failures are all sequences. -/
theorem C145_total (order k : Nat) (hk : 1 ≤ k ∧ k < order) :
    (order - 1) * ways order (.ok k) + ways order (.error .runtimeError) = (256 ^ orderlen order) ^ 10000 := by
  classical
  have ho : 1 < order := by omega
  have hcard : (Finset.univ : Finset (Fin 10000 → Fin (256 ^ orderlen order))).card =
      (256 ^ orderlen order) ^ 10000 := by
    rw [Finset.card_univ, Fintype.card_fun, Fintype.card_fin, Fintype.card_fin]
  have hout : ∀ s : Fin 10000 → Fin (256 ^ orderlen order),
      (∃ k, randrange order (answers s) = .ok k ∧ 1 ≤ k ∧ k < order) ∨
        randrange order (answers s) = .error .runtimeError := by
    intro s
    rcases fit_cases order s with h | ⟨j, hj1, hj2⟩
    · exact Or.inr ((randrange_answers order ho s 0).2.2 h)
    · exact Or.inl ⟨_, (randrange_answers order ho s _).1.2 ⟨j, hj1, rfl, hj2⟩, by omega, hj2⟩
  have hsum := Finset.card_eq_sum_card_fiberwise (s := (Finset.univ : Finset (Fin 10000 → Fin (256 ^ orderlen order))))
    (t := Finset.range order) (f := fun s => outcome (randrange order (answers s))) (by
      intro s _
      rcases hout s with ⟨k, h1, h2, h3⟩ | h1
      · simp only [h1, outcome, Finset.coe_range, Set.mem_Iio]; exact h3
      · simp only [h1, outcome, Finset.coe_range, Set.mem_Iio]; omega)
  rw [hcard] at hsum
  rw [hsum]
  obtain ⟨m, rfl⟩ : ∃ m, order = m + 1 := ⟨order - 1, by omega⟩
  rw [Finset.sum_range_succ']
  have h0 : (Finset.univ.filter (fun s : Fin 10000 → Fin (256 ^ orderlen (m + 1)) =>
      outcome (randrange (m + 1) (answers s)) = 0)).card = ways (m + 1) (.error .runtimeError) := by
    unfold ways
    refine congrArg Finset.card (Finset.filter_congr (fun s _ => ?_))
    rcases hout s with ⟨k, h1, h2, h3⟩ | h1
    · rw [h1]
      simp only [outcome]
      exact ⟨fun h => by omega, fun h => nomatch h⟩
    · rw [h1]
      simp only [outcome]
  have hi : ∀ i ∈ Finset.range m, (Finset.univ.filter (fun s : Fin 10000 → Fin (256 ^ orderlen (m + 1)) =>
      outcome (randrange (m + 1) (answers s)) = i + 1)).card = ways (m + 1) (.ok k) := by
    intro i hi
    rw [Finset.mem_range] at hi
    rw [C145_uniform (m + 1) k (i + 1) hk ⟨by omega, by omega⟩]
    unfold ways
    refine congrArg Finset.card (Finset.filter_congr (fun s _ => ?_))
    rcases hout s with ⟨k', h1, h2, h3⟩ | h1
    · rw [h1]
      simp only [outcome]
      exact ⟨fun h => by rw [h], fun h => Except.ok.inj h⟩
    · rw [h1]
      simp only [outcome]
      exact ⟨fun h => by omega, fun h => nomatch h⟩
  rw [h0, Finset.sum_congr rfl hi, Finset.sum_const, Finset.card_range, smul_eq_mul, Nat.add_sub_cancel]

/-- At least 255 of 65536 strings are accepted, for every order. -/
theorem C145_accepted (order : Nat) (ho : 1 < order) :
    255 * 256 ^ orderlen order ≤ (order - 1) * 65536 := by
  have hp := orderlen_pos order
  by_cases h1 : orderlen order = 1
  · rw [h1]; omega
  obtain ⟨l, hl⟩ : ∃ l, orderlen order = l + 2 := ⟨orderlen order - 2, by omega⟩
  have h2 : 256 ^ (l + 1) ≤ order := by
    by_contra hc
    have := (orderlen_le_iff order (l + 1) (by omega)).2 (not_le.1 hc)
    omega
  rw [hl]
  have h3 : 0 < 256 ^ l := Nat.pos_of_ne_zero (by positivity)
  rw [pow_succ] at h2
  rw [pow_succ, pow_succ]
  omega

theorem pow_bound (F M A B N c : Nat) (hA : 0 < A) (h : F * B ≤ M * A) (hc : A ^ N * c ≤ B ^ N) :
    F ^ N * c ≤ M ^ N := by
  have h1 : F ^ N * B ^ N ≤ M ^ N * A ^ N := by
    rw [← mul_pow, ← mul_pow]; exact Nat.pow_le_pow_left h N
  have h2 : F ^ N * c * A ^ N ≤ M ^ N * A ^ N :=
    calc F ^ N * c * A ^ N = F ^ N * (A ^ N * c) := by ring
      _ ≤ F ^ N * B ^ N := Nat.mul_le_mul_left _ hc
      _ ≤ _ := h1
  exact Nat.le_of_mul_le_mul_right h2 (Nat.pow_pos hA)

/-- C145: `randrange` gives up with probability at most `2 ^ -56`, whatever the order. -/
theorem C145_cutoff_partial (order : Nat) (ho : 1 < order) :
    ways order (.error .runtimeError) * 2 ^ 56 ≤ (256 ^ orderlen order) ^ 10000 := by
  rw [C145_failures order ho]
  have h := C145_accepted order ho
  have hM := lt_256_pow_orderlen order
  refine pow_bound _ _ 65281 65536 10000 (2 ^ 56) (by norm_num) ?_ (by decide +kernel)
  generalize 256 ^ orderlen order = M at *
  omega

/-- C145: it is not the `2 ^ -60` of the comment: for the order 256 it is more than `2 ^ -57`. -/
theorem C145_cutoff_false :
    (256 ^ orderlen 256) ^ 10000 < ways 256 (.error .runtimeError) * 2 ^ 57 := by
  rw [C145_failures 256 (by norm_num)]
  decide +kernel

/-- C145: for the curves of the library but one, fewer than one in `2 ^ 31` requests has to be repeated. -/
theorem C145_curves_partial (c : Curve) (hc : c ∈ curves) (h : c ≠ nist521p) :
    (256 ^ orderlen c.order - (c.order - 1)) * 2 ^ 31 ≤ 256 ^ orderlen c.order := by
  simp only [curves, List.mem_cons, List.not_mem_nil, or_false] at hc
  rcases hc with rfl | rfl | rfl | rfl | rfl | rfl
  · decide +kernel
  · decide +kernel
  · decide +kernel
  · decide +kernel
  · exact absurd rfl h
  · decide +kernel

/-- C145: "all of the standard curves behave well" does not hold of NIST521p, where at most one request in
128 is answered with a usable string. -/
theorem C145_curves_false : nist521p ∈ curves ∧ (nist521p.order - 1) * 128 ≤ 256 ^ orderlen nist521p.order :=
  ⟨by simp [curves], by decide +kernel⟩

open Classical in
/-- The number of sequences of answers for which the wallet made has the private key `key`. -/
noncomputable def walletWays (H : Hashes) (vcn : Option Int) (rnd : Nat) (tn c : Bool) (key : Bytes) : Nat :=
  (Finset.univ.filter (fun s : Fin 10000 → Fin (256 ^ orderlen n) =>
    ∃ a, Address.generate H vcn rnd tn c (answers s) = .ok a ∧ a.privBytes H = .ok (some key))).card

/-- C145: new wallets: every private key is equally likely. -/
theorem C145_generate (H : Hashes) (vcn : Option Int) (rnd : Nat) (tn c : Bool) (d : Nat) (hd : 1 ≤ d ∧ d < n) :
    walletWays H vcn rnd tn c (beBytes 32 d) = ways n (.ok d) := by
  classical
  unfold walletWays ways
  refine congrArg Finset.card (Finset.filter_congr (fun s _ => ?_))
  constructor
  · rintro ⟨a, ha, hp⟩
    cases hr : randrange n (answers s) with
    | error e =>
      unfold Address.generate at ha
      rw [show randrange secp256k1.order (answers s) = .error e from hr, error_bind] at ha
      cases ha
    | ok d' =>
      obtain ⟨a', x, y, h1, h2, h3, h4, -⟩ := C53_generate H vcn rnd tn c (answers s) d' hr
      rw [ha] at h1
      obtain rfl := Except.ok.inj h1
      rw [hp] at h4
      have e := Option.some.inj (Except.ok.inj h4)
      have := congrArg bytesVal e
      rw [bytesVal_beBytes_of_lt (lt_trans hd.2 Piecewise.n_lt), bytesVal_beBytes_of_lt (lt_trans h3 Piecewise.n_lt)] at this
      rw [this]
  · intro hr
    obtain ⟨a, x, y, h1, -, -, h4, -⟩ := C53_generate H vcn rnd tn c (answers s) d hr
    exact ⟨a, h1, h4⟩

/-- The order 4 takes one byte; 3 of 256 are accepted, as 1, 2 and 3. -/
example : (4 - 1) * ways 4 (.ok 2) + ways 4 (.error .runtimeError) = (256 ^ orderlen 4) ^ 10000 ∧
    ways 4 (.error .runtimeError) = (256 ^ orderlen 4 - (4 - 1)) ^ 10000 ∧ orderlen 4 = 1 ∧
    ways 4 (.ok 1) = ways 4 (.ok 3) :=
  ⟨C145_total 4 2 (by norm_num), C145_failures 4 (by norm_num), by decide +kernel,
    C145_uniform 4 1 3 (by norm_num) (by norm_num)⟩

end NBC.Props
