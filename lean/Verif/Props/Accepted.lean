import Mathlib.NumberTheory.PrimeCounting
import Verif.Proofs.Primality

/-!
# Property C144: which numbers `is_prime` takes for primes

The specification is the textbook notion of a strong probable prime and the number of bases as a
plain table; neither mentions the loops of the program.
-/

namespace NBC.Props
open NBC NT

/-- `n` is a strong probable prime to the base `a` (Menezes et al., 4.20): with `n - 1 = 2^s d` and
`d` odd, `a^d` is 1 or one of `a^d, a^(2d), .., a^(2^(s-1) d)` is `-1` modulo `n`. -/
def StrongProbablePrime (n a : Nat) : Prop :=
  ∃ s d, d % 2 = 1 ∧ 2 ^ s * d = n - 1 ∧
    (a ^ d % n = 1 ∨ ∃ j < s, a ^ (2 ^ j * d) % n = n - 1)

/-- The number of bases for a number of `bits` binary digits (Menezes et al., Table 4.4, and 40 for
short numbers). -/
def basesFor (bits : Nat) : Nat :=
  if bits < 100 then 40 else if bits < 150 then 27 else if bits < 200 then 18
  else if bits < 250 then 15 else if bits < 300 then 12 else if bits < 350 then 9
  else if bits < 400 then 8 else if bits < 450 then 7 else if bits < 550 then 6
  else if bits < 650 then 5 else if bits < 850 then 4 else if bits < 1300 then 3 else 2

/-! ## Lemmas -/

theorem rounds_basesFor (bits : Nat) : rounds bits roundsTable 40 = basesFor bits := by
  unfold basesFor roundsTable
  simp only [rounds]

/-- The first `t` entries of the table are the primes with fewer than `t` primes below them. -/
theorem mem_take_of (t b : Nat) (h1 : (smallprimes.take t).all (fun q => decide (q ≤ b)) = true)
    (h2 : (smallprimes.drop t).all (fun q => decide (b < q)) = true) (hb : b ≤ 1229)
    (h3 : Nat.count Nat.Prime b + 1 = t) (hbp : b.Prime) (q : Nat) :
    q ∈ smallprimes.take t ↔ q.Prime ∧ Nat.count Nat.Prime q < t := by
  rw [List.all_eq_true] at h1 h2
  have hle : ∀ q : Nat, q.Prime → (Nat.count Nat.Prime q < t ↔ q ≤ b) := by
    intro q hq
    constructor
    · intro h
      by_contra hc
      have h4 : Nat.count Nat.Prime (b + 1) ≤ Nat.count Nat.Prime q :=
        Nat.count_monotone _ (by omega)
      rw [Nat.count_succ, if_pos hbp] at h4
      omega
    · intro h
      have := Nat.count_monotone Nat.Prime h
      omega
  constructor
  · intro h
    have hp := ((mem_smallprimes q).1 (List.mem_of_mem_take h)).1
    have := h1 q h
    exact ⟨hp, (hle q hp).2 (by simpa using this)⟩
  · rintro ⟨hp, h⟩
    have hq := (hle q hp).1 h
    have hm := (mem_smallprimes q).2 ⟨hp, by omega⟩
    rw [← List.take_append_drop t smallprimes, List.mem_append] at hm
    rcases hm with hm | hm
    · exact hm
    · have := h2 q hm
      simp only [decide_eq_true_eq] at this
      omega

theorem mem_take_40 (q : Nat) : q ∈ smallprimes.take 40 ↔ q.Prime ∧ Nat.count Nat.Prime q < 40 :=
  mem_take_of 40 173 (by decide +kernel) (by decide +kernel) (by norm_num) (by decide +kernel) (by decide +kernel) q

theorem mem_take_27 (q : Nat) : q ∈ smallprimes.take 27 ↔ q.Prime ∧ Nat.count Nat.Prime q < 27 :=
  mem_take_of 27 103 (by decide +kernel) (by decide +kernel) (by norm_num) (by decide +kernel) (by decide +kernel) q

theorem mem_take_18 (q : Nat) : q ∈ smallprimes.take 18 ↔ q.Prime ∧ Nat.count Nat.Prime q < 18 :=
  mem_take_of 18 61 (by decide +kernel) (by decide +kernel) (by norm_num) (by decide +kernel) (by decide +kernel) q

theorem mem_take_15 (q : Nat) : q ∈ smallprimes.take 15 ↔ q.Prime ∧ Nat.count Nat.Prime q < 15 :=
  mem_take_of 15 47 (by decide +kernel) (by decide +kernel) (by norm_num) (by decide +kernel) (by decide +kernel) q

theorem mem_take_12 (q : Nat) : q ∈ smallprimes.take 12 ↔ q.Prime ∧ Nat.count Nat.Prime q < 12 :=
  mem_take_of 12 37 (by decide +kernel) (by decide +kernel) (by norm_num) (by decide +kernel) (by decide +kernel) q

theorem mem_take_9 (q : Nat) : q ∈ smallprimes.take 9 ↔ q.Prime ∧ Nat.count Nat.Prime q < 9 :=
  mem_take_of 9 23 (by decide +kernel) (by decide +kernel) (by norm_num) (by decide +kernel) (by decide +kernel) q

theorem mem_take_8 (q : Nat) : q ∈ smallprimes.take 8 ↔ q.Prime ∧ Nat.count Nat.Prime q < 8 :=
  mem_take_of 8 19 (by decide +kernel) (by decide +kernel) (by norm_num) (by decide +kernel) (by decide +kernel) q

theorem mem_take_7 (q : Nat) : q ∈ smallprimes.take 7 ↔ q.Prime ∧ Nat.count Nat.Prime q < 7 :=
  mem_take_of 7 17 (by decide +kernel) (by decide +kernel) (by norm_num) (by decide +kernel) (by decide +kernel) q

theorem mem_take_6 (q : Nat) : q ∈ smallprimes.take 6 ↔ q.Prime ∧ Nat.count Nat.Prime q < 6 :=
  mem_take_of 6 13 (by decide +kernel) (by decide +kernel) (by norm_num) (by decide +kernel) (by decide +kernel) q

theorem mem_take_5 (q : Nat) : q ∈ smallprimes.take 5 ↔ q.Prime ∧ Nat.count Nat.Prime q < 5 :=
  mem_take_of 5 11 (by decide +kernel) (by decide +kernel) (by norm_num) (by decide +kernel) (by decide +kernel) q

theorem mem_take_4 (q : Nat) : q ∈ smallprimes.take 4 ↔ q.Prime ∧ Nat.count Nat.Prime q < 4 :=
  mem_take_of 4 7 (by decide +kernel) (by decide +kernel) (by norm_num) (by decide +kernel) (by decide +kernel) q

theorem mem_take_3 (q : Nat) : q ∈ smallprimes.take 3 ↔ q.Prime ∧ Nat.count Nat.Prime q < 3 :=
  mem_take_of 3 5 (by decide +kernel) (by decide +kernel) (by norm_num) (by decide +kernel) (by decide +kernel) q

theorem mem_take_2 (q : Nat) : q ∈ smallprimes.take 2 ↔ q.Prime ∧ Nat.count Nat.Prime q < 2 :=
  mem_take_of 2 3 (by decide +kernel) (by decide +kernel) (by norm_num) (by decide +kernel) (by decide +kernel) q

theorem basesFor_cases (bits : Nat) : basesFor bits ∈ [40, 27, 18, 15, 12, 9, 8, 7, 6, 5, 4, 3, 2] := by
  unfold basesFor
  repeat' split
  all_goals decide

theorem mem_take_basesFor (bits q : Nat) :
    q ∈ smallprimes.take (basesFor bits) ↔ q.Prime ∧ Nat.count Nat.Prime q < basesFor bits := by
  have h := basesFor_cases bits
  generalize basesFor bits = t at *
  simp only [List.mem_cons, List.not_mem_nil, or_false] at h
  rcases h with rfl | rfl | rfl | rfl | rfl | rfl | rfl | rfl | rfl | rfl | rfl | rfl | rfl
  · exact mem_take_40 q
  · exact mem_take_27 q
  · exact mem_take_18 q
  · exact mem_take_15 q
  · exact mem_take_12 q
  · exact mem_take_9 q
  · exact mem_take_8 q
  · exact mem_take_7 q
  · exact mem_take_6 q
  · exact mem_take_5 q
  · exact mem_take_4 q
  · exact mem_take_3 q
  · exact mem_take_2 q

theorem mrInner_iff (n : Nat) (hn : 3 ≤ n) : ∀ (fuel y : Nat), y < n →
    (mrInner n fuel y = true ↔ ∃ j ≤ fuel, y ^ 2 ^ j % n = n - 1)
  | 0, y, hy => by
    unfold mrInner
    rw [beq_iff_eq]
    constructor
    · intro h; exact ⟨0, le_rfl, by rw [pow_zero, pow_one, Nat.mod_eq_of_lt hy, h]⟩
    · rintro ⟨j, hj, h⟩
      obtain rfl : j = 0 := by omega
      rwa [pow_zero, pow_one, Nat.mod_eq_of_lt hy] at h
  | fuel + 1, y, hy => by
    unfold mrInner
    by_cases h : y ≠ n - 1
    · rw [if_pos h]
      have e : powMod y 2 n = y ^ 2 % n := powMod_eq _ _ _ (by omega)
      have step : ∀ j, y ^ 2 ^ (j + 1) % n = (y ^ 2 % n) ^ 2 ^ j % n := by
        intro j
        rw [pow_succ', pow_mul, Nat.pow_mod (y ^ 2)]
      have z : (∃ j ≤ fuel + 1, y ^ 2 ^ j % n = n - 1) ↔ ∃ j ≤ fuel, (y ^ 2 % n) ^ 2 ^ j % n = n - 1 := by
        constructor
        · rintro ⟨j, hj, h'⟩
          cases j with
          | zero => rw [pow_zero, pow_one, Nat.mod_eq_of_lt hy] at h'; exact absurd h' h
          | succ j => exact ⟨j, by omega, by rw [← step]; exact h'⟩
        · rintro ⟨j, hj, h'⟩
          exact ⟨j + 1, by omega, by rw [step]; exact h'⟩
      rw [z]
      simp only [e]
      by_cases h1 : y ^ 2 % n = 1
      · rw [if_pos h1, h1]
        constructor
        · intro h'; cases h'
        · rintro ⟨j, _, h'⟩
          rw [one_pow, Nat.mod_eq_of_lt (by omega)] at h'
          omega
      · rw [if_neg h1]
        exact mrInner_iff n hn fuel _ (Nat.mod_lt _ (by omega))
    · rw [if_neg h]
      push Not at h
      simp only [true_iff]
      exact ⟨0, by omega, by rw [pow_zero, pow_one, Nat.mod_eq_of_lt hy, h]⟩

theorem mrRound_iff (n s d a : Nat) (hn : 3 ≤ n) (hs : 1 ≤ s) :
    mrRound n s d a = true ↔ (a ^ d % n = 1 ∨ ∃ j < s, a ^ (2 ^ j * d) % n = n - 1) := by
  unfold mrRound
  have e : powMod a d n = a ^ d % n := powMod_eq _ _ _ (by omega)
  have step : ∀ j, a ^ (2 ^ j * d) % n = (a ^ d % n) ^ 2 ^ j % n := by
    intro j
    rw [mul_comm, pow_mul, Nat.pow_mod (a ^ d)]
  simp only [e]
  by_cases h : a ^ d % n ≠ 1 ∧ a ^ d % n ≠ n - 1
  · rw [if_pos h, mrInner_iff n hn _ _ (Nat.mod_lt _ (by omega))]
    constructor
    · rintro ⟨j, hj, h'⟩
      exact Or.inr ⟨j, by omega, by rw [step]; exact h'⟩
    · rintro (h' | ⟨j, hj, h'⟩)
      · exact absurd h' h.1
      · exact ⟨j, by omega, by rw [← step]; exact h'⟩
  · rw [if_neg h]
    simp only [true_iff]
    by_cases h1 : a ^ d % n = 1
    · exact Or.inl h1
    · right
      refine ⟨0, by omega, ?_⟩
      rw [pow_zero, one_mul]
      by_contra h2
      exact h ⟨h1, h2⟩

/-- The splitting of `n - 1` is unique. -/
theorem two_pow_split (s s' d d' : Nat) (hd : d % 2 = 1) (hd' : d' % 2 = 1)
    (h : 2 ^ s * d = 2 ^ s' * d') : s = s' ∧ d = d' := by
  induction s generalizing s' with
  | zero =>
    cases s' with
    | zero => exact ⟨rfl, by simpa using h⟩
    | succ k => rw [pow_zero, one_mul, pow_succ, mul_assoc, mul_comm, mul_assoc] at h; omega
  | succ k ih =>
    cases s' with
    | zero => rw [pow_zero, one_mul, pow_succ, mul_assoc, mul_comm, mul_assoc] at h; omega
    | succ k' =>
      have : 2 ^ k * d = 2 ^ k' * d' := by
        rw [pow_succ, pow_succ, mul_comm _ 2, mul_comm _ 2, mul_assoc, mul_assoc] at h
        omega
      obtain ⟨h1, h2⟩ := ih k' this
      exact ⟨by omega, h2⟩

theorem strongProbablePrime_iff (n s d a : Nat) (hd : d % 2 = 1) (h : 2 ^ s * d = n - 1) :
    StrongProbablePrime n a ↔ (a ^ d % n = 1 ∨ ∃ j < s, a ^ (2 ^ j * d) % n = n - 1) := by
  constructor
  · rintro ⟨s', d', h1, h2, h3⟩
    obtain ⟨rfl, rfl⟩ := two_pow_split s s' d d' hd h1 (h.trans h2.symm)
    exact h3
  · intro h3
    exact ⟨s, d, hd, h, h3⟩

/-! ## The theorems -/

/-- C144: a number above 1229 is accepted if and only if it has no prime factor up to 11 and is a
strong probable prime to the first `basesFor bits` primes, where `bits = 1 + int(log2 n)`. -/
theorem C144_exact (lg : Nat → Nat) (n : Nat) (hn : 1229 < n) :
    isPrime lg n = true ↔ Nat.Coprime n (2 * 3 * 5 * 7 * 11) ∧
      ∀ q : Nat, q.Prime → Nat.count Nat.Prime q < basesFor (1 + lg n) → StrongProbablePrime n q := by
  unfold isPrime
  rw [if_neg (by omega), gcd2_eq _ _ (by omega) (by norm_num)]
  have h1 : Int.gcd (n : Int) 2310 = Nat.gcd n 2310 := rfl
  rw [h1]
  by_cases hc : Nat.gcd n 2310 = 1
  · have hc' : Nat.Coprime n (2 * 3 * 5 * 7 * 11) := hc
    rw [hc]
    simp only [Nat.cast_one, ne_eq, not_true_eq_false, if_false, Int.toNat_natCast]
    rw [and_iff_right hc']
    obtain ⟨_, h2, h3⟩ := splitTwos_spec (n - 1) (n - 1) 0 (by omega) le_rfl
    rw [Nat.sub_zero] at h2
    have hs : 1 ≤ (splitTwos (n - 1) (n - 1) 0).1 := by
      by_contra h0
      have hs0 : (splitTwos (n - 1) (n - 1) 0).1 = 0 := by omega
      rw [hs0, pow_zero, one_mul] at h2
      have : ¬ 2 ∣ n := by
        intro hd
        have : 2 ∣ Nat.gcd n 2310 := Nat.dvd_gcd hd (by norm_num)
        rw [hc] at this
        omega
      omega
    rw [List.all_eq_true, rounds_basesFor]
    constructor
    · intro h q hq hlt
      have := h q ((mem_take_basesFor _ q).2 ⟨hq, hlt⟩)
      rw [mrRound_iff n _ _ q (by omega) hs] at this
      exact (strongProbablePrime_iff n _ _ q h3 h2).2 this
    · intro h q hq
      rw [mem_take_basesFor] at hq
      rw [mrRound_iff n _ _ q (by omega) hs]
      exact (strongProbablePrime_iff n _ _ q h3 h2).1 (h q hq.1 hq.2)
  · rw [if_pos (by exact_mod_cast hc)]
    constructor
    · intro h; cases h
    · rintro ⟨h, _⟩; exact absurd h hc

/-- C144: whatever is accepted passes Fermat's test to every base used; in particular
`2^(n-1) = 1` and `3^(n-1) = 1` modulo `n`. -/
theorem C144_fermat (lg : Nat → Nat) (n : Nat) (hn : 1229 < n) (h : isPrime lg n = true) (q : Nat)
    (hq : q.Prime) (hlt : Nat.count Nat.Prime q < basesFor (1 + lg n)) : q ^ (n - 1) % n = 1 := by
  obtain ⟨s, d, h1, h2, h3⟩ := ((C144_exact lg n hn).1 h).2 q hq hlt
  have hone : 1 % n = 1 := Nat.mod_eq_of_lt (by omega)
  rcases h3 with h3 | ⟨j, hj, h3⟩
  · rw [← h2, mul_comm, pow_mul, Nat.pow_mod, h3, one_pow, hone]
  · have e : 2 ^ s * d = 2 ^ j * d * 2 * 2 ^ (s - j - 1) := by
      have : s = j + 1 + (s - j - 1) := by omega
      conv_lhs => rw [this, pow_add, pow_succ]
      ring
    have hsq : (n - 1) ^ 2 % n = 1 := by
      obtain ⟨m, rfl⟩ : ∃ m, n = m + 2 := ⟨n - 2, by omega⟩
      have : (m + 2 - 1) ^ 2 = 1 + (m + 2) * m := by
        rw [show m + 2 - 1 = m + 1 by omega]; ring
      rw [this, Nat.add_mul_mod_self_left, hone]
    rw [← h2, e, pow_mul, pow_mul, Nat.pow_mod, Nat.pow_mod (q ^ (2 ^ j * d)), h3, hsq, one_pow, hone]

/-- C144: the bases 2 and 3 are used for every number above 1229, and never more than the first 40. -/
theorem C144_bases (bits : Nat) : 2 ≤ basesFor bits ∧ basesFor bits ≤ 40 := by
  have h := basesFor_cases bits
  generalize basesFor bits = t at *
  revert h t
  decide

/-- A factor of the number below; not known to the theorems to be prime. -/
def foolP : Nat := 8071906224349915195423957317170629350066329304240845232564317323632550830344711105029117160871757387360264849839206109931482921686709399285891071083875851994691875553225392647442741878032677898501

/-- A product of two numbers that `is_prime` takes for a prime.  (Found by searching for
`p (2 p - 1)` that is a strong probable prime to the bases 2 and 3.) -/
def foolN : Nat := foolP * (2 * foolP - 1)

/-- The number has 1303 binary digits: `log2` of it is between 1302 and 1303, away from both. -/
example : Nat.log2 foolN = 1302 ∧ 2 ^ 1302 + 2 ^ 1300 < foolN ∧ foolN + 2 ^ 1301 < 2 ^ 1303 := by decide +kernel

theorem foolN_not_prime : ¬ foolN.Prime :=
  Nat.not_prime_mul (by decide +kernel) (by decide +kernel)

/-- Acceptance of a number for which two bases are used, as two runs of the loop body. -/
theorem accepted_two (lg : Nat → Nat) (n s d : Nat) (hn : 1229 < n) (hc : Nat.Coprime n 2310)
    (hl : basesFor (1 + lg n) = 2) (hs : 1 ≤ s) (hd : d % 2 = 1) (h : 2 ^ s * d = n - 1)
    (h2 : mrRound n s d 2 = true) (h3 : mrRound n s d 3 = true) : isPrime lg n = true := by
  rw [C144_exact lg n hn]
  refine ⟨hc, fun q hq hlt => ?_⟩
  have hm := (mem_take_basesFor _ q).2 ⟨hq, hlt⟩
  rw [hl] at hm
  have e : smallprimes.take 2 = [2, 3] := rfl
  rw [e] at hm
  have hq' : q = 2 ∨ q = 3 := by simpa using hm
  rw [strongProbablePrime_iff n s d q hd h, ← mrRound_iff n s d q (by omega) hs]
  rcases hq' with rfl | rfl
  · exact h2
  · exact h3

theorem foolN_checks : 1229 < foolN ∧ Nat.Coprime foolN 2310 ∧ ((foolN - 1) / 4) % 2 = 1 ∧
    2 ^ 2 * ((foolN - 1) / 4) = foolN - 1 ∧ mrRound foolN 2 ((foolN - 1) / 4) 2 = true ∧
    mrRound foolN 2 ((foolN - 1) / 4) 3 = true := by decide +kernel

theorem foolN_factorSmall : factorSmall smallprimes foolN [] = (foolN, []) := by decide +kernel

theorem foolN_accepted (lg : Nat → Nat) (h : lg foolN = 1302) : isPrime lg foolN = true := by
  obtain ⟨h1, h2, h3, h4, h5, h6⟩ := foolN_checks
  generalize foolN = n at *
  exact accepted_two lg n 2 ((n - 1) / 4) h1 h2 (by rw [h]; rfl) (by norm_num) h3 h4 h5 h6

/-- C144 is false as stated: a product of two numbers of 651 and 652 bits is accepted, whatever the
logarithm returns for other numbers. -/
theorem C144_prime_false (lg : Nat → Nat) (h : lg foolN = 1302) :
    ¬ ∀ n : Nat, isPrime lg n = true → n.Prime :=
  fun h' => foolN_not_prime (h' foolN (foolN_accepted lg h))

/-- C144: `next_prime` then returns a number that is not prime. -/
theorem C144_next_false (lg : Nat → Nat) (h : lg foolN = 1302) :
    ¬ ∀ (x r : Int) fuel, nextPrime lg fuel x = some r → r.toNat.Prime := by
  intro h'
  have h1 : nextPrime lg 1 ((foolN : Int) - 1) = some (foolN : Int) := by
    have ha := foolN_accepted lg h
    obtain ⟨g1, -, -, g4, -⟩ := foolN_checks
    generalize foolN = n at *
    unfold nextPrime
    rw [if_neg (by omega), if_neg (by omega)]
    unfold nextPrimeLoop
    rw [show (n : Int) - 1 + 1 = n by ring, ha, if_pos rfl]
  have := h' _ _ _ h1
  rw [Int.toNat_natCast] at this
  exact foolN_not_prime this

/-- C144: `factorization` returns the number itself as its only prime factor, and `phi` is wrong. -/
theorem C144_factorization_false (lg : Nat → Nat) (h : lg foolN = 1302) :
    factorization lg foolN = [(foolN, 1)] ∧ phi lg foolN ≠ Nat.totient foolN := by
  have ha := foolN_accepted lg h
  have hp := foolN_not_prime
  have g1 := foolN_checks.1
  have e := foolN_factorSmall
  generalize foolN = n at *
  have h1 : factorization lg n = [(n, 1)] := by
    unfold factorization
    rw [if_neg (by omega), Int.toNat_natCast, e]
    have g2 : n > 1229 := g1
    show (if n > 1229 then (if isPrime lg n then [] ++ [(n, 1)] else _) else []) = _
    rw [if_pos g2, if_pos ha]
    rfl
  refine ⟨h1, ?_⟩
  unfold phi
  rw [if_neg (by omega), h1]
  simp only [List.foldl_cons, List.foldl_nil, gt_iff_lt, lt_irrefl, if_false, one_mul]
  intro h2
  exact hp ((Nat.totient_eq_iff_prime (by omega)).1 h2.symm)

/-- What is proved of "numbers taken for primes are primes": `is_prime` is right about every number
up to 1229 and about every number that is not a strong probable prime to both 2 and 3.  Missing: composites that are, such as `foolN`. -/
theorem C144_prime_partial (lg : Nat → Nat) (n : Nat)
    (hs : n ≤ 1229 ∨ ¬ StrongProbablePrime n 2 ∨ ¬ StrongProbablePrime n 3) :
    isPrime lg n = true ↔ n.Prime := by
  refine ⟨fun h => ?_, fun h => isPrime_of_prime lg n h⟩
  by_cases hn : n ≤ 1229
  · simpa using ((isPrime_small lg n (by omega)).1 h).2
  have hx := ((C144_exact lg n (by omega)).1 h).2
  have hb := (C144_bases (1 + lg n)).1
  have c2 : Nat.count Nat.Prime 2 = 0 := by decide +kernel
  have c3 : Nat.count Nat.Prime 3 = 1 := by decide +kernel
  rcases hs with h1 | h1 | h1
  · exact absurd h1 hn
  · exact absurd (hx 2 Nat.prime_two (by omega)) h1
  · exact absurd (hx 3 Nat.prime_three (by omega)) h1

/-- 2047 = 23 * 89 is a strong probable prime to the base 2 and is refused because of the base 3. -/
example : (mrRound 2047 1 1023 2 = true ∧ mrRound 2047 1 1023 3 = false) ∧
    isPrime (fun _ => 10) 2047 = false ∧ isPrime (fun _ => 10) 2053 = true ∧
    -- a strong probable prime to 2, 3, 5 and 7 is refused because of 11
    isPrime (fun _ => 31) 3215031751 = false := by decide +kernel

end NBC.Props
