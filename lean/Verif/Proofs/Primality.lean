import Mathlib.FieldTheory.Finite.Basic
import Mathlib.Data.Nat.Totient
import Mathlib.NumberTheory.ArithmeticFunction.Carmichael
import Mathlib.Data.Nat.GCD.BigOperators
import Mathlib.GroupTheory.OrderOfElement
import Mathlib.Data.Nat.Prime.Basic
import Mathlib.Tactic.Linarith
import Mathlib.Tactic.Ring
import Verif.Proofs.Arith

/-! Lemmas on `is_prime`, `next_prime`, `factorization`, `phi`, `order_mod`, `lcm`. -/

namespace NBC.NT
open NBC

/-- Trial division by the numbers below 36, used to check the table. -/
def trial (q : Nat) : Bool :=
  decide (2 ≤ q) && (List.range 36).all (fun d => decide (d < 2) || decide (q < d * d) || decide (q % d ≠ 0))

theorem trial_iff (q : Nat) (hq : q < 1230) : trial q = true ↔ q.Prime := by
  unfold trial
  simp only [Bool.and_eq_true, decide_eq_true_eq, List.all_eq_true, List.mem_range, Bool.or_eq_true]
  rw [Nat.prime_def_le_sqrt]
  constructor
  · rintro ⟨h1, h2⟩
    refine ⟨h1, fun d hd2 hd hdvd => ?_⟩
    have hdd : d * d ≤ q := Nat.le_sqrt.1 hd
    have : d < 36 := by nlinarith
    rcases h2 d this with (h | h) | h
    · omega
    · omega
    · exact h (Nat.mod_eq_zero_of_dvd hdvd)
  · rintro ⟨h1, h2⟩
    refine ⟨h1, fun d _ => ?_⟩
    by_cases hd2 : d < 2
    · exact Or.inl (Or.inl hd2)
    · by_cases hdq : q < d * d
      · exact Or.inl (Or.inr hdq)
      · right
        intro h0
        exact h2 d (by omega) (Nat.le_sqrt.2 (by omega)) (Nat.dvd_of_mod_eq_zero h0)

theorem table_check : (List.range 1230).all (fun q => trial q == smallprimes.contains q) = true := by
  decide +kernel

theorem table_bound : smallprimes.all (fun q => decide (q < 1230)) = true := by decide +kernel

theorem table_sorted : smallprimes.Pairwise (· < ·) := by decide +kernel

theorem mem_smallprimes (q : Nat) : q ∈ smallprimes ↔ q.Prime ∧ q ≤ 1229 := by
  have hb := table_bound
  rw [List.all_eq_true] at hb
  have hc := table_check
  rw [List.all_eq_true] at hc
  constructor
  · intro h
    have h1 := hb q h
    simp only [decide_eq_true_eq] at h1
    have h2 := hc q (List.mem_range.2 h1)
    rw [beq_iff_eq, List.contains_iff_mem.2 h] at h2
    exact ⟨(trial_iff q h1).1 h2, by omega⟩
  · rintro ⟨h1, h2⟩
    have h3 := hc q (List.mem_range.2 (by omega))
    rw [beq_iff_eq, (trial_iff q (by omega)).2 h1] at h3
    exact List.contains_iff_mem.1 h3.symm

/-! ## Miller-Rabin -/

theorem splitTwos_spec : ∀ (fuel r s : Nat), 0 < r → r ≤ fuel →
    s ≤ (splitTwos fuel r s).1 ∧
    2 ^ ((splitTwos fuel r s).1 - s) * (splitTwos fuel r s).2 = r ∧ (splitTwos fuel r s).2 % 2 = 1
  | 0, r, s, h, hf => by omega
  | fuel + 1, r, s, h, hf => by
    unfold splitTwos
    split
    · rename_i h0
      obtain ⟨h1, h2, h3⟩ := splitTwos_spec fuel (r / 2) (s + 1) (by omega) (by omega)
      refine ⟨by omega, ?_, h3⟩
      have e : (splitTwos fuel (r / 2) (s + 1)).1 - s =
        (splitTwos fuel (r / 2) (s + 1)).1 - (s + 1) + 1 := by omega
      rw [e, pow_succ, mul_assoc, mul_comm 2, ← mul_assoc, h2]; omega
    · exact ⟨le_rfl, by simp, by omega⟩

theorem sq_one_cases (n : Nat) [Fact n.Prime] (y : ZMod n) (h : y ^ 2 = 1) : y = 1 ∨ y = -1 := by
  have : (y - 1) * (y + 1) = 0 := by linear_combination h
  rcases mul_eq_zero.1 this with h | h
  · left; linear_combination h
  · right; linear_combination h

theorem cast_eq_one (n y : Nat) (hy : y < n) (hn : 2 ≤ n) (h : (y : ZMod n) = 1) : y = 1 := by
  have : (y : ZMod n) = ((1 : Nat) : ZMod n) := by simpa using h
  rw [ZMod.natCast_eq_natCast_iff'] at this
  rwa [Nat.mod_eq_of_lt hy, Nat.mod_eq_of_lt (by omega)] at this

theorem cast_eq_neg_one (n y : Nat) (hy : y < n) (hn : 2 ≤ n) (h : (y : ZMod n) = -1) :
    y = n - 1 := by
  have : (y : ZMod n) = ((n - 1 : Nat) : ZMod n) := by
    rw [h, Nat.cast_sub (by omega)]; simp
  rw [ZMod.natCast_eq_natCast_iff'] at this
  rwa [Nat.mod_eq_of_lt hy, Nat.mod_eq_of_lt (by omega)] at this

theorem cast_powMod (n b e : Nat) (hn : 0 < n) : ((powMod b e n : Nat) : ZMod n) = (b : ZMod n) ^ e := by
  rw [powMod_eq _ _ _ hn, ZMod.natCast_mod]; push_cast; rfl

theorem mrInner_prime (n : Nat) [hp : Fact n.Prime] : ∀ (fuel y : Nat), y < n → y ≠ 1 →
    (y : ZMod n) ^ (2 ^ (fuel + 1)) = 1 → mrInner n fuel y = true
  | 0, y, hy, h1, h => by
    have hn := hp.out.two_le
    unfold mrInner
    rcases sq_one_cases n (y : ZMod n) (by simpa using h) with h' | h'
    · exact absurd (cast_eq_one n y hy hn h') h1
    · simp [cast_eq_neg_one n y hy hn h']
  | fuel + 1, y, hy, h1, h => by
    have hn := hp.out.two_le
    unfold mrInner
    by_cases hy1 : y ≠ n - 1
    · rw [if_pos hy1]
      have hlt : powMod y 2 n < n := by rw [powMod_eq _ _ _ (by omega)]; exact Nat.mod_lt _ (by omega)
      have hne : powMod y 2 n ≠ 1 := by
        intro h2
        have h3 := cast_powMod n y 2 (by omega)
        rw [h2, Nat.cast_one] at h3
        rcases sq_one_cases n (y : ZMod n) h3.symm with h' | h'
        · exact h1 (cast_eq_one n y hy hn h')
        · exact hy1 (cast_eq_neg_one n y hy hn h')
      simp only [hne, if_false]
      apply mrInner_prime n fuel _ hlt hne
      rw [cast_powMod n y 2 (by omega), ← pow_mul, ← pow_succ']
      exact h
    · rw [if_neg hy1]

theorem mrRound_prime (n s r a : Nat) [hp : Fact n.Prime] (hs : 1 ≤ s) (hn : 2 ^ s * r = n - 1)
    (ha : ¬ n ∣ a) : mrRound n s r a = true := by
  have hn2 := hp.out.two_le
  unfold mrRound
  simp only
  split
  · rename_i h
    have hlt : powMod a r n < n := by rw [powMod_eq _ _ _ (by omega)]; exact Nat.mod_lt _ (by omega)
    apply mrInner_prime n _ _ hlt h.1
    rw [cast_powMod n a r (by omega), ← pow_mul, show s - 1 + 1 = s by omega,
      mul_comm r, hn]
    apply ZMod.pow_card_sub_one_eq_one
    intro h0
    exact ha ((ZMod.natCast_eq_zero_iff _ _).1 h0)
  · rfl

theorem isPrime_small (lg : Nat → Nat) (n : Int) (hn : n ≤ 1229) :
    isPrime lg n = true ↔ 0 ≤ n ∧ n.toNat.Prime := by
  unfold isPrime
  rw [if_pos hn, List.any_eq_true]
  constructor
  · rintro ⟨q, hq, he⟩
    rw [beq_iff_eq] at he
    subst he
    exact ⟨by omega, by simpa using ((mem_smallprimes q).1 hq).1⟩
  · rintro ⟨h0, hp⟩
    exact ⟨n.toNat, (mem_smallprimes _).2 ⟨hp, by omega⟩, by rw [beq_iff_eq]; omega⟩

theorem isPrime_of_prime (lg : Nat → Nat) (n : Nat) (hp : n.Prime) : isPrime lg n = true := by
  by_cases hn : (n : Int) ≤ 1229
  · exact (isPrime_small lg n hn).2 ⟨by omega, by simpa using hp⟩
  · unfold isPrime
    rw [if_neg hn]
    have hg : gcd2 (n : Int) 2310 = 1 := by
      rw [gcd2_eq _ _ (by omega) (by norm_num)]
      have h1 : Int.gcd (n : Int) 2310 = Nat.gcd n 2310 := rfl
      rw [h1]
      have : Nat.Coprime n 2310 := by
        rw [Nat.Prime.coprime_iff_not_dvd hp]
        intro hd
        have e : 2310 = 2 * (3 * (5 * (7 * 11))) := by norm_num
        rw [e] at hd
        have key : n ≤ 11 := by
          rcases hp.dvd_mul.1 hd with h | h
          · exact (Nat.le_of_dvd (by norm_num) h).trans (by norm_num)
          rcases hp.dvd_mul.1 h with h | h
          · exact (Nat.le_of_dvd (by norm_num) h).trans (by norm_num)
          rcases hp.dvd_mul.1 h with h | h
          · exact (Nat.le_of_dvd (by norm_num) h).trans (by norm_num)
          rcases hp.dvd_mul.1 h with h | h
          · exact (Nat.le_of_dvd (by norm_num) h).trans (by norm_num)
          · exact Nat.le_of_dvd (by norm_num) h
        omega
      exact_mod_cast this
    rw [hg]
    simp only [ne_eq, not_true_eq_false, if_false, Int.toNat_natCast]
    have hn3 : 1229 < n := by omega
    obtain ⟨_, h2, h3⟩ := splitTwos_spec (n - 1) (n - 1) 0 (by omega) le_rfl
    rw [Nat.sub_zero] at h2
    rw [List.all_eq_true]
    intro a ha
    have ha' := (mem_smallprimes a).1 (List.mem_of_mem_take ha)
    have : Fact n.Prime := ⟨hp⟩
    apply mrRound_prime n _ _ a _ h2
    · intro hd
      exact absurd (Nat.le_of_dvd ha'.1.pos hd) (by omega)
    · by_contra h0
      have hs0 : (splitTwos (n - 1) (n - 1) 0).1 = 0 := by omega
      rw [hs0, pow_zero, one_mul] at h2
      rcases hp.eq_two_or_odd with h | h <;> omega

/-- What acceptance guarantees without any appeal to probability. -/
theorem isPrime_true (lg : Nat → Nat) (n : Int) (h : isPrime lg n = true) :
    2 ≤ n ∧ (n ≤ 1229 → n.toNat.Prime) ∧ (1229 < n → Int.gcd n 2310 = 1) := by
  by_cases hn : n ≤ 1229
  · have := (isPrime_small lg n hn).1 h
    have h2 := this.2.two_le
    exact ⟨by omega, fun _ => this.2, fun h' => by omega⟩
  · refine ⟨by omega, fun h' => absurd h' hn, fun _ => ?_⟩
    unfold isPrime at h
    rw [if_neg hn] at h
    by_cases hg : gcd2 n 2310 ≠ 1
    · rw [if_pos hg] at h; cases h
    · push Not at hg
      rw [gcd2_eq _ _ (by omega) (by norm_num)] at hg
      exact_mod_cast hg

/-! ## next_prime -/

theorem nextPrimeLoop_spec (lg : Nat → Nat) : ∀ (fuel : Nat) (r0 r : Int), r0 % 2 = 1 → 3 ≤ r0 →
    nextPrimeLoop lg fuel r0 = some r → r0 ≤ r ∧ isPrime lg r = true ∧
      ∀ q : Nat, q.Prime → r0 ≤ q → (q : Int) < r → False
  | 0, r0, r, _, _, h => by simp [nextPrimeLoop] at h
  | fuel + 1, r0, r, hodd, h3, h => by
    unfold nextPrimeLoop at h
    by_cases hp : isPrime lg r0 = true
    · rw [if_pos hp] at h
      cases h
      exact ⟨le_rfl, hp, fun q _ _ _ => by omega⟩
    · rw [if_neg hp] at h
      obtain ⟨h1, h2, h4⟩ := nextPrimeLoop_spec lg fuel (r0 + 2) r (by omega) (by omega) h
      refine ⟨by omega, h2, fun q hq hq1 hq2 => ?_⟩
      by_cases h5 : r0 + 2 ≤ q
      · exact h4 q hq h5 hq2
      · have h6 : (q : Int) = r0 ∨ (q : Int) = r0 + 1 := by omega
        rcases h6 with h6 | h6
        · exact hp (h6 ▸ isPrime_of_prime lg q hq)
        · rcases hq.eq_two_or_odd with h7 | h7 <;> omega

/-- Termination: there is a prime above every number, so a large enough bound suffices. -/
theorem nextPrimeLoop_terminates (lg : Nat → Nat) : ∀ (k : Nat) (r0 : Int),
    isPrime lg (r0 + 2 * k) = true → ∀ fuel, k < fuel → ∃ r, nextPrimeLoop lg fuel r0 = some r
  | _, r0, _, 0, hf => by omega
  | 0, r0, h, fuel + 1, hf => by
    refine ⟨r0, ?_⟩
    unfold nextPrimeLoop
    simp only [Nat.cast_zero, mul_zero, add_zero] at h
    rw [if_pos h]
  | k + 1, r0, h, fuel + 1, hf => by
    unfold nextPrimeLoop
    split
    · exact ⟨_, rfl⟩
    · apply nextPrimeLoop_terminates lg k (r0 + 2) _ fuel (by omega)
      rw [← h]; congr 1; push_cast; ring

/-! ## factorization -/

/-- Product of a list of `(base, exponent)` pairs. -/
def prodPow (l : List (Nat × Nat)) : Nat := (l.map (fun f => f.1 ^ f.2)).prod

theorem prodPow_append (l m : List (Nat × Nat)) : prodPow (l ++ m) = prodPow l * prodPow m := by
  simp [prodPow]

theorem prodPow_single (a b : Nat) : prodPow [(a, b)] = a ^ b := by simp [prodPow]

theorem smallCount_spec (d : Nat) (hd : 2 ≤ d) : ∀ (fuel n q count : Nat), 0 < n → n = q * d →
    n ≤ fuel → count ≤ (smallCount d fuel n q count).2 ∧
    (smallCount d fuel n q count).1 * d ^ ((smallCount d fuel n q count).2 - count + 1) = n ∧
    ¬ d ∣ (smallCount d fuel n q count).1
  | 0, n, q, count, h0, _, hf => by omega
  | fuel + 1, n, q, count, h0, hq, hf => by
    have hq0 : 0 < q := by rcases Nat.eq_zero_or_pos q with h | h; · simp [h] at hq; omega
                           · exact h
    have hdn : d ≤ n := by rw [hq]; exact Nat.le_mul_of_pos_left d hq0
    unfold smallCount
    rw [if_pos hdn]
    simp only
    by_cases hr : q % d ≠ 0
    · rw [if_pos hr]
      refine ⟨le_rfl, by simp [← hq], fun h => hr (Nat.mod_eq_zero_of_dvd h)⟩
    · rw [if_neg hr]
      push Not at hr
      have hq' : q = q / d * d := by rw [Nat.div_mul_cancel (Nat.dvd_of_mod_eq_zero hr)]
      have hqn : q < n := by rw [hq]; nlinarith
      obtain ⟨h1, h2, h3⟩ := smallCount_spec d hd fuel q (q / d) (count + 1) hq0 hq' (by omega)
      refine ⟨by omega, ?_, h3⟩
      have e : (smallCount d fuel q (q / d) (count + 1)).2 - count + 1 =
        ((smallCount d fuel q (q / d) (count + 1)).2 - (count + 1) + 1) + 1 := by omega
      rw [e, pow_succ, ← mul_assoc, h2, hq]

theorem bigCount_spec (d : Nat) (hd : 2 ≤ d) : ∀ (fuel n count : Nat), 0 < n → n ≤ fuel →
    count ≤ (bigCount d fuel n count).2 ∧
    (bigCount d fuel n count).1 * d ^ ((bigCount d fuel n count).2 - count) = n ∧
    ¬ d ∣ (bigCount d fuel n count).1
  | 0, n, count, h0, hf => by omega
  | fuel + 1, n, count, h0, hf => by
    unfold bigCount
    by_cases hdn : d ≤ n
    · rw [if_pos hdn]
      by_cases hr : n % d ≠ 0
      · rw [if_pos hr]
        exact ⟨le_rfl, by simp, fun h => hr (Nat.mod_eq_zero_of_dvd h)⟩
      · rw [if_neg hr]
        push Not at hr
        have hlt : n / d < n := Nat.div_lt_self h0 (by omega)
        have hpos : 0 < n / d := Nat.div_pos hdn (by omega)
        obtain ⟨h1, h2, h3⟩ := bigCount_spec d hd fuel (n / d) (count + 1) hpos (by omega)
        refine ⟨by omega, ?_, h3⟩
        have e : (bigCount d fuel (n / d) (count + 1)).2 - count =
          ((bigCount d fuel (n / d) (count + 1)).2 - (count + 1)) + 1 := by omega
        rw [e, pow_succ, ← mul_assoc, h2, Nat.div_mul_cancel (Nat.dvd_of_mod_eq_zero hr)]
    · rw [if_neg hdn]
      exact ⟨le_rfl, by simp, fun h => hdn (Nat.le_of_dvd h0 h)⟩

/-- Shape of a finished part of the result: strictly increasing prime bases below `b`, positive
exponents. -/
structure Good (l : List (Nat × Nat)) : Prop where
  sorted : l.Pairwise (fun f g => f.1 < g.1)
  prime : ∀ f ∈ l, f.1.Prime ∧ 1 ≤ f.2

theorem Good.snoc {l : List (Nat × Nat)} (h : Good l) {d e : Nat} (hd : d.Prime) (he : 1 ≤ e)
    (hl : ∀ f ∈ l, f.1 < d) : Good (l ++ [(d, e)]) := by
  constructor
  · rw [List.pairwise_append]
    refine ⟨h.sorted, List.pairwise_singleton _ _, fun a ha b hb => ?_⟩
    simp only [List.mem_singleton] at hb
    subst hb; exact hl a ha
  · intro f hf
    rcases List.mem_append.1 hf with h' | h'
    · exact h.prime f h'
    · simp only [List.mem_singleton] at h'; subst h'; exact ⟨hd, he⟩

theorem factorSmall_spec : ∀ (ds : List Nat) (n : Nat) (res : List (Nat × Nat)), 0 < n → Good res →
    ds.Pairwise (· < ·) → (∀ d ∈ ds, d.Prime ∧ d ≤ 1229) → (∀ f ∈ res, f.1 ≤ 1229 ∧ ∀ d ∈ ds, f.1 < d) →
    (∀ q, q.Prime → q ∣ n → q ∈ ds ∨ 1229 < q) →
    0 < (factorSmall ds n res).1 ∧ Good (factorSmall ds n res).2 ∧
    prodPow (factorSmall ds n res).2 * (factorSmall ds n res).1 = prodPow res * n ∧
    (∀ f ∈ (factorSmall ds n res).2, f.1 ≤ 1229) ∧
    (∀ q, q.Prime → q ∣ (factorSmall ds n res).1 → 1229 < q)
  | [], n, res, h0, hg, _, _, hres, hq => by
    unfold factorSmall
    exact ⟨h0, hg, rfl, fun f hf => (hres f hf).1, fun q h1 h2 => by simpa using hq q h1 h2⟩
  | d :: ds, n, res, h0, hg, hs, hds, hres, hq => by
    have hdp := hds d (by simp)
    rw [List.pairwise_cons] at hs
    unfold factorSmall
    by_cases hdn : d > n
    · rw [if_pos hdn]
      refine ⟨h0, hg, rfl, fun f hf => (hres f hf).1, fun q h1 h2 => ?_⟩
      have hqn := Nat.le_of_dvd h0 h2
      rcases hq q h1 h2 with h3 | h3
      · rcases List.mem_cons.1 h3 with h4 | h4
        · omega
        · have := hs.1 q h4; omega
      · exact h3
    rw [if_neg hdn]
    by_cases hr : n % d = 0
    · rw [if_pos hr]
      obtain ⟨c1, c2, c3⟩ := smallCount_spec d hdp.1.two_le n n (n / d) 1 h0
        (Nat.div_mul_cancel (Nat.dvd_of_mod_eq_zero hr)).symm le_rfl
      simp only
      set n' := (smallCount d n n (n / d) 1).1
      set c := (smallCount d n n (n / d) 1).2
      have hc : c - 1 + 1 = c := by omega
      rw [hc] at c2
      have hn' : 0 < n' := by
        rcases Nat.eq_zero_or_pos n' with h | h
        · rw [h, zero_mul] at c2; omega
        · exact h
      have ih := factorSmall_spec ds n' (res ++ [(d, c)]) hn'
        (hg.snoc hdp.1 c1 (fun f hf => (hres f hf).2 d (by simp))) hs.2
        (fun x hx => hds x (by simp [hx])) (by
          intro f hf
          rcases List.mem_append.1 hf with h | h
          · exact ⟨(hres f h).1, fun x hx => (hres f h).2 x (by simp [hx])⟩
          · simp only [List.mem_singleton] at h; subst h
            exact ⟨hdp.2, fun x hx => hs.1 x hx⟩) (by
          intro q h1 h2
          rcases hq q h1 (c2 ▸ Dvd.dvd.mul_right h2 _) with h3 | h3
          · rcases List.mem_cons.1 h3 with h4 | h4
            · subst h4; exact absurd h2 c3
            · exact Or.inl h4
          · exact Or.inr h3)
      refine ⟨ih.1, ih.2.1, ?_, ih.2.2.2⟩
      rw [ih.2.2.1, prodPow_append, prodPow_single, mul_assoc, mul_comm (d ^ c), c2]
    · rw [if_neg hr]
      apply factorSmall_spec ds n res h0 hg hs.2 (fun x hx => hds x (by simp [hx]))
        (fun f hf => ⟨(hres f hf).1, fun x hx => (hres f hf).2 x (by simp [hx])⟩)
      intro q h1 h2
      rcases hq q h1 h2 with h3 | h3
      · rcases List.mem_cons.1 h3 with h4 | h4
        · subst h4; exact absurd (Nat.mod_eq_zero_of_dvd h2) hr
        · exact Or.inl h4
      · exact Or.inr h3

theorem factorBig_spec : ∀ (fuel d n : Nat) (res : List (Nat × Nat)), 0 < n → Good res → 3 ≤ d → d % 2 = 1 →
    n < d + fuel → (∀ f ∈ res, f.1 ≤ d) → (∀ q, q.Prime → q ∣ n → d < q) →
    0 < (factorBig fuel d n res).1 ∧ Good (factorBig fuel d n res).2 ∧
    prodPow (factorBig fuel d n res).2 * (factorBig fuel d n res).1 = prodPow res * n ∧
    ((factorBig fuel d n res).1 = 1 ∨ (factorBig fuel d n res).1.Prime ∧
      ∀ f ∈ (factorBig fuel d n res).2, f.1 < (factorBig fuel d n res).1)
  | 0, d, n, res, h0, hg, hd, _, hf, hres, hq => by
    unfold factorBig
    refine ⟨h0, hg, rfl, Or.inl ?_⟩
    by_contra h1
    obtain ⟨q, hq1, hq2⟩ := Nat.exists_prime_and_dvd h1
    have := hq q hq1 hq2
    have := Nat.le_of_dvd h0 hq2
    omega
  | fuel + 1, d, n, res, h0, hg, hd, hodd, hf, hres, hq => by
    -- no prime factor equals d + 1 since that is even
    have hq' : ∀ q, q.Prime → q ∣ n → d + 2 ≤ q := by
      intro q h1 h2
      have := hq q h1 h2
      rcases h1.eq_two_or_odd with h | h <;> omega
    unfold factorBig
    simp only
    by_cases hqd : n / (d + 2) < d + 2
    · rw [if_pos hqd]
      refine ⟨h0, hg, rfl, ?_⟩
      have hsq : n < (d + 2) * (d + 2) := (Nat.div_lt_iff_lt_mul (by omega)).1 hqd
      by_cases h1 : n = 1
      · exact Or.inl h1
      · right
        have hmf := hq' n.minFac (Nat.minFac_prime h1) (Nat.minFac_dvd n)
        have hpr : n.Prime := by
          by_contra hnp
          have := Nat.minFac_sq_le_self h0 hnp
          nlinarith
        refine ⟨hpr, fun f hfm => ?_⟩
        have := hres f hfm
        have := hq' n hpr dvd_rfl
        omega
    rw [if_neg hqd]
    by_cases hr : n % (d + 2) = 0
    · rw [if_pos hr]
      have hdvd := Nat.dvd_of_mod_eq_zero hr
      have hdn : d + 2 ≤ n := Nat.le_of_dvd h0 hdvd
      have hpos : 0 < n / (d + 2) := Nat.div_pos hdn (by omega)
      have hle : n / (d + 2) ≤ n := Nat.div_le_self _ _
      obtain ⟨c1, c2, c3⟩ := bigCount_spec (d + 2) (by omega) n (n / (d + 2)) 1 hpos hle
      set n' := (bigCount (d + 2) n (n / (d + 2)) 1).1
      set c := (bigCount (d + 2) n (n / (d + 2)) 1).2
      have hdp : (d + 2).Prime := by
        rw [Nat.prime_def_minFac]
        refine ⟨by omega, ?_⟩
        have h1 : d + 2 ≠ 1 := by omega
        have := hq' _ (Nat.minFac_prime h1) ((Nat.minFac_dvd _).trans hdvd)
        have := Nat.minFac_le (n := d + 2) (by omega)
        omega
      have hfull : n' * (d + 2) ^ c = n := by
        have : (d + 2) ^ c = (d + 2) ^ (c - 1) * (d + 2) := by
          rw [← pow_succ]; congr 1; omega
        rw [this, ← mul_assoc, c2, Nat.div_mul_cancel hdvd]
      have hn' : 0 < n' := by
        rcases Nat.eq_zero_or_pos n' with h | h
        · rw [h, zero_mul] at hfull; omega
        · exact h
      have hn'le : n' ≤ n := by rw [← hfull]; exact Nat.le_mul_of_pos_right _ (by positivity)
      have ih := factorBig_spec fuel (d + 2) n' (res ++ [(d + 2, c)]) hn'
        (hg.snoc hdp c1 (fun f hf => by have := hres f hf; omega)) (by omega) (by omega) (by omega) (by
          intro f hf
          rcases List.mem_append.1 hf with h | h
          · have := hres f h; omega
          · simp only [List.mem_singleton] at h; subst h; exact le_rfl) (by
          intro q h1 h2
          have h3 := hq' q h1 (hfull ▸ Dvd.dvd.mul_right h2 _)
          rcases Nat.eq_or_lt_of_le h3 with h4 | h4
          · rw [← h4] at h2; exact absurd h2 c3
          · exact h4)
      refine ⟨ih.1, ih.2.1, ?_, ih.2.2.2⟩
      rw [ih.2.2.1, prodPow_append, prodPow_single, mul_assoc, mul_comm ((d + 2) ^ c), hfull]
    · rw [if_neg hr]
      apply factorBig_spec fuel (d + 2) n res h0 hg (by omega) (by omega) (by omega)
        (fun f hf => by have := hres f hf; omega)
      intro q h1 h2
      have h3 := hq' q h1 h2
      rcases Nat.eq_or_lt_of_le h3 with h4 | h4
      · rw [← h4] at h2; exact absurd (Nat.mod_eq_zero_of_dvd h2) hr
      · exact h4

/-- Everything about `factorization`. -/
theorem factorization_spec (lg : Nat → Nat) (n : Nat) (hn : 1 ≤ n) :
    prodPow (factorization lg n) = n ∧
    (factorization lg n).Pairwise (fun f g => f.1 < g.1) ∧
    (∀ f ∈ factorization lg n, 2 ≤ f.1 ∧ 1 ≤ f.2) ∧
    (Good (factorization lg n) ∨ ∃ (l : List (Nat × Nat)) (m : Nat), factorization lg n = l ++ [(m, 1)] ∧ Good l ∧ 1229 < m ∧
      isPrime lg m = true) := by
  have weak : ∀ l, Good l → ∀ f ∈ l, 2 ≤ f.1 ∧ 1 ≤ f.2 := fun l h f hf =>
    ⟨(h.prime f hf).1.two_le, (h.prime f hf).2⟩
  unfold factorization
  by_cases h2 : (n : Int) < 2
  · rw [if_pos h2]
    have : n = 1 := by omega
    subst this
    exact ⟨rfl, List.Pairwise.nil, by simp, Or.inl ⟨List.Pairwise.nil, by simp⟩⟩
  rw [if_neg h2, Int.toNat_natCast]
  obtain ⟨h1, hg, hp, hb, hq⟩ := factorSmall_spec smallprimes n [] (by omega) ⟨List.Pairwise.nil, by simp⟩
    table_sorted (fun d hd => (mem_smallprimes d).1 hd) (by simp) (by
      intro q h1 h2
      by_cases h : q ≤ 1229
      · exact Or.inl ((mem_smallprimes q).2 ⟨h1, h⟩)
      · exact Or.inr (by omega))
  have hp' : prodPow (factorSmall smallprimes n []).2 * (factorSmall smallprimes n []).1 = n := by
    rw [hp]; simp [prodPow]
  simp only
  set m := (factorSmall smallprimes n []).1
  set res := (factorSmall smallprimes n []).2
  by_cases hm : m > 1229
  · rw [if_pos hm]
    by_cases hip : isPrime lg (m : Int) = true
    · rw [if_pos hip]
      have hs : (res ++ [(m, 1)]).Pairwise (fun (f g : Nat × Nat) => f.1 < g.1) := by
        rw [List.pairwise_append]
        refine ⟨hg.sorted, List.pairwise_singleton _ _, fun a ha b hb' => ?_⟩
        simp only [List.mem_singleton] at hb'
        subst hb'
        have := hb a ha
        simp only; omega
      refine ⟨by rw [prodPow_append, prodPow_single, pow_one, hp'], hs, ?_, Or.inr ⟨res, m, rfl, hg, hm, hip⟩⟩
      intro f hf
      rcases List.mem_append.1 hf with h | h
      · exact weak res hg f h
      · simp only [List.mem_singleton] at h; subst h; exact ⟨by simp only; omega, le_rfl⟩
    · rw [if_neg hip]
      obtain ⟨b1, b2, b3, b4⟩ := factorBig_spec m 1229 m res h1 hg (by norm_num) (by norm_num) (by omega)
        hb hq
      set m' := (factorBig m 1229 m res).1
      set res' := (factorBig m 1229 m res).2
      by_cases hm' : m' > 1
      · rw [if_pos hm']
        rcases b4 with b4 | ⟨b4, b5⟩
        · omega
        have g := b2.snoc b4 le_rfl b5
        refine ⟨by rw [prodPow_append, prodPow_single, pow_one, b3, hp'], g.sorted, weak _ g, Or.inl g⟩
      · rw [if_neg hm']
        have : m' = 1 := by omega
        rw [this, mul_one] at b3
        exact ⟨by rw [b3, hp'], b2.sorted, weak _ b2, Or.inl b2⟩
  · rw [if_neg hm]
    have hm1 : m = 1 := by
      by_contra hne
      obtain ⟨q, hq1, hq2⟩ := Nat.exists_prime_and_dvd hne
      have := hq q hq1 hq2
      have := Nat.le_of_dvd h1 hq2
      omega
    rw [hm1, mul_one] at hp'
    exact ⟨hp', hg.sorted, weak _ hg, Or.inl hg⟩

/-! ## phi -/

theorem totient_prodPow : ∀ (l : List (Nat × Nat)), Good l →
    Nat.totient (prodPow l) = (l.map (fun f => f.1 ^ (f.2 - 1) * (f.1 - 1))).prod
  | [], _ => by simp [prodPow]
  | f :: l, h => by
    have hs := List.pairwise_cons.1 h.sorted
    have hg : Good l := ⟨hs.2, fun g hg => h.prime g (by simp [hg])⟩
    have hf := h.prime f (by simp)
    have e : prodPow (f :: l) = f.1 ^ f.2 * prodPow l := by simp [prodPow]
    have hc : Nat.Coprime (f.1 ^ f.2) (prodPow l) := by
      apply Nat.Coprime.pow_left
      unfold prodPow
      rw [Nat.coprime_list_prod_right_iff]
      intro x hx
      obtain ⟨g, hg1, rfl⟩ := List.mem_map.1 hx
      apply Nat.Coprime.pow_right
      rw [Nat.coprime_primes hf.1 (h.prime g (by simp [hg1])).1]
      exact Nat.ne_of_lt (hs.1 g hg1)
    rw [e, Nat.totient_mul hc, Nat.totient_prime_pow hf.1 hf.2, totient_prodPow l hg]
    simp

theorem phi_fold (l : List (Nat × Nat)) (h : ∀ f ∈ l, 1 ≤ f.2) : ∀ acc : Nat,
    l.foldl (fun result f =>
      if f.2 > 1 then result * f.1 ^ (f.2 - 1) * (f.1 - 1) else result * (f.1 - 1)) acc =
    acc * (l.map (fun f => f.1 ^ (f.2 - 1) * (f.1 - 1))).prod := by
  induction l with
  | nil => intro acc; simp
  | cons f l ih =>
    intro acc
    rw [List.foldl_cons, ih (fun g hg => h g (by simp [hg]))]
    simp only [List.map_cons, List.prod_cons]
    split
    · ring
    · have : f.2 = 1 := by have := h f (by simp); omega
      rw [this]; simp; ring

/-! ## order_mod -/

theorem orderLoop_spec (x m : Int) (hm : 2 ≤ m) (k : Nat) (hk : x ^ k % m = 1)
    (hmin : ∀ j, 1 ≤ j → j < k → x ^ j % m ≠ 1) : ∀ (fuel : Nat) (z : Int) (res : Nat), 1 ≤ res →
    res ≤ k → 0 ≤ z → z < m → z = x ^ res % m → k < res + fuel →
    orderLoop x m fuel z res = some k
  | 0, z, res, h1, h2, _, _, _, h5 => by omega
  | fuel + 1, z, res, h1, h2, hz0, hzm, h4, h5 => by
    unfold orderLoop
    rcases Nat.eq_or_lt_of_le h2 with h | h
    · subst h
      rw [h4, hk]; simp
    · rw [if_pos (by rw [h4]; exact hmin res h1 h)]
      apply orderLoop_spec x m hm k hk hmin fuel _ (res + 1) (by omega) (by omega)
        (Int.emod_nonneg _ (by omega)) (Int.emod_lt_of_pos _ (by omega)) _ (by omega)
      rw [h4, pow_succ, Int.mul_emod, Int.emod_emod_of_dvd _ dvd_rfl, ← Int.mul_emod]

theorem int_pow_emod_iff (x : Int) (m : Nat) (hm : 2 ≤ m) (j : Nat) :
    x ^ j % (m : Int) = 1 ↔ (x : ZMod m) ^ j = 1 := by
  have h1 : (1 : Int) % m = 1 := Int.emod_eq_of_lt (by norm_num) (by omega)
  rw [← Int.cast_pow, ← Int.cast_one (R := ZMod m), ZMod.intCast_eq_intCast_iff', h1]

theorem exists_order (x : Int) (m : Nat) (hm : 2 ≤ m) (hg : Int.gcd x m = 1) :
    ∃ k, 1 ≤ k ∧ k ≤ m ∧ x ^ k % (m : Int) = 1 ∧ ∀ j, 1 ≤ j → j < k → x ^ j % (m : Int) ≠ 1 := by
  have hcop : IsCoprime x (m : Int) := Int.isCoprime_iff_gcd_eq_one.2 hg
  have hu : IsUnit (x : ZMod m) := by
    obtain ⟨u, v, huv⟩ := hcop
    have h := congrArg (fun z : Int => (z : ZMod m)) huv
    simp only [Int.cast_add, Int.cast_mul, Int.cast_natCast, ZMod.natCast_self, mul_zero, add_zero,
      Int.cast_one] at h
    exact IsUnit.of_mul_eq_one_right _ h
  have : NeZero m := ⟨by omega⟩
  obtain ⟨u, hu⟩ := hu
  refine ⟨orderOf u, orderOf_pos u, ?_, ?_, ?_⟩
  · refine (orderOf_le_card_univ (x := u)).trans ?_
    rw [ZMod.card_units_eq_totient]
    exact Nat.totient_le m
  · rw [int_pow_emod_iff x m hm, ← hu, ← Units.val_pow_eq_pow_val, pow_orderOf_eq_one, Units.val_one]
  · intro j hj1 hj2 h
    rw [int_pow_emod_iff x m hm, ← hu, ← Units.val_pow_eq_pow_val, Units.val_eq_one] at h
    exact absurd (orderOf_le_of_pow_eq_one (by omega) h) (by omega)

/-! ## gcd and lcm of lists -/

theorem gcdFold_spec : ∀ (l : List Int) (a : Int), 0 ≤ a → (∀ x ∈ l, 0 ≤ x) →
    0 ≤ l.foldl gcd2 a ∧ l.foldl gcd2 a ∣ a ∧ (∀ x ∈ l, l.foldl gcd2 a ∣ x) ∧
    ∀ d, d ∣ a → (∀ x ∈ l, d ∣ x) → d ∣ l.foldl gcd2 a
  | [], a, ha, _ => by simp [ha]
  | b :: l, a, ha, hl => by
    have hb := hl b (by simp)
    have e := gcd2_eq a b ha hb
    obtain ⟨h1, h2, h3, h4⟩ := gcdFold_spec l (gcd2 a b) (by rw [e]; omega)
      (fun x hx => hl x (by simp [hx]))
    rw [List.foldl_cons]
    rw [e] at h1 h2 h3 h4 ⊢
    refine ⟨h1, h2.trans (Int.gcd_dvd_left ..), ?_, ?_⟩
    · intro x hx
      rcases List.mem_cons.1 hx with h | h
      · subst h; exact h2.trans (Int.gcd_dvd_right ..)
      · exact h3 x h
    · intro d hd1 hd2
      exact h4 d (Int.dvd_coe_gcd hd1 (hd2 b (by simp))) (fun x hx => hd2 x (by simp [hx]))

theorem lcm2_spec (a b : Int) (ha : 0 ≤ a) (hb : 0 ≤ b) :
    (a = 0 ∧ b = 0 → lcm2 a b = .error .zeroDivisionError) ∧
    (¬ (a = 0 ∧ b = 0) → lcm2 a b = .ok (Int.lcm a b)) := by
  unfold lcm2
  simp only [gcd2_eq a b ha hb]
  constructor
  · rintro ⟨rfl, rfl⟩; simp
  · intro h
    have hg : Int.gcd a b ≠ 0 := by rw [Ne, Int.gcd_eq_zero_iff]; exact h
    have hg' : (Int.gcd a b : Int) ≠ 0 := by exact_mod_cast hg
    rw [if_neg hg']
    congr 1
    rw [Int.fdiv_eq_ediv_of_nonneg _ (by omega)]
    have h2 : (Int.gcd a b : Int) * Int.lcm a b = a * b := by
      have := Int.gcd_mul_lcm a b
      have h3 : ((Int.gcd a b * Int.lcm a b : Nat) : Int) = ((a * b).natAbs : Int) := by
        rw [this, Int.natAbs_mul]
      push_cast at h3
      rw [h3, abs_of_nonneg (mul_nonneg ha hb)]
    rw [← h2, Int.mul_ediv_cancel_left _ hg']

theorem lcmFold_spec : ∀ (l : List Int) (a : Int), 0 ≤ a → (∀ x ∈ l, 0 ≤ x) →
    ((a :: l).count 0 ≤ 1 → ∃ L, l.foldlM lcm2 a = .ok L ∧ 0 ≤ L ∧ a ∣ L ∧ (∀ x ∈ l, x ∣ L) ∧
      ∀ M, a ∣ M → (∀ x ∈ l, x ∣ M) → L ∣ M) ∧
    (2 ≤ (a :: l).count 0 → l.foldlM lcm2 a = .error .zeroDivisionError)
  | [], a, ha, _ => by
    refine ⟨fun _ => ⟨a, rfl, ha, dvd_rfl, by simp, fun M h _ => h⟩, fun h => ?_⟩
    have := List.count_le_length (a := (0 : Int)) (l := [a])
    simp only [List.length_singleton] at this
    omega
  | b :: l, a, ha, hl => by
    have hb := hl b (by simp)
    have hl' : ∀ x ∈ l, 0 ≤ x := fun x hx => hl x (by simp [hx])
    obtain ⟨s1, s2⟩ := lcm2_spec a b ha hb
    rw [List.foldlM_cons]
    by_cases hz : a = 0 ∧ b = 0
    · rw [s1 hz]
      refine ⟨fun h => ?_, fun _ => rfl⟩
      rw [hz.1, hz.2] at h
      simp at h
    · rw [s2 hz]
      obtain ⟨i1, i2⟩ := lcmFold_spec l (Int.lcm a b) (by omega) hl'
      have hc : (((Int.lcm a b : Nat) : Int) :: l).count 0 = (a :: b :: l).count 0 := by
        simp only [List.count_cons, beq_iff_eq]
        by_cases h1 : a = 0
        · have h2 : b ≠ 0 := fun h => hz ⟨h1, h⟩
          simp [h1, h2]
        · by_cases h2 : b = 0
          · simp [h1, h2]
          · simp [h1, h2]
      rw [hc] at i1 i2
      refine ⟨fun h => ?_, fun h => i2 h⟩
      obtain ⟨L, l1, l2, l3, l4, l5⟩ := i1 h
      refine ⟨L, l1, l2, (Int.dvd_lcm_left a b).trans l3, ?_, ?_⟩
      · intro x hx
        rcases List.mem_cons.1 hx with h | h
        · subst h; exact (Int.dvd_lcm_right a x).trans l3
        · exact l4 x h
      · intro M h1 h2
        exact l5 M (Int.coe_lcm_dvd h1 (h2 b (by simp))) (fun x hx => h2 x (by simp [hx]))

end NBC.NT

namespace NBC.NT
open NBC

/-! ## carmichael -/

theorem carmichaelOfPpower_eq (p e : Nat) (hp : p.Prime) (he : 1 ≤ e) :
    carmichaelOfPpower (p, e) = ArithmeticFunction.carmichael (p ^ e) := by
  unfold carmichaelOfPpower
  by_cases h2 : p = 2
  · subst h2
    by_cases h : e > 2
    · rw [if_pos ⟨rfl, h⟩, ArithmeticFunction.carmichael_two_pow_of_ne_two (by omega)]
    · rw [if_neg (by simpa using h), ArithmeticFunction.carmichael_two_pow_of_le_two (by omega)]
      simp
  · rw [if_neg (by simp [h2]), ArithmeticFunction.carmichael_pow_of_prime_ne_two _ hp h2,
      Nat.totient_prime_pow hp he, mul_comm]

theorem good_coprime (f : Nat × Nat) (l : List (Nat × Nat)) (h : Good (f :: l)) :
    Nat.Coprime (f.1 ^ f.2) (prodPow l) := by
  have hs := List.pairwise_cons.1 h.sorted
  apply Nat.Coprime.pow_left
  unfold prodPow
  rw [Nat.coprime_list_prod_right_iff]
  intro x hx
  obtain ⟨g, hg1, rfl⟩ := List.mem_map.1 hx
  apply Nat.Coprime.pow_right
  rw [Nat.coprime_primes (h.prime f (by simp)).1 (h.prime g (by simp [hg1])).1]
  exact Nat.ne_of_lt (hs.1 g hg1)

theorem carmichael_pos (n : Nat) (hn : n ≠ 0) : 0 < ArithmeticFunction.carmichael n := by
  rw [ArithmeticFunction.carmichael_eq_exponent hn]
  have : NeZero n := ⟨hn⟩
  exact Monoid.exponent_pos.2 Monoid.ExponentExists.of_finite

theorem carmichaelFold_spec : ∀ (l : List (Nat × Nat)) (N c : Nat), N ≠ 0 → Good l →
    Nat.Coprime N (prodPow l) → (c : Nat) = ArithmeticFunction.carmichael N →
    l.foldlM (fun (r : Int) g => lcm2 r (carmichaelOfPpower g)) (c : Int) =
      .ok ((ArithmeticFunction.carmichael (N * prodPow l) : Nat) : Int)
  | [], N, c, hN, _, _, hc => by simp [prodPow, hc]; rfl
  | f :: l, N, c, hN, hg, hcop, hc => by
    have hs := List.pairwise_cons.1 hg.sorted
    have hg' : Good l := ⟨hs.2, fun g hg1 => hg.prime g (by simp [hg1])⟩
    have hf := hg.prime f (by simp)
    have e : prodPow (f :: l) = f.1 ^ f.2 * prodPow l := by simp [prodPow]
    rw [e] at hcop ⊢
    have h1 := Nat.Coprime.coprime_mul_right_right hcop
    have h2 := Nat.Coprime.coprime_mul_left_right hcop
    have hfp : f.1 ^ f.2 ≠ 0 := pow_ne_zero _ hf.1.ne_zero
    rw [List.foldlM_cons, (lcm2_spec _ _ (by omega) (by omega)).2 (by
      intro h
      have := carmichael_pos N hN
      omega), hc, carmichaelOfPpower_eq f.1 f.2 hf.1 hf.2, ← mul_assoc]
    apply carmichaelFold_spec l (N * f.1 ^ f.2) _ (Nat.mul_ne_zero hN hfp) hg'
      (Nat.Coprime.mul_left h2 (good_coprime f l hg))
    rw [ArithmeticFunction.carmichael_mul h1]
    rfl

theorem carmichaelOfFactorized_spec (l : List (Nat × Nat)) (hg : Good l) :
    carmichaelOfFactorized l = .ok ((ArithmeticFunction.carmichael (prodPow l) : Nat) : Int) := by
  cases l with
  | nil => simp [carmichaelOfFactorized, prodPow, ArithmeticFunction.carmichael_eq_exponent]
  | cons f l =>
    have hs := List.pairwise_cons.1 hg.sorted
    have hf := hg.prime f (by simp)
    have e : prodPow (f :: l) = f.1 ^ f.2 * prodPow l := by simp [prodPow]
    unfold carmichaelOfFactorized
    rw [e]
    exact carmichaelFold_spec l _ _ (pow_ne_zero _ hf.1.ne_zero)
      ⟨hs.2, fun g hg1 => hg.prime g (by simp [hg1])⟩ (good_coprime f l hg)
      (carmichaelOfPpower_eq f.1 f.2 hf.1 hf.2)

/-! ## largest_factor_relatively_prime -/

theorem divideOut_spec (d : Nat) (hd : 2 ≤ d) : ∀ (fuel a : Nat), 0 < a → a ≤ fuel →
    0 < divideOut d fuel a ∧ ∃ k, divideOut d fuel a * d ^ k = a ∧ (d ∣ a → 1 ≤ k)
  | 0, a, h0, hf => by omega
  | fuel + 1, a, h0, hf => by
    unfold divideOut
    by_cases h : a % d > 0
    · rw [if_pos h]
      exact ⟨h0, 0, by simp, fun hd' => by have := Nat.mod_eq_zero_of_dvd hd'; omega⟩
    · rw [if_neg h]
      have hdvd : d ∣ a := Nat.dvd_of_mod_eq_zero (by omega)
      have hle := Nat.le_of_dvd h0 hdvd
      have hlt : a / d < a := Nat.div_lt_self h0 (by omega)
      obtain ⟨h1, k, h2, _⟩ := divideOut_spec d hd fuel (a / d) (Nat.div_pos hle (by omega)) (by omega)
      exact ⟨h1, k + 1, by rw [pow_succ, ← mul_assoc, h2, Nat.div_mul_cancel hdvd], fun _ => by omega⟩

theorem lfrpLoop_spec : ∀ (fuel a b : Nat), 0 < a → a ≤ fuel →
    lfrpLoop fuel a b ∣ a ∧ Nat.Coprime (lfrpLoop fuel a b) b ∧
    ∀ e, e ∣ a → Nat.Coprime e b → e ∣ lfrpLoop fuel a b
  | 0, a, b, h0, hf => by omega
  | fuel + 1, a, b, h0, hf => by
    unfold lfrpLoop
    simp only
    by_cases hd : Nat.gcd a b ≤ 1
    · rw [if_pos hd]
      have : 0 < Nat.gcd a b := Nat.gcd_pos_of_pos_left _ h0
      exact ⟨dvd_rfl, by unfold Nat.Coprime; omega, fun e h _ => h⟩
    · rw [if_neg hd]
      obtain ⟨p1, k, p2, p3⟩ := divideOut_spec (Nat.gcd a b) (by omega) a a h0 le_rfl
      have hk := p3 (Nat.gcd_dvd_left a b)
      have hlt : divideOut (Nat.gcd a b) a a < a := by
        have h2 : 2 ≤ Nat.gcd a b ^ k :=
          le_trans (by omega : 2 ≤ Nat.gcd a b) (Nat.le_self_pow (by omega) _)
        nlinarith
      obtain ⟨i1, i2, i3⟩ := lfrpLoop_spec fuel (divideOut (Nat.gcd a b) a a) (Nat.gcd a b) p1 (by omega)
      have hda : divideOut (Nat.gcd a b) a a ∣ a := ⟨_, p2.symm⟩
      refine ⟨i1.trans hda, ?_, ?_⟩
      · apply Nat.coprime_of_dvd
        intro q hq h1 h2
        have : q ∣ Nat.gcd a b := Nat.dvd_gcd ((h1.trans i1).trans hda) h2
        exact Nat.Coprime.eq_one_of_dvd (Nat.Coprime.coprime_dvd_left h1 i2) this ▸ hq |>.ne_one rfl
      · intro e h1 h2
        have hc : Nat.Coprime e (Nat.gcd a b) := Nat.Coprime.coprime_dvd_right (Nat.gcd_dvd_right a b) h2
        apply i3 e _ hc
        exact (Nat.Coprime.pow_right k hc).dvd_of_dvd_mul_right (p2.symm ▸ h1)

/-- Without false positives all bases are prime. -/
theorem factorization_good (lg : Nat → Nat) (n : Nat) (hn : 1 ≤ n)
    (hp : ∀ m : Nat, m ∣ n → isPrime lg m = true → m.Prime) : Good (factorization lg n) := by
  obtain ⟨h1, h2, h3, h4⟩ := factorization_spec lg n hn
  rcases h4 with h4 | ⟨l, m, e, hg, hm, hip⟩
  · exact h4
  · rw [e] at h1 h2 ⊢
    have hpm : m.Prime := hp m ⟨prodPow l, by
      rw [← h1, prodPow_append, prodPow_single, pow_one, mul_comm]⟩ hip
    exact hg.snoc hpm le_rfl (fun f hf => (List.pairwise_append.1 h2).2.2 f hf (m, 1) (by simp))

theorem fmod_nonpos_of_neg (b a : Int) (h : a < 0) : b.fmod a ≤ 0 := by
  have := Int.neg_fmod_neg (-b) (-a)
  rw [neg_neg, neg_neg] at this
  rw [this]
  have := Int.fmod_nonneg_of_pos (-b) (b := -a) (by omega)
  omega

theorem gcd2Loop_nonpos : ∀ (fuel : Nat) (a b : Int), a ≤ 0 → b ≤ 0 → gcd2Loop fuel a b ≤ 0
  | 0, a, b, _, hb => hb
  | fuel + 1, a, b, ha, hb => by
    unfold gcd2Loop
    split
    · exact gcd2Loop_nonpos fuel _ _ (fmod_nonpos_of_neg b a (by omega)) ha
    · exact hb

/-- With a negative first argument `gcd2` is never positive. -/
theorem gcd2_neg (a b : Int) (ha : a < 0) : gcd2 a b ≤ 0 := by
  unfold gcd2
  obtain ⟨f, hf⟩ : ∃ f, a.natAbs = f + 1 := ⟨a.natAbs - 1, by omega⟩
  rw [hf]
  unfold gcd2Loop
  rw [if_pos (by omega)]
  exact gcd2Loop_nonpos f _ _ (fmod_nonpos_of_neg b a ha) (by omega)

end NBC.NT
