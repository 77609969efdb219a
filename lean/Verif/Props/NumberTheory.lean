import Verif.Proofs.Sqrt
import Verif.Proofs.Primality

/-!
# Properties C08-C15, C83-C85: number theory
-/

namespace NBC.Props
open NBC NT

/-- C08: `inverse_mod` returns the inverse in `[1, m)` exactly for coprime arguments. -/
theorem C08_inverse_mod (a m : Int) (hm : 2 ≤ m) :
    (Int.gcd a m = 1 → ∃ i, inverseMod a m = .ok i ∧ 1 ≤ i ∧ i < m ∧ (a * i) % m = 1) ∧
    (Int.gcd a m ≠ 1 → inverseMod a m = .error .assertionError) :=
  inverseMod_spec a m hm

example : inverseMod (-7) 30 = .ok 17 ∧ ((-7 : Int) * 17) % 30 = 1 ∧
    inverseMod 6 30 = .error .assertionError := by decide

/-- C09: `jacobi` is the Jacobi symbol, and rejects small and even moduli. -/
theorem C09_jacobi (a n : Int) :
    (3 ≤ n ∧ n % 2 = 1 → jacobi a n = .ok (jacobiSym a n.toNat)) ∧
    (n < 3 ∨ n % 2 = 0 → jacobi a n = .error .assertionError) := by
  constructor
  · rintro ⟨h1, h2⟩
    have := jacobi_eq a n.toNat (by omega) (by omega)
    rwa [Int.toNat_of_nonneg (by omega)] at this
  · intro h
    rcases h with h | h
    · exact jacobi_small a n h
    · exact jacobi_even a n h

example : jacobi (-30) 77 = .ok (-1) ∧ jacobi 5 21 = .ok 1 ∧ jacobi 2 15 = .ok 1 ∧ jacobi 2 21 = .ok (-1) ∧
    jacobi 5 10 = .error .assertionError := by decide

/-- C10: for every prime `p` and residue `a`, `square_root_mod_prime` returns a root in `[0, p)` if
there is one, and raises `SquareRootError` otherwise. -/
theorem C10_square_root (p : Nat) (hp : p.Prime) (a : Int) (h0 : 0 ≤ a) (hlt : a < p) :
    ((∃ w : Int, w * w % p = a) → ∃ y, squareRootModPrime a p = .ok y ∧ 0 ≤ y ∧ y < p ∧ y * y % p = a) ∧
    ((¬ ∃ w : Int, w * w % p = a) → squareRootModPrime a p = .error .squareRootError) := by
  have : Fact p.Prime := ⟨hp⟩
  have key : ∀ y : Int, ((y : Int) : ZMod p) ^ 2 = a ↔ y * y % p = a := by
    intro y
    rw [pow_two, ← Int.cast_mul, ZMod.intCast_eq_intCast_iff', Int.emod_eq_of_lt h0 hlt]
  obtain ⟨h1, h2⟩ := squareRoot_spec p a h0 hlt
  have hsq : (∃ w : Int, w * w % p = a) ↔ IsSquare (a : ZMod p) := by
    constructor
    · rintro ⟨w, hw⟩
      exact ⟨(w : ZMod p), by rw [← pow_two]; exact ((key w).2 hw).symm⟩
    · rintro ⟨c, hc⟩
      obtain ⟨w, rfl⟩ := ZMod.intCast_surjective c
      exact ⟨w, (key w).1 (by rw [pow_two]; exact hc.symm)⟩
  rw [hsq]
  refine ⟨fun h => ?_, h2⟩
  obtain ⟨y, y1, y2, y3, y4⟩ := h1 h
  exact ⟨y, y1, y2, y3, (key y).1 y4⟩

/-- The four classes of primes: 3 mod 4, 5 mod 8 (both sub-branches), 1 mod 8. -/
example : squareRootModPrime 2 7 = .ok 4 ∧ squareRootModPrime 3 13 = .ok 9 ∧
    squareRootModPrime 10 13 = .ok 7 ∧ squareRootModPrime 2 17 = .ok 6 ∧
    squareRootModPrime 3 17 = .error .squareRootError := by decide +kernel

/-- C11: `is_prime` accepts every prime, and is exact up to 1229 — whatever number of rounds the
floating-point logarithm selects. -/
theorem C11_is_prime (lg : Nat → Nat) :
    (∀ n : Nat, n.Prime → isPrime lg n = true) ∧
    (∀ n : Int, n ≤ 1229 → (isPrime lg n = true ↔ 0 ≤ n ∧ n.toNat.Prime)) ∧
    (∀ n : Int, isPrime lg n = false → n < 2 ∨ ∃ d, 2 ≤ d ∧ d < n ∧ d ∣ n) := by
  refine ⟨fun n h => isPrime_of_prime lg n h, fun n h => isPrime_small lg n h, fun n h => ?_⟩
  by_cases h2 : n < 2
  · exact Or.inl h2
  right
  have hnp : ¬ n.toNat.Prime := by
    intro hp
    have := isPrime_of_prime lg n.toNat hp
    rw [Int.toNat_of_nonneg (by omega), h] at this
    cases this
  obtain ⟨d, hd, hd2, hdn⟩ := Nat.exists_dvd_of_not_prime2 (by omega) hnp
  refine ⟨d, by omega, by omega, ?_⟩
  have : (d : Int) ∣ (n.toNat : Int) := by exact_mod_cast hd
  rwa [Int.toNat_of_nonneg (by omega)] at this

example : isPrime (fun _ => 10) 1231 = true ∧ isPrime (fun _ => 10) 1233 = false ∧
    isPrime (fun _ => 10) 1517 = false := by decide +kernel

/-- C12: what `next_prime` returns is above its argument, accepted by `is_prime`, and no prime was
skipped; and it does return (for a sufficient number of iterations, which exists). -/
theorem C12_next_prime (lg : Nat → Nat) (x : Int) :
    (∀ fuel r, nextPrime lg fuel x = some r → x < r ∧ isPrime lg r = true ∧
      ∀ q : Nat, q.Prime → x < q → r ≤ q) ∧
    (∃ bound, ∀ fuel, bound < fuel → ∃ r, nextPrime lg fuel x = some r) := by
  unfold nextPrime
  by_cases h2 : x < 2
  · simp only [h2, if_true]
    refine ⟨fun fuel r h => ?_, 0, fun _ _ => ⟨2, rfl⟩⟩
    cases h
    refine ⟨h2, (isPrime_small lg 2 (by norm_num)).2 ⟨by norm_num, Nat.prime_two⟩, fun q hq _ => ?_⟩
    have := hq.two_le
    omega
  · simp only [h2, if_false]
    set r0 : Int := if (x + 1) % 2 = 0 then x + 2 else x + 1 with hr0
    have hodd : r0 % 2 = 1 := by rw [hr0]; split <;> omega
    have hge : x + 1 ≤ r0 ∧ r0 ≤ x + 2 := by rw [hr0]; split <;> omega
    have hev : r0 = x + 2 → x % 2 = 1 := by
      rw [hr0]; split
      · intro _; omega
      · intro h; omega
    refine ⟨fun fuel r h => ?_, ?_⟩
    · obtain ⟨h1, h3, h4⟩ := nextPrimeLoop_spec lg fuel r0 r hodd (by omega) h
      refine ⟨by omega, h3, fun q hq hxq => ?_⟩
      by_contra hlt
      have hr : r0 ≤ q := by
        by_contra hc
        have h5 : r0 = x + 2 := by omega
        have := hev h5
        rcases hq.eq_two_or_odd with h | h <;> omega
      exact h4 q hq hr (by omega)
    · obtain ⟨q, hq1, hq2⟩ := Nat.exists_infinite_primes (r0.toNat + 3)
      have hqo : q % 2 = 1 := by rcases hq2.eq_two_or_odd with h | h <;> omega
      refine ⟨((q : Int) - r0).toNat / 2, fun fuel hf => ?_⟩
      apply nextPrimeLoop_terminates lg (((q : Int) - r0).toNat / 2) r0 _ fuel hf
      have : r0 + 2 * (((q : Int) - r0).toNat / 2 : Nat) = q := by omega
      rw [this]
      exact isPrime_of_prime lg q hq2

example : nextPrime (fun _ => 10) 10 113 = some 127 := by decide +kernel

/-- C13: `factorization` multiplies back, with strictly increasing bases and positive exponents, and
all bases are prime except possibly a last one that `is_prime` wrongly accepted. -/
theorem C13_factorization (lg : Nat → Nat) (n : Nat) (hn : 1 ≤ n) :
    ((factorization lg n).map (fun f => f.1 ^ f.2)).prod = n ∧
    (factorization lg n).Pairwise (fun f g => f.1 < g.1) ∧
    (∀ f ∈ factorization lg n, 2 ≤ f.1 ∧ 1 ≤ f.2) ∧
    (∀ f ∈ factorization lg n, f.1.Prime ∨ (isPrime lg f.1 = true ∧ 1229 < f.1 ∧ f.2 = 1 ∧
      (factorization lg n).getLast? = some f)) := by
  obtain ⟨h1, h2, h3, h4⟩ := factorization_spec lg n hn
  refine ⟨h1, h2, h3, fun f hf => ?_⟩
  rcases h4 with h4 | ⟨l, m, e, hg, hm, hip⟩
  · exact Or.inl (h4.prime f hf).1
  · rw [e] at hf ⊢
    rcases List.mem_append.1 hf with h | h
    · exact Or.inl (hg.prime f h).1
    · simp only [List.mem_singleton] at h
      subst h
      right
      exact ⟨hip, hm, rfl, by simp⟩

example : factorization (fun _ => 20) 3643632 = [(2, 4), (3, 2), (25303, 1)] ∧
    factorization (fun _ => 20) (2 * 1231 * 1231 * 1237) = [(2, 1), (1231, 2), (1237, 1)] := by
  decide +kernel

/-- C14: `gcd` of naturals is a common divisor that every common divisor divides. -/
theorem C14_gcd (a : Int) (l : List Int) (ha : 0 ≤ a) (hl : ∀ x ∈ l, 0 ≤ x) :
    ∃ g, gcdList (a :: l) = .ok g ∧ 0 ≤ g ∧ (∀ x ∈ a :: l, g ∣ x) ∧
      ∀ d, (∀ x ∈ a :: l, d ∣ x) → d ∣ g := by
  obtain ⟨h1, h2, h3, h4⟩ := gcdFold_spec l a ha hl
  refine ⟨_, rfl, h1, fun x hx => ?_, fun d hd => h4 d (hd a (by simp)) (fun x hx => hd x (by simp [hx]))⟩
  rcases List.mem_cons.1 hx with h | h
  · subst h; exact h2
  · exact h3 x h

/-- C14: `lcm` of naturals is a common multiple dividing every common multiple; it raises
`ZeroDivisionError` exactly when two arguments are zero. -/
theorem C14_lcm (a : Int) (l : List Int) (ha : 0 ≤ a) (hl : ∀ x ∈ l, 0 ≤ x) :
    ((a :: l).count 0 ≤ 1 → ∃ L, lcmList (a :: l) = .ok L ∧ 0 ≤ L ∧ (∀ x ∈ a :: l, x ∣ L) ∧
      ∀ M, (∀ x ∈ a :: l, x ∣ M) → L ∣ M) ∧
    (2 ≤ (a :: l).count 0 → lcmList (a :: l) = .error .zeroDivisionError) := by
  obtain ⟨h1, h2⟩ := lcmFold_spec l a ha hl
  refine ⟨fun h => ?_, h2⟩
  obtain ⟨L, l1, l2, l3, l4, l5⟩ := h1 h
  refine ⟨L, l1, l2, fun x hx => ?_, fun M hM => l5 M (hM a (by simp)) (fun x hx => hM x (by simp [hx]))⟩
  rcases List.mem_cons.1 hx with h' | h'
  · subst h'; exact l3
  · exact l4 x h'

example : gcdList [105, 165, 195] = .ok 15 ∧ lcmList [3, 15, 21] = .ok 105 ∧ lcmList [0, 4] = .ok 0 ∧
    lcmList [4, 0, 0] = .error .zeroDivisionError := by decide

/-- C15 is false as stated: for `x = 8`, `m = 7` the order is 1 but `order_mod` returns 2, since
the loop compares the unreduced `x` with 1. -/
theorem C15_order_mod_false : ¬ ∀ (x m : Int), 2 ≤ m → Int.gcd x m = 1 →
    ∃ k : Nat, orderMod x m = .ok (some k) ∧ 1 ≤ k ∧ x ^ k % m = 1 ∧
      ∀ j : Nat, 1 ≤ j → j < k → x ^ j % m ≠ 1 := by
  intro h
  obtain ⟨k, h1, h2, h3, h4⟩ := h 8 7 (by norm_num) (by decide)
  have : orderMod 8 7 = .ok (some 2) := by decide
  rw [this] at h1
  have hk : k = 2 := by injection h1 with h1; injection h1 with h1; exact h1.symm
  subst hk
  exact h4 1 le_rfl (by norm_num) (by norm_num)

/-- C15: the full statement holds for `x ≥ 0` unless `x ≡ 1 (mod m)` and `x ≠ 1`; there the answer
is 2; a negative `x` always fails the `gcd` assertion (`gcd2` returns a negative number).  Missing
from the full statement: exactly these two cases. -/
theorem C15_order_mod_partial (x m : Int) (hm : 2 ≤ m) (hg : Int.gcd x m = 1) :
    (x < 0 → orderMod x m = .error .assertionError) ∧
    (0 ≤ x → ¬ (x % m = 1 ∧ x ≠ 1) → ∃ k : Nat, orderMod x m = .ok (some k) ∧ 1 ≤ k ∧ x ^ k % m = 1 ∧
      ∀ j : Nat, 1 ≤ j → j < k → x ^ j % m ≠ 1) ∧
    (0 ≤ x → x % m = 1 ∧ x ≠ 1 → orderMod x m = .ok (some 2)) := by
  refine ⟨fun hx => ?_, ?_⟩
  · unfold orderMod
    rw [if_neg (by omega), if_pos (by have := gcd2_neg x m hx; omega)]
  rw [← forall_and]
  intro hx0
  obtain ⟨M, rfl⟩ : ∃ M : Nat, m = M := ⟨m.toNat, by omega⟩
  have hgg : gcd2 x (M : Int) = 1 := by
    rw [gcd2_eq x M hx0 (by omega), hg]; rfl
  have hM : ¬ (M : Int) ≤ 1 := by omega
  unfold orderMod
  rw [if_neg hM, hgg]
  simp only [ne_eq, not_true_eq_false, if_false, Int.toNat_natCast]
  constructor
  · intro hx
    by_cases h1 : x = 1
    · subst h1
      refine ⟨1, by unfold orderLoop; simp, le_rfl, ?_, fun j hj1 hj2 => by omega⟩
      rw [one_pow]; exact Int.emod_eq_of_lt (by norm_num) (by omega)
    · obtain ⟨k, k1, k2, k3, k4⟩ := exists_order x M (by omega) hg
      refine ⟨k, ?_, k1, k3, k4⟩
      have hx1 : x % (M : Int) ≠ 1 := fun h => hx ⟨h, h1⟩
      have hk2 : 2 ≤ k := by
        by_contra hc
        have : k = 1 := by omega
        rw [this, pow_one] at k3
        exact hx1 k3
      unfold orderLoop
      rw [if_pos h1]
      congr 1
      apply orderLoop_spec x M hm k k3 k4 M _ 2 (by norm_num) hk2
        (Int.emod_nonneg _ (by omega)) (Int.emod_lt_of_pos _ (by omega)) (by rw [pow_two]) (by omega)
  · rintro ⟨h1, h2⟩
    unfold orderLoop
    rw [if_pos h2]
    obtain ⟨f, hf⟩ : ∃ f, M = f + 1 := ⟨M - 1, by omega⟩
    have hz : x * x % (M : Int) = 1 := by
      rw [Int.mul_emod, h1, one_mul]; exact Int.emod_eq_of_lt (by norm_num) (by omega)
    rw [hz]
    rw [hf]
    unfold orderLoop
    simp

example : orderMod 3 7 = .ok (some 6) ∧ orderMod (-3) 7 = .error .assertionError ∧ orderMod 8 7 = .ok (some 2) := by
  decide

/-- C83: `phi` is Euler's totient whenever `is_prime` has not accepted a composite. -/
theorem C83_phi (lg : Nat → Nat) (n : Nat) (hn : 1 ≤ n)
    (hp : ∀ m : Nat, m ∣ n → isPrime lg m = true → m.Prime) : phi lg n = Nat.totient n := by
  unfold phi
  by_cases h3 : (n : Int) < 3
  · rw [if_pos h3]
    have : n = 1 ∨ n = 2 := by omega
    rcases this with h | h <;> subst h <;> rfl
  · rw [if_neg h3]
    obtain ⟨h1, h2, h3, h4⟩ := factorization_spec lg n hn
    have hg : Good (factorization lg n) := factorization_good lg n hn hp
    rw [phi_fold _ (fun f hf => (hg.prime f hf).2), one_mul, ← totient_prodPow _ hg, h1]

/-- The hypothesis of C83 holds for `n = 1000`: all its divisors are below 1229. -/
example : phi (fun _ => 9) 1000 = 400 ∧
    ∀ m : Nat, m ∣ 1000 → isPrime (fun _ => 9) m = true → m.Prime := by
  refine ⟨by decide +kernel, fun m hm h => ?_⟩
  have := Nat.le_of_dvd (by norm_num) hm
  simpa using ((isPrime_small _ m (by omega)).1 h).2

/-- C84: `carmichael(n)` is the least exponent that works for every residue coprime to `n`
(whenever `is_prime` has not accepted a composite divisor). -/
theorem C84_carmichael (lg : Nat → Nat) (n : Nat) (hn : 1 ≤ n)
    (hp : ∀ m : Nat, m ∣ n → isPrime lg m = true → m.Prime) :
    ∃ c : Nat, carmichael lg n = .ok (c : Int) ∧ 1 ≤ c ∧
      (∀ x : Nat, Nat.Coprime x n → x ^ c ≡ 1 [MOD n]) ∧
      (∀ c' : Nat, (∀ x : Nat, Nat.Coprime x n → x ^ c' ≡ 1 [MOD n]) → c ∣ c') := by
  have hg : Good (factorization lg n) := factorization_good lg n hn hp
  have h1 := (factorization_spec lg n hn).1
  refine ⟨ArithmeticFunction.carmichael n, ?_, carmichael_pos n (by omega), ?_, ?_⟩
  · unfold carmichael
    rw [carmichaelOfFactorized_spec _ hg, h1]
  · intro x hx
    have := ArithmeticFunction.pow_carmichael (ZMod.unitOfCoprime x hx)
    have h2 := congrArg Units.val this
    rw [Units.val_pow_eq_pow_val, ZMod.coe_unitOfCoprime, Units.val_one] at h2
    rw [← ZMod.natCast_eq_natCast_iff]
    push_cast; exact h2
  · intro c' hc'
    rw [ArithmeticFunction.carmichael_eq_exponent (by omega)]
    apply Monoid.exponent_dvd_of_forall_pow_eq_one
    intro u
    have : NeZero n := ⟨by omega⟩
    apply Units.ext
    have h2 := hc' (u : ZMod n).val (ZMod.val_coe_unit_coprime u)
    rw [← ZMod.natCast_eq_natCast_iff] at h2
    push_cast at h2
    rw [ZMod.natCast_val, ZMod.cast_id] at h2
    rw [Units.val_pow_eq_pow_val, Units.val_one]; exact h2

example : carmichael (fun _ => 9) 1000 = .ok 100 ∧ carmichael (fun _ => 9) 561 = .ok 80 := by
  decide +kernel

/-- C85: `largest_factor_relatively_prime(a, b)` is the greatest divisor of `a` coprime to `b`
(indeed every such divisor divides it). -/
theorem C85_largest_factor (a b : Nat) (ha : 1 ≤ a) :
    largestFactorRelativelyPrime a b ∣ a ∧ Nat.Coprime (largestFactorRelativelyPrime a b) b ∧
    ∀ e, e ∣ a → Nat.Coprime e b → e ∣ largestFactorRelativelyPrime a b :=
  lfrpLoop_spec a a b ha le_rfl

example : largestFactorRelativelyPrime 360 6 = 5 ∧ kindaOrderMod 6 35 = .ok (some 2) := by decide

end NBC.Props
