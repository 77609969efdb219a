import Mathlib.FieldTheory.IsAlgClosed.AlgebraicClosure
import Mathlib.FieldTheory.IsAlgClosed.Basic
import Mathlib.NumberTheory.LegendreSymbol.JacobiSymbol
import Mathlib.NumberTheory.LegendreSymbol.QuadraticReciprocity
import Mathlib.Algebra.CharP.Algebra
import Verif.Proofs.Jacobi

/-! # `square_root_mod_prime` -/

namespace NBC.NT
open NBC
open scoped NumberTheorySymbols

/-! ## polynomial arithmetic evaluated at a root of the modulus -/

section Poly
variable {K : Type*} [Field K] (p : Nat) [CharP K p]

/-- Value at `θ` of coefficients in increasing powers. -/
def evalP (θ : K) : List Int → K
  | [] => 0
  | c :: cs => (c : K) + θ * evalP θ cs

/-- Value at `θ` of coefficients in decreasing powers. -/
def evalR (θ : K) : List Int → K
  | [] => 0
  | c :: cs => (c : K) * θ ^ cs.length + evalR θ cs

theorem cast_emod (x : Int) : ((x % (p : Int) : Int) : K) = (x : K) := by
  have h : x % (p : Int) = x - p * (x / p) := by
    have := Int.emod_add_mul_ediv x p; omega
  rw [h]; push_cast; rw [CharP.cast_eq_zero]; ring

theorem evalP_append (θ : K) (xs ys : List Int) :
    evalP θ (xs ++ ys) = evalP θ xs + θ ^ xs.length * evalP θ ys := by
  induction xs with
  | nil => simp [evalP]
  | cons x xs ih => simp only [List.cons_append, evalP, ih, List.length_cons, pow_succ]; ring

theorem evalR_reverse (θ : K) (xs : List Int) : evalR θ xs.reverse = evalP θ xs := by
  have : ∀ xs : List Int, evalR θ xs = evalP θ xs.reverse := by
    intro xs
    induction xs with
    | nil => rfl
    | cons x xs ih => rw [evalR, ih, List.reverse_cons, evalP_append]; simp [evalP]; ring
  rw [this, List.reverse_reverse]

theorem evalP_replicate_zero (θ : K) (k : Nat) : evalP θ (List.replicate k 0) = 0 := by
  induction k with
  | zero => rfl
  | succ k ih => simp [List.replicate_succ, evalP, ih]

theorem addRow_length (c q : Int) : ∀ prod m2, (addRow c q prod m2).length = prod.length
  | [], _ => by simp [addRow]
  | x :: xs, [] => by simp [addRow]
  | x :: xs, m :: ms => by simp [addRow, addRow_length c q xs ms]

theorem addRow_eval (θ : K) (c : Int) : ∀ prod m2, m2.length ≤ prod.length →
    evalP θ (addRow c p prod m2) = evalP θ prod + c * evalP θ m2
  | [], [], _ => by simp [addRow, evalP]
  | [], m :: ms, h => by simp at h
  | x :: xs, [], _ => by simp [addRow, evalP]
  | x :: xs, m :: ms, h => by
    have := addRow_eval θ c xs ms (by simpa using h)
    simp only [addRow, evalP, this, cast_emod p]
    push_cast; ring

theorem mulRows_length (q : Int) (m2 : List Int) :
    ∀ m1 prod, (mulRows q m2 m1 prod).length = prod.length
  | [], prod => by simp [mulRows]
  | c :: m1, prod => by
    have h := addRow_length c q prod m2
    unfold mulRows
    split
    · rename_i h2; rw [h2] at h; simpa using h
    · rename_i x xs h2
      rw [h2] at h
      simp [mulRows_length q m2 m1 xs, ← h]

theorem mulRows_eval (θ : K) (m2 : List Int) (hm2 : 1 ≤ m2.length) :
    ∀ m1 prod, m1.length + m2.length - 1 ≤ prod.length →
    evalP θ (mulRows p m2 m1 prod) = evalP θ prod + evalP θ m1 * evalP θ m2
  | [], prod, _ => by simp [mulRows, evalP]
  | c :: m1, prod, h => by
    simp only [List.length_cons] at h
    have h1 := addRow_length c p prod m2
    have h2 := addRow_eval p θ c prod m2 (by omega)
    unfold mulRows
    split
    · rename_i h3; rw [h3] at h1; simp at h1; omega
    · rename_i x xs h3
      rw [h3] at h1 h2
      simp only [List.length_cons] at h1
      simp only [evalP] at h2 ⊢
      rw [mulRows_eval θ m2 hm2 m1 xs (by omega)]
      linear_combination h2

theorem polySub_length (top q : Int) : ∀ xs ms, (polySub top q xs ms).length = xs.length
  | [], _ => by simp [polySub]
  | x :: xs, [] => by simp [polySub]
  | x :: xs, m :: ms => by simp [polySub, polySub_length top q xs ms]

theorem polySub_eval (θ : K) (top : Int) : ∀ xs ms, ms.length ≤ xs.length →
    evalR θ (polySub top p xs ms) =
      evalR θ xs - top * evalR θ ms * θ ^ (xs.length - ms.length)
  | [], [], _ => by simp [polySub, evalR]
  | [], m :: ms, h => by simp at h
  | x :: xs, [], _ => by simp [polySub, evalR]
  | x :: xs, m :: ms, h => by
    have hl : ms.length ≤ xs.length := by simpa using h
    have := polySub_eval θ top xs ms hl
    have hp : θ ^ xs.length = θ ^ ms.length * θ ^ (xs.length - ms.length) := by
      rw [← pow_add]; congr 1; omega
    simp only [polySub, evalR, this, cast_emod p, polySub_length, List.length_cons]
    rw [Nat.add_sub_add_right]
    push_cast
    rw [hp]; ring

theorem reduceRev_eval (θ : K) (mt : List Int) (hθ : evalR θ mt + θ ^ mt.length = 0) :
    ∀ fuel poly, evalR θ (reduceRev mt p fuel poly) = evalR θ poly
  | 0, poly => by simp [reduceRev]
  | fuel + 1, poly => by
    unfold reduceRev
    split
    · rename_i hl
      cases poly with
      | nil => simp
      | cons top rest =>
        have hl' : mt.length ≤ rest.length := by simpa using hl
        simp only
        rw [reduceRev_eval θ mt hθ fuel]
        split
        · rw [polySub_eval p θ top rest mt hl', evalR]
          have hp : θ ^ rest.length = θ ^ mt.length * θ ^ (rest.length - mt.length) := by
            rw [← pow_add]; congr 1; omega
          rw [hp]
          linear_combination (-(top : K) * θ ^ (rest.length - mt.length)) * hθ
        · rename_i h0
          have : top = 0 := by simpa using h0
          subst this; simp [evalR]
    · rfl

theorem reduceRev_length (mt : List Int) (q : Int) :
    ∀ fuel poly, poly.length ≤ fuel → (reduceRev mt q fuel poly).length = min poly.length mt.length
  | 0, poly, h => by
    have : poly = [] := List.length_eq_zero_iff.1 (by omega)
    subst this; simp [reduceRev]
  | fuel + 1, poly, h => by
    unfold reduceRev
    split
    · rename_i hl
      cases poly with
      | nil => simp
      | cons top rest =>
        have hl' : mt.length ≤ rest.length := by simpa using hl
        simp only
        rw [reduceRev_length mt q fuel]
        · split <;> simp only [polySub_length, List.length_cons] <;> omega
        · simp only [List.length_cons] at h
          split
          · simp only [polySub_length]; omega
          · omega
    · omega

/-- All coefficients reduced. -/
def Reduced (q : Int) (l : List Int) : Prop := ∀ x ∈ l, 0 ≤ x ∧ x < q

theorem polySub_reduced (top q : Int) (hq : 0 < q) : ∀ xs ms, Reduced q xs →
    Reduced q (polySub top q xs ms)
  | [], _, h => by simpa [polySub] using h
  | x :: xs, [], h => by simpa [polySub] using h
  | x :: xs, m :: ms, h => by
    intro y hy
    simp only [polySub, List.mem_cons] at hy
    rcases hy with rfl | hy
    · exact ⟨Int.emod_nonneg _ (by omega), Int.emod_lt_of_pos _ hq⟩
    · exact polySub_reduced top q hq xs ms (fun z hz => h z (by simp [hz])) y hy

theorem reduceRev_reduced (mt : List Int) (q : Int) (hq : 0 < q) :
    ∀ fuel poly, Reduced q poly → Reduced q (reduceRev mt q fuel poly)
  | 0, poly, h => by simpa [reduceRev] using h
  | fuel + 1, poly, h => by
    unfold reduceRev
    split
    · cases poly with
      | nil => simpa using h
      | cons top rest =>
        have hr : Reduced q rest := fun z hz => h z (by simp [hz])
        apply reduceRev_reduced mt q hq fuel
        split
        · exact polySub_reduced top q hq rest mt hr
        · exact hr
    · exact h

theorem addRow_reduced (c q : Int) (hq : 0 < q) : ∀ xs ms, Reduced q xs →
    Reduced q (addRow c q xs ms)
  | [], _, h => by simpa [addRow] using h
  | x :: xs, [], h => by simpa [addRow] using h
  | x :: xs, m :: ms, h => by
    intro y hy
    simp only [addRow, List.mem_cons] at hy
    rcases hy with rfl | hy
    · exact ⟨Int.emod_nonneg _ (by omega), Int.emod_lt_of_pos _ hq⟩
    · exact addRow_reduced c q hq xs ms (fun z hz => h z (by simp [hz])) y hy

theorem mulRows_reduced (q : Int) (hq : 0 < q) (m2 : List Int) :
    ∀ m1 prod, Reduced q prod → Reduced q (mulRows q m2 m1 prod)
  | [], prod, h => by simpa [mulRows] using h
  | c :: m1, prod, h => by
    have h1 := addRow_reduced c q hq prod m2 h
    unfold mulRows
    split
    · intro x hx; simp at hx
    · rename_i x xs h3
      rw [h3] at h1
      intro y hy
      rcases List.mem_cons.1 hy with rfl | hy
      · exact h1 y (by simp)
      · exact mulRows_reduced q hq m2 m1 xs (fun z hz => h1 z (by simp [hz])) y hy

/-- Multiplication modulo a monic quadratic. -/
theorem polyMul_spec (θ : K) (u v : Int) (hθ : θ ^ 2 + v * θ + u = 0) (hp : 0 < p)
    (m1 m2 : List Int) (h1 : m1.length = 2) (h2 : m2.length = 1 ∨ m2.length = 2) :
    ∃ r, polynomialMultiplyMod m1 m2 [u, v, 1] p = .ok r ∧ r.length = 2 ∧ Reduced p r ∧
      evalP θ r = evalP θ m1 * evalP θ m2 := by
  have hp' : (0 : Int) < p := by exact_mod_cast hp
  refine ⟨(reduceRev [v, u] p
    (mulRows p m2 m1 (List.replicate (m1.length + m2.length - 1) 0)).length (mulRows p m2 m1 (List.replicate (m1.length + m2.length - 1) 0)).reverse).reverse,
    ?_, ?_, ?_, ?_⟩
  · simp [polynomialMultiplyMod, polynomialReduceMod]
  · rw [List.length_reverse, reduceRev_length]
    · simp only [List.length_reverse, mulRows_length, List.length_replicate, h1, List.length_cons,
        List.length_nil]
      omega
    · simp
  · have : Reduced p (List.replicate (m1.length + m2.length - 1) (0 : Int)) := by
      intro x hx; rw [List.eq_of_mem_replicate hx]; exact ⟨le_rfl, hp'⟩
    have h3 := mulRows_reduced p hp' m2 m1 _ this
    intro x hx
    rw [List.mem_reverse] at hx
    refine reduceRev_reduced [v, u] p hp' _ _ ?_ x hx
    intro y hy
    exact h3 y (List.mem_reverse.1 hy)
  · rw [← evalR_reverse, List.reverse_reverse, reduceRev_eval p, evalR_reverse,
      mulRows_eval p θ m2 (by omega) m1 _ (by simp), evalP_replicate_zero, zero_add]
    simp [evalR]
    linear_combination hθ

theorem polyExpLoop_spec (θ : K) (u v : Int) (hθ : θ ^ 2 + v * θ + u = 0) (hp : 0 < p) :
    ∀ (fuel k : Nat) (G s : List Int), k ≤ fuel → G.length = 2 → (s.length = 1 ∨ s.length = 2) →
    (1 < k ∨ (s.length = 2 ∧ Reduced p s)) →
    ∃ r, polyExpLoop [u, v, 1] p fuel k G s = .ok r ∧ r.length = 2 ∧ Reduced p r ∧
      evalP θ r = evalP θ s * evalP θ G ^ (2 * (k / 2))
  | 0, k, G, s, hk, hG, hs, h => by
    have : k = 0 := by omega
    subst this
    rcases h with h | h
    · omega
    · exact ⟨s, rfl, h.1, h.2, by simp⟩
  | fuel + 1, k, G, s, hk, hG, hs, h => by
    unfold polyExpLoop
    by_cases hk1 : k > 1
    · rw [if_pos hk1]
      obtain ⟨G', hG1, hG2, hG3, hG4⟩ := polyMul_spec p θ u v hθ hp G G hG (Or.inr hG)
      simp only [hG1]
      by_cases hodd : (k / 2) % 2 = 1
      · obtain ⟨s', hs1, hs2, hs3, hs4⟩ := polyMul_spec p θ u v hθ hp G' s hG2 hs
        obtain ⟨r, hr1, hr2, hr3, hr4⟩ := polyExpLoop_spec θ u v hθ hp fuel (k / 2) G' s' (by omega)
          hG2 (Or.inr hs2) (Or.inr ⟨hs2, hs3⟩)
        refine ⟨r, ?_, hr2, hr3, ?_⟩
        · simp only [Bind.bind, Except.bind, hodd, if_true, hs1]; exact hr1
        · rw [hr4, hs4, hG4]
          have e : evalP θ G ^ (2 * (k / 2)) =
              (evalP θ G * evalP θ G) ^ (1 + 2 * (k / 2 / 2)) := by
            rw [show 1 + 2 * (k / 2 / 2) = k / 2 by omega, ← pow_two, ← pow_mul]
          rw [e, pow_add]; ring
      · obtain ⟨r, hr1, hr2, hr3, hr4⟩ := polyExpLoop_spec θ u v hθ hp fuel (k / 2) G' s (by omega)
          hG2 hs (Or.inl (by omega))
        refine ⟨r, ?_, hr2, hr3, ?_⟩
        · simp only [Bind.bind, Except.bind, hodd, if_false]; exact hr1
        · rw [hr4, hG4]
          have e : evalP θ G ^ (2 * (k / 2)) = (evalP θ G * evalP θ G) ^ (2 * (k / 2 / 2)) := by
            rw [show 2 * (k / 2 / 2) = k / 2 by omega, ← pow_two, ← pow_mul]
          rw [e]
    · rw [if_neg hk1]
      rcases h with h | h
      · omega
      · refine ⟨s, rfl, h.1, h.2, ?_⟩
        rw [show k / 2 = 0 by omega]; simp

/-- `polynomial_exp_mod` of `x` modulo a monic quadratic. -/
theorem polyExp_spec (θ : K) (u v : Int) (hθ : θ ^ 2 + v * θ + u = 0) (e : Nat)
    (he : 1 < e) (hep : e < p) :
    ∃ r, polynomialExpMod [0, 1] e [u, v, 1] p = .ok r ∧ r.length = 2 ∧ Reduced p r ∧
      evalP θ r = θ ^ e := by
  have hx : evalP θ [0, 1] = θ := by simp [evalP]
  obtain ⟨r, hr1, hr2, hr3, hr4⟩ := polyExpLoop_spec p θ u v hθ (by omega) e e [0, 1]
    (if e % 2 = 1 then [0, 1] else [1]) le_rfl rfl (by split <;> simp) (Or.inl he)
  refine ⟨r, ?_, hr2, hr3, ?_⟩
  · have hlt : decide ((e : Int) < p) = true := by simpa using hep
    rw [polynomialExpMod, hlt]
    simp only [pyAssert, if_true]
    show (if e = 0 then _ else _) = _
    rw [if_neg (by omega)]
    exact hr1
  · rw [hr4, hx]
    split
    · rename_i h
      rw [hx]
      conv_rhs => rw [show e = 1 + 2 * (e / 2) by omega, pow_add, pow_one]
    · have : evalP θ [1] = 1 := by simp [evalP]
      rw [this, one_mul]
      congr 1; omega

end Poly

/-! ## the number theory -/

section Prime
variable (p : Nat) [hpf : Fact p.Prime]

/-- In an extension field, `θ^((p+1)/2)` squared is `a` when the discriminant is a non-residue. -/
theorem theta_pow (hp2 : p ≠ 2) {K : Type*} [Field K] [Algebra (ZMod p) K] (a b : ZMod p) (θ δ : K)
    (hδ : δ ^ 2 = algebraMap (ZMod p) K (b ^ 2 - 4 * a))
    (hθ : 2 * θ = algebraMap (ZMod p) K b + δ)
    (hD : (b ^ 2 - 4 * a) ^ (p / 2) = -1) : (θ ^ ((p + 1) / 2)) ^ 2 = algebraMap (ZMod p) K a := by
  have hodd : p % 2 = 1 := hpf.out.eq_two_or_odd.resolve_left hp2
  have : CharP K p := charP_of_injective_algebraMap (algebraMap (ZMod p) K).injective p
  have h2 : (2 : K) ≠ 0 := by
    have h2' : (2 : ZMod p) ≠ 0 := by
      intro h
      have : ((2 : Nat) : ZMod p) = 0 := by exact_mod_cast h
      rw [ZMod.natCast_eq_zero_iff] at this
      exact hp2 ((Nat.prime_dvd_prime_iff_eq hpf.out Nat.prime_two).1 this)
    intro h
    apply h2'
    apply (algebraMap (ZMod p) K).injective
    rw [map_zero, map_ofNat]; exact h
  have hδp : δ ^ p = -δ := by
    have e : δ ^ p = (δ ^ 2) ^ (p / 2) * δ := by
      rw [← pow_mul, ← pow_succ]; congr 1; omega
    rw [e, hδ, ← map_pow, hD]; simp
  have hbp : (algebraMap (ZMod p) K b) ^ p = algebraMap (ZMod p) K b := by
    rw [← map_pow, ZMod.pow_card]
  have h2p : (2 : K) ^ p = 2 := by
    have : (2 : K) = algebraMap (ZMod p) K 2 := by rw [map_ofNat]
    rw [this, ← map_pow, ZMod.pow_card]
  have hθp : 2 * θ ^ p = algebraMap (ZMod p) K b - δ := by
    have h := congrArg (· ^ p) hθ
    simp only [mul_pow] at h
    rw [h2p, add_pow_char, hbp, hδp] at h
    rw [h]; ring
  have e1 : (θ ^ ((p + 1) / 2)) ^ 2 = θ ^ p * θ := by
    rw [← pow_mul, ← pow_succ]; congr 1; omega
  rw [e1]
  have h4 : (2 * θ ^ p) * (2 * θ) = 4 * algebraMap (ZMod p) K a := by
    rw [hθp, hθ]
    have : (algebraMap (ZMod p) K b - δ) * (algebraMap (ZMod p) K b + δ) =
        (algebraMap (ZMod p) K b) ^ 2 - δ ^ 2 := by ring
    rw [this, hδ]
    simp only [map_sub, map_pow, map_mul, map_ofNat]; ring
  have h4' : (2 : K) * 2 * (θ ^ p * θ) = 2 * 2 * algebraMap (ZMod p) K a := by
    linear_combination h4
  exact mul_left_cancel₀ (mul_ne_zero h2 h2) h4'

theorem euler_neg (hp2 : p ≠ 2) (d : ZMod p) (h : ¬ IsSquare d) : d ^ (p / 2) = -1 := by
  have hd0 : d ≠ 0 := by rintro rfl; exact h (IsSquare.zero)
  rcases ZMod.pow_div_two_eq_neg_one_or_one p hd0 with h1 | h1
  · exact absurd ((ZMod.euler_criterion p hd0).2 h1) h
  · exact h1

/-- The polynomial branch returns a root. -/
theorem lehmer_root (hp2 : p ≠ 2) (hp5 : 5 ≤ p) (a b : Int) (c : ZMod p) (hc : (a : ZMod p) = c ^ 2)
    (hD : ¬ IsSquare (((b * b - 4 * a : Int)) : ZMod p)) :
    ∃ y, polynomialExpMod [0, 1] ((p + 1) / 2) [a, -b, 1] p = .ok [y, 0] ∧ 0 ≤ y ∧ y < p ∧
      ((y : Int) : ZMod p) ^ 2 = a := by
  let K := AlgebraicClosure (ZMod p)
  have : CharP K p := charP_of_injective_algebraMap (algebraMap (ZMod p) K).injective p
  have hD' : ¬ IsSquare ((b : ZMod p) ^ 2 - 4 * (a : ZMod p)) := by
    intro h; apply hD; push_cast; rw [← pow_two]; exact h
  obtain ⟨δ, hδ⟩ := IsAlgClosed.exists_pow_nat_eq
    (algebraMap (ZMod p) K ((b : ZMod p) ^ 2 - 4 * (a : ZMod p))) (n := 2) (by norm_num)
  have h2z : (2 : ZMod p) ≠ 0 := by
    intro h
    have : ((2 : Nat) : ZMod p) = 0 := by exact_mod_cast h
    rw [ZMod.natCast_eq_zero_iff] at this
    exact hp2 ((Nat.prime_dvd_prime_iff_eq hpf.out Nat.prime_two).1 this)
  have h2 : (2 : K) ≠ 0 := by
    intro h
    apply h2z
    apply (algebraMap (ZMod p) K).injective
    rw [map_zero, map_ofNat]; exact h
  set θ : K := (algebraMap (ZMod p) K (b : ZMod p) + δ) / 2 with hθdef
  have hθ2 : 2 * θ = algebraMap (ZMod p) K (b : ZMod p) + δ := by
    rw [hθdef, mul_comm]; exact div_mul_cancel₀ _ h2
  have hint : ∀ x : Int, ((x : Int) : K) = algebraMap (ZMod p) K ((x : Int) : ZMod p) := by
    intro x; simp
  have hroot : θ ^ 2 + ((-b : Int) : K) * θ + (a : K) = 0 := by
    have h4 : (2 * 2 : K) * (θ ^ 2 + ((-b : Int) : K) * θ + (a : K)) = 0 := by
      have e : (2 * 2 : K) * (θ ^ 2 + ((-b : Int) : K) * θ + (a : K)) =
          (2 * θ) ^ 2 - 2 * (b : K) * (2 * θ) + 4 * (a : K) := by push_cast; ring
      rw [e, hθ2, hint b, hint a]
      have : δ ^ 2 = (algebraMap (ZMod p) K b) ^ 2 - 4 * algebraMap (ZMod p) K a := by
        rw [hδ, map_sub, map_pow, map_mul, map_ofNat]
      linear_combination this
    exact (mul_eq_zero.1 h4).resolve_left (mul_ne_zero h2 h2)
  have hodd : p % 2 = 1 := hpf.out.eq_two_or_odd.resolve_left hp2
  obtain ⟨r, hr1, hr2, hr3, hr4⟩ := polyExp_spec p θ a (-b) hroot ((p + 1) / 2) (by omega) (by omega)
  have hsq := theta_pow p hp2 (a : ZMod p) (b : ZMod p) θ δ hδ hθ2 (euler_neg p hp2 _ hD')
  rw [← hr4] at hsq
  match r, hr2 with
  | [y, z], _ =>
    have hev : evalP θ [y, z] = algebraMap (ZMod p) K (y : ZMod p) +
        θ * algebraMap (ZMod p) K (z : ZMod p) := by
      simp [evalP]
    have hz : (z : ZMod p) = 0 := by
      by_contra hz
      rw [hc, map_pow] at hsq
      have hpm : evalP θ [y, z] = algebraMap (ZMod p) K c ∨
          evalP θ [y, z] = algebraMap (ZMod p) K (-c) := by
        rw [map_neg]; exact sq_eq_sq_iff_eq_or_eq_neg.1 hsq
      have : ∃ w : ZMod p, θ = algebraMap (ZMod p) K w := by
        have hzK : algebraMap (ZMod p) K (z : ZMod p) ≠ 0 := by
          intro h0
          apply hz
          apply (algebraMap (ZMod p) K).injective
          rw [h0, map_zero]
        rcases hpm with h | h
        · refine ⟨(c - y) / z, ?_⟩
          rw [map_div₀, map_sub, eq_div_iff hzK, ← h, hev]; ring
        · refine ⟨(-c - y) / z, ?_⟩
          rw [map_div₀, map_sub, eq_div_iff hzK, ← h, hev]; ring
      obtain ⟨w, hw⟩ := this
      apply hD'
      refine ⟨2 * w - b, ?_⟩
      apply (algebraMap (ZMod p) K).injective
      rw [← hδ, map_mul, map_sub, map_mul, map_ofNat, ← hw, hθ2]; ring
    have hz0 : z = 0 := by
      rw [ZMod.intCast_zmod_eq_zero_iff_dvd] at hz
      have := hr3 z (by simp)
      exact Int.eq_zero_of_dvd_of_nonneg_of_lt this.1 this.2 hz
    subst hz0
    have hy := hr3 y (by simp)
    refine ⟨y, hr1, hy.1, hy.2, ?_⟩
    apply (algebraMap (ZMod p) K).injective
    rw [← hsq, hev]; simp

/-- A suitable `b` exists. -/
theorem exists_lehmer_b (hp1 : p % 4 = 1) (c : ZMod p) (hc : c ≠ 0) :
    ∃ b : Nat, 2 ≤ b ∧ b < p ∧ ¬ IsSquare ((b : ZMod p) * b - 4 * c ^ 2) := by
  have hp2 : p ≠ 2 := by rintro rfl; omega
  have hp5 : 5 ≤ p := by
    have := hpf.out.two_le
    by_contra h
    have : p = 2 ∨ p = 3 ∨ p = 4 := by omega
    rcases this with h | h | h <;> subst h <;> omega
  have hneg1 : IsSquare (-1 : ZMod p) := by
    rw [ZMod.exists_sq_eq_neg_one_iff]; omega
  have h2z : (2 : ZMod p) ≠ 0 := by
    intro h
    have : ((2 : Nat) : ZMod p) = 0 := by exact_mod_cast h
    rw [ZMod.natCast_eq_zero_iff] at this
    exact hp2 ((Nat.prime_dvd_prime_iff_eq hpf.out Nat.prime_two).1 this)
  -- some field element works
  have hex : ∃ b : ZMod p, ¬ IsSquare (b * b - 4 * c ^ 2) := by
    by_contra hall
    push Not at hall
    have step : ∀ k : Nat, IsSquare (-(k : ZMod p) * (4 * c ^ 2)) := by
      intro k
      induction k with
      | zero => simp
      | succ k ih =>
        obtain ⟨b, hb⟩ := ih
        have := hall b
        rw [← hb] at this
        have e : -((k + 1 : Nat) : ZMod p) * (4 * c ^ 2) = -(k : ZMod p) * (4 * c ^ 2) - 4 * c ^ 2 := by
          push_cast; ring
        rw [e]; exact this
    obtain ⟨w, hw⟩ := FiniteField.exists_nonsquare (F := ZMod p) (by
      rw [ZMod.ringChar_zmod_n]; exact hp2)
    have h4c : (4 : ZMod p) * c ^ 2 ≠ 0 := by
      have : (4 : ZMod p) = 2 * 2 := by norm_num
      rw [this]
      exact mul_ne_zero (mul_ne_zero h2z h2z) (pow_ne_zero 2 hc)
    have := step ((-(w / (4 * c ^ 2))).val)
    rw [ZMod.natCast_val, ZMod.cast_id] at this
    apply hw
    rw [neg_neg, div_mul_cancel₀ _ h4c] at this
    exact this
  obtain ⟨b, hb⟩ := hex
  have hbv : ((b.val : Nat) : ZMod p) = b := by rw [ZMod.natCast_val, ZMod.cast_id]
  have hlt := b.val_lt
  have hb0 : b.val ≠ 0 := by
    intro h
    have : b = 0 := (ZMod.val_eq_zero b).1 h
    apply hb
    rw [this]
    obtain ⟨i, hi⟩ := hneg1
    refine ⟨2 * c * i, ?_⟩
    linear_combination (4 * c ^ 2) * hi
  by_cases h1 : b.val = 1
  · refine ⟨p - 1, by omega, by omega, ?_⟩
    have hb1 : b = 1 := by rw [← hbv, h1]; simp
    have : ((p - 1 : Nat) : ZMod p) = -1 := by
      rw [Nat.cast_sub (by omega)]; simp
    rw [this]
    rw [hb1] at hb
    intro h; apply hb
    have e : (-1 : ZMod p) * -1 - 4 * c ^ 2 = 1 * 1 - 4 * c ^ 2 := by ring
    rw [← e]; exact h
  · exact ⟨b.val, by omega, hlt, by rw [hbv]; exact hb⟩

theorem jacobi_prime (hp2 : p ≠ 2) (a : Int) : ∃ j, jacobi a p = .ok j ∧
    (j = -1 ↔ ¬ IsSquare (a : ZMod p)) := by
  have hodd : p % 2 = 1 := hpf.out.eq_two_or_odd.resolve_left hp2
  have := hpf.out.two_le
  refine ⟨J(a | p), jacobi_eq a p (by omega) hodd, ?_⟩
  rw [← jacobiSym.legendreSym.to_jacobiSym, legendreSym.eq_neg_one_iff]

theorem sqrtLoop_spec (hp1 : p % 4 = 1) (a : Int) (c : ZMod p) (hc : (a : ZMod p) = c ^ 2) :
    ∀ (fuel : Nat) (b : Int), 2 ≤ b → (b + fuel : Int) = p →
    (∃ b' : Nat, b ≤ b' ∧ b' < p ∧ ¬ IsSquare ((b' : ZMod p) * b' - 4 * c ^ 2)) →
    ∃ y, sqrtLoop a p fuel b = .ok y ∧ 0 ≤ y ∧ y < p ∧ ((y : Int) : ZMod p) ^ 2 = a
  | 0, b, hb, hf, h => by
    obtain ⟨b', h1, h2, _⟩ := h
    omega
  | fuel + 1, b, hb, hf, h => by
    have hp2 : p ≠ 2 := by rintro rfl; omega
    have hp5 : 5 ≤ p := by
      have := hpf.out.two_le
      by_contra h
      have : p = 2 ∨ p = 3 ∨ p = 4 := by omega
      rcases this with h | h | h <;> subst h <;> omega
    obtain ⟨j, hj, hjs⟩ := jacobi_prime p hp2 (b * b - 4 * a)
    unfold sqrtLoop
    simp only [hj, Bind.bind, Except.bind]
    by_cases hj1 : j = -1
    · rw [if_pos hj1]
      obtain ⟨y, hy1, hy2, hy3, hy4⟩ := lehmer_root p hp2 hp5 a b c hc (hjs.1 hj1)
      have e : (((p : Int) + 1) / 2).toNat = (p + 1) / 2 := by omega
      rw [e, hy1]
      exact ⟨y, rfl, hy2, hy3, hy4⟩
    · rw [if_neg hj1]
      apply sqrtLoop_spec hp1 a c hc fuel (b + 1) (by omega) (by push_cast at hf; omega)
      obtain ⟨b', h1, h2, h3⟩ := h
      refine ⟨b', ?_, h2, h3⟩
      rcases eq_or_lt_of_le h1 with h4 | h4
      · exfalso
        have h5 : IsSquare ((b * b - 4 * a : Int) : ZMod p) := by
          by_contra hc'; exact hj1 (hjs.2 hc')
        apply h3
        have h6 : ((b' : Nat) : ZMod p) = ((b : Int) : ZMod p) := by rw [h4]; simp
        rw [h6, ← hc]
        push_cast at h5; exact h5
      · omega

theorem cast_toNat_pow (a : Int) (e : Nat) : (((a ^ e % (p : Int) : Int)) : ZMod p) = (a : ZMod p) ^ e := by
  rw [cast_emod p]; push_cast; rfl

/-- For primes `4 k + 3` the root that is found is itself a square. -/
theorem squareRoot_isSquare (a : Int) (h0 : 0 ≤ a) (hlt : a < p) (h43 : (p : Int) % 4 = 3) (y : Int)
    (h : squareRootModPrime a p = .ok y) : IsSquare (y : ZMod p) := by
  have hA : (decide (0 ≤ a) && decide (a < (p : Int))) = true := by simp [h0, hlt]
  have hp2 : p ≠ 2 := by omega
  have hB : decide (1 < (p : Int)) = true := by
    have := hpf.out.two_le
    simp; omega
  have unf : squareRootModPrime a p =
    (if a = 0 then .ok 0 else if (p : Int) = 2 then .ok a else
      (jacobi a p).bind fun jac =>
      if jac = -1 then .error .squareRootError
      else if (p : Int) % 4 = 3 then modularExp a ((p + 1) / 4) (p : Int).toNat
      else if (p : Int) % 8 = 5 then
        (modularExp a ((p - 1) / 4) (p : Int).toNat).bind fun d =>
        if d = 1 then modularExp a ((p + 3) / 8) (p : Int).toNat
        else if d = p - 1 then
          (modularExp (4 * a) ((p - 5) / 8) (p : Int).toNat).bind fun t => .ok ((2 * a * t) % p)
        else .error .runtimeError
      else sqrtLoop a p (p - 2 : Int).toNat 2) := by
    simp only [squareRootModPrime, pyAssert, hA, hB, if_true]
    rfl
  rw [unf] at h
  by_cases ha0 : a = 0
  · rw [if_pos ha0] at h
    cases h
    simp
  rw [if_neg ha0, if_neg (by exact_mod_cast hp2)] at h
  obtain ⟨j, hj, hjs⟩ := jacobi_prime p hp2 a
  simp only [hj, Except.bind] at h
  by_cases hsq : IsSquare (a : ZMod p)
  · rw [if_neg (fun h => hjs.1 h hsq), if_pos h43, Int.toNat_natCast,
      modularExp_eq _ _ _ (by omega) (by omega)] at h
    cases h
    rw [cast_toNat_pow]
    exact hsq.pow _
  · rw [if_pos (hjs.2 hsq)] at h
    cases h

/-- Specification of `square_root_mod_prime` in `ZMod p`. -/
theorem squareRoot_spec (a : Int) (h0 : 0 ≤ a) (hlt : a < p) :
    (IsSquare (a : ZMod p) → ∃ y, squareRootModPrime a p = .ok y ∧ 0 ≤ y ∧ y < p ∧
      ((y : Int) : ZMod p) ^ 2 = a) ∧
    (¬ IsSquare (a : ZMod p) → squareRootModPrime a p = .error .squareRootError) := by
  have hp := hpf.out
  have h1p := hp.two_le
  have hA : (decide (0 ≤ a) && decide (a < (p : Int))) = true := by simp [h0, hlt]
  have hB : decide (1 < (p : Int)) = true := by simp; omega
  have hmpos : (0 : Int) < p := by omega
  have unf : squareRootModPrime a p =
    (if a = 0 then .ok 0 else if (p : Int) = 2 then .ok a else
      (jacobi a p).bind fun jac =>
      if jac = -1 then .error .squareRootError
      else if (p : Int) % 4 = 3 then modularExp a ((p + 1) / 4) (p : Int).toNat
      else if (p : Int) % 8 = 5 then
        (modularExp a ((p - 1) / 4) (p : Int).toNat).bind fun d =>
        if d = 1 then modularExp a ((p + 3) / 8) (p : Int).toNat
        else if d = p - 1 then
          (modularExp (4 * a) ((p - 5) / 8) (p : Int).toNat).bind fun t => .ok ((2 * a * t) % p)
        else .error .runtimeError
      else sqrtLoop a p (p - 2 : Int).toNat 2) := by
    simp only [squareRootModPrime, pyAssert, hA, hB, if_true]
    rfl
  rw [unf]
  by_cases ha0 : a = 0
  · subst ha0
    refine ⟨fun _ => ⟨0, by simp, le_rfl, hmpos, by simp⟩, fun h => absurd ?_ h⟩
    simp
  rw [if_neg ha0]
  by_cases hp2 : p = 2
  · have ha1 : a = 1 := by omega
    subst ha1
    rw [if_pos (by exact_mod_cast hp2)]
    refine ⟨fun _ => ⟨1, rfl, by omega, by omega, by simp⟩, fun h => absurd ?_ h⟩
    simp
  rw [if_neg (by exact_mod_cast hp2)]
  have hodd : p % 2 = 1 := hp.eq_two_or_odd.resolve_left hp2
  obtain ⟨j, hj, hjs⟩ := jacobi_prime p hp2 a
  simp only [hj, Except.bind]
  refine ⟨fun hsq => ?_, fun hns => by rw [if_pos (hjs.2 hns)]⟩
  have hj1 : ¬ j = -1 := fun h => hjs.1 h hsq
  rw [if_neg hj1]
  have haz : (a : ZMod p) ≠ 0 := by
    intro h
    rw [ZMod.intCast_zmod_eq_zero_iff_dvd] at h
    exact ha0 (Int.eq_zero_of_dvd_of_nonneg_of_lt h0 hlt h)
  have heul : (a : ZMod p) ^ (p / 2) = 1 := (ZMod.euler_criterion p haz).1 hsq
  have hmul : (a : ZMod p) ^ (p / 2) * a = a := by rw [heul, one_mul]
  have hppos : 0 < p := by omega
  have bnd : ∀ x : Int, 0 ≤ x % (p : Int) ∧ x % (p : Int) < p := fun x =>
    ⟨Int.emod_nonneg _ (by omega), Int.emod_lt_of_pos _ hmpos⟩
  rw [Int.toNat_natCast]
  by_cases h43 : (p : Int) % 4 = 3
  · rw [if_pos h43, modularExp_eq _ _ _ (by omega) hppos]
    refine ⟨_, rfl, (bnd _).1, (bnd _).2, ?_⟩
    rw [cast_toNat_pow, ← pow_mul, show (((p : Int) + 1) / 4).toNat * 2 = p / 2 + 1 by omega,
      pow_succ, hmul]
  rw [if_neg h43]
  by_cases h85 : (p : Int) % 8 = 5
  · rw [if_pos h85, modularExp_eq _ _ _ (by omega) hppos]
    simp only [Except.bind]
    set d := a ^ (((p : Int) - 1) / 4).toNat % (p : Int) with hd
    have hdz : (d : ZMod p) ^ 2 = 1 := by
      rw [hd, cast_toNat_pow, ← pow_mul,
        show (((p : Int) - 1) / 4).toNat * 2 = p / 2 by omega, heul]
    have hd1 : (d : ZMod p) = 1 ∨ (d : ZMod p) = -1 := by
      have : ((d : ZMod p) - 1) * ((d : ZMod p) + 1) = 0 := by linear_combination hdz
      rcases mul_eq_zero.1 this with h | h
      · left; linear_combination h
      · right; linear_combination h
    have hdb := bnd (a ^ (((p : Int) - 1) / 4).toNat)
    rw [← hd] at hdb
    by_cases hd1' : d = 1
    · rw [if_pos hd1', modularExp_eq _ _ _ (by omega) hppos]
      refine ⟨_, rfl, (bnd _).1, (bnd _).2, ?_⟩
      rw [cast_toNat_pow, ← pow_mul,
        show (((p : Int) + 3) / 8).toNat * 2 = (((p : Int) - 1) / 4).toNat + 1 by omega, pow_succ,
        ← cast_toNat_pow, ← hd, hd1']
      simp
    · rw [if_neg hd1']
      have hdm : (d : ZMod p) = -1 := by
        rcases hd1 with h | h
        · exfalso
          apply hd1'
          have h' : ((d - 1 : Int) : ZMod p) = 0 := by push_cast; rw [h]; ring
          rw [ZMod.intCast_zmod_eq_zero_iff_dvd] at h'
          obtain ⟨k, hk⟩ := h'
          have : k = 0 := by nlinarith
          rw [this] at hk; omega
        · exact h
      have hdp : d = p - 1 := by
        have h' : ((d + 1 : Int) : ZMod p) = 0 := by push_cast; rw [hdm]; ring
        rw [ZMod.intCast_zmod_eq_zero_iff_dvd] at h'
        obtain ⟨k, hk⟩ := h'
        have : k = 1 := by nlinarith
        rw [this] at hk; omega
      rw [if_pos hdp, modularExp_eq _ _ _ (by omega) hppos]
      refine ⟨_, rfl, (bnd _).1, (bnd _).2, ?_⟩
      rw [cast_emod p]
      rw [Int.cast_mul, cast_emod p]
      push_cast
      have h2 : ((2 : ZMod p)) ^ (p / 2) = -1 := by
        apply euler_neg p hp2
        rw [ZMod.exists_sq_eq_two_iff hp2]
        omega
      have h4 : (4 : ZMod p) ^ (((p : Int) - 1) / 4).toNat = -1 := by
        rw [show (4 : ZMod p) = 2 ^ 2 by norm_num, ← pow_mul,
          show 2 * (((p : Int) - 1) / 4).toNat = p / 2 by omega, h2]
      have hda : (a : ZMod p) ^ (((p : Int) - 1) / 4).toNat = -1 := by
        rw [← cast_toNat_pow, ← hd, hdm]
      have key : ((4 : ZMod p) * a) ^ (((p : Int) - 1) / 4).toNat = 1 := by
        rw [mul_pow, h4, hda]; ring
      have e2 : (((p : Int) - 1) / 4).toNat = (((p : Int) - 5) / 8).toNat * 2 + 1 := by omega
      rw [e2, pow_succ, pow_mul] at key
      linear_combination (a : ZMod p) * key
  · rw [if_neg h85]
    have hp1 : p % 4 = 1 := by omega
    obtain ⟨c, hc⟩ := hsq
    have hc0 : c ≠ 0 := by rintro rfl; simp at hc; exact haz hc
    obtain ⟨b, hb1, hb2, hb3⟩ := exists_lehmer_b p hp1 c hc0
    exact sqrtLoop_spec p hp1 a c (by rw [hc]; ring) (p - 2 : Int).toNat 2 le_rfl (by omega)
      ⟨b, by exact_mod_cast hb1, hb2, hb3⟩

end Prime

end NBC.NT
