import Mathlib.Algebra.Order.Field.Basic
import Mathlib.Algebra.BigOperators.Field
import Mathlib.Data.Int.CardIntervalMod
import Mathlib.Tactic.FieldSimp
import Mathlib.Tactic.Linarith
import Verif.Proofs.WalletFile
import Verif.Props.Uniform

/-!
# Property C148: scalars from a seed are nearly uniform

`randrange_from_seed__overshoot_modulo`: "turn it into a number that's sufficiently larger than the group order, then
modulo it down to fit.  This should give adequate (but not perfect) uniformity".  As in C145, by counting: what the
generator gives is one of the `256 ^ (2 * orderlen order)` strings of that length, all of them equally likely.
-/

namespace NBC.Props
open NBC NT EC Ecdsa Spec Key Der Secp Wallet

/-- When the generator gives the string of value `v`, the function returns `k`. -/
def Gives (order v k : Nat) : Prop :=
  ∀ (H : Hashes) (seed : Bytes), prng H seed 0 (2 * orderlen order) = beBytes (2 * orderlen order) v →
    overshootModulo H seed order = .ok k

open Classical in
/-- The number of strings with which the function returns `k`. -/
noncomputable def seedCount (order k : Nat) : Nat :=
  ((Finset.range (256 ^ (2 * orderlen order))).filter (fun v => Gives order v k)).card

theorem fmtDecNat_inj {a b : Nat} (h : fmtDecNat a = fmtDecNat b) : a = b := by
  rw [← decVal_fmt a, h, decVal_fmt]

open Classical in
/-- A hash function whose generator of `seed` gives the bytes `out`. -/
noncomputable def oracle (out : Nat → UInt8) (seed : Bytes) : Hashes :=
  { Hashes.toy with
    sha256 := fun x =>
      if h : ∃ c, x = [112, 114, 110, 103, 45] ++ fmtDecNat c ++ [45] ++ seed then
        (List.range 32).map fun j => out (32 * h.choose + j)
      else List.replicate 32 0
    sha256_length := fun x => by
      split <;> simp }

theorem oracle_prng (out : Nat → UInt8) (seed : Bytes) (m : Nat) :
    prng (oracle out seed) seed 0 m = (List.range m).map out := by
  unfold prng
  apply List.map_congr_left
  intro j _
  rw [Nat.zero_add]
  unfold prngByte prngBlock oracle
  have h : ∃ c, [112, 114, 110, 103, 45] ++ fmtDecNat (j / 32) ++ [45] ++ seed =
      [112, 114, 110, 103, 45] ++ fmtDecNat c ++ [45] ++ seed := ⟨_, rfl⟩
  have hc : h.choose = j / 32 := by
    have h2 : ∀ c, [112, 114, 110, 103, 45] ++ fmtDecNat (j / 32) ++ [45] ++ seed =
        [112, 114, 110, 103, 45] ++ fmtDecNat c ++ [45] ++ seed → c = j / 32 := fun c hc =>
      (fmtDecNat_inj (List.append_cancel_left (List.append_cancel_right (List.append_cancel_right hc)))).symm
    exact h2 _ h.choose_spec
  dsimp only
  rw [dif_pos h, hc, List.getD_eq_getElem?_getD, List.getElem?_map,
    List.getElem?_range (Nat.mod_lt j (by norm_num))]
  simp only [Option.map_some, Option.getD_some]
  rw [Nat.div_add_mod]

/-- C148: every string is what the generator of every seed gives, with some hash function: so the count is of real
runs of the function. -/
theorem C148_outputs (seed : Bytes) (m v : Nat) (hv : v < 256 ^ m) :
    ∃ H : Hashes, prng H seed 0 m = beBytes m v := by
  refine ⟨oracle (fun i => (beBytes m v).getD i 0) seed, ?_⟩
  rw [oracle_prng]
  apply List.ext_getElem
  · simp [beBytes_length]
  · intro i h1 h2
    rw [List.getElem_map, List.getElem_range, List.getD_eq_getElem?_getD, List.getElem?_eq_getElem h2,
      Option.getD_some]

theorem gives_iff {order v k : Nat} (ho : 1 < order) (hv : v < 256 ^ (2 * orderlen order)) :
    Gives order v k ↔ v % (order - 1) + 1 = k := by
  have key : ∀ (H : Hashes) (seed : Bytes), prng H seed 0 (2 * orderlen order) = beBytes (2 * orderlen order) v →
      overshootModulo H seed order = .ok (v % (order - 1) + 1) := by
    intro H seed h
    obtain ⟨k', e1, -, -, e2⟩ := C87_overshoot H seed order ho
    rw [h, bytesVal_beBytes_of_lt hv] at e2
    rw [e1]
    congr 1
    have hm : ((order : Int) - 1) = ((order - 1 : Nat) : Int) := by omega
    rw [hm] at e2
    exact_mod_cast e2
  refine ⟨fun h => ?_, fun h H seed e => by rw [key H seed e, h]⟩
  obtain ⟨H, e⟩ := C148_outputs [] _ v hv
  have := h H [] e
  rw [key H [] e] at this
  exact Except.ok.inj this

/-- C148: every scalar of `[1, order - 1]` is the outcome of `q` or of `q + 1` strings, with the same `q` for all. -/
theorem C148_count (order k : Nat) (hk : 1 ≤ k ∧ k < order) :
    seedCount order k = 256 ^ (2 * orderlen order) / (order - 1) +
      if k ≤ 256 ^ (2 * orderlen order) % (order - 1) then 1 else 0 := by
  classical
  have hr : 0 < order - 1 := by omega
  have e : seedCount order k = Nat.count (· ≡ k - 1 [MOD (order - 1)]) (256 ^ (2 * orderlen order)) := by
    rw [Nat.count_eq_card_filter_range]
    unfold seedCount
    congr 1
    apply Finset.filter_congr
    intro v hv
    rw [gives_iff (by omega) (Finset.mem_range.1 hv)]
    unfold Nat.ModEq
    rw [Nat.mod_eq_of_lt (by omega : k - 1 < order - 1)]
    omega
  rw [e, Nat.count_modEq_card _ hr, Nat.mod_eq_of_lt (by omega : k - 1 < order - 1)]
  congr 1
  generalize 256 ^ (2 * orderlen order) % (order - 1) = r
  by_cases h : k ≤ r
  · rw [if_pos h, if_pos (by omega)]
  · rw [if_neg h, if_neg (by omega)]

/-- C148: there is no other outcome. -/
theorem C148_range (order v : Nat) (ho : 1 < order) (hv : v < 256 ^ (2 * orderlen order)) :
    ∃! k, 1 ≤ k ∧ k < order ∧ Gives order v k := by
  have hm := Nat.mod_lt v (by omega : order - 1 > 0)
  refine ⟨v % (order - 1) + 1, ⟨by omega, by omega, (gives_iff ho hv).2 rfl⟩, ?_⟩
  rintro k ⟨-, -, h⟩
  exact ((gives_iff ho hv).1 h).symm

/-- C148: "adequate": the probability of any set of scalars differs from that of the uniform distribution by at most
`256 ^ -l`, where `l` is the length of the order in bytes. -/
theorem C148_distance (order : Nat) (ho : 1 < order) (A : Finset Nat) (hA : ∀ k ∈ A, 1 ≤ k ∧ k < order) :
    |((∑ k ∈ A, seedCount order k : Nat) : ℚ) / 256 ^ (2 * orderlen order) - (A.card : ℚ) / (order - 1 : Nat)| ≤
      1 / 256 ^ orderlen order := by
  classical
  set M := 256 ^ (2 * orderlen order) with hM
  set N := order - 1 with hN
  have hN0 : 0 < N := by omega
  have hM0 : 0 < M := Nat.pow_pos (by norm_num)
  have hcast : (256 : ℚ) ^ (2 * orderlen order) = (M : ℚ) := by rw [hM]; push_cast; rfl
  have hsum : (∑ k ∈ A, seedCount order k) = A.card * (M / N) + (A.filter (· ≤ M % N)).card := by
    rw [Finset.card_filter, Finset.sum_congr rfl (fun k hk => C148_count order k (hA k hk)), Finset.sum_add_distrib,
      Finset.sum_const, smul_eq_mul]
  set b := (A.filter (· ≤ M % N)).card with hb
  have hAN : A.card ≤ N := by
    have : A ⊆ Finset.Ioo 0 order := fun k hk => by
      have := hA k hk
      rw [Finset.mem_Ioo]; omega
    have := Finset.card_le_card this
    rw [Nat.card_Ioo] at this
    omega
  have hbA : b ≤ N := (Finset.card_filter_le _ _).trans hAN
  have hr : M % N < N := Nat.mod_lt _ hN0
  have hdm : N * (M / N) + M % N = M := Nat.div_add_mod M N
  have hNl : N * 256 ^ orderlen order ≤ M := by
    have h1 : order < 256 ^ orderlen order := (orderlen_le_iff order _ (orderlen_pos order)).1 le_rfl
    rw [hM, two_mul, pow_add]
    exact Nat.mul_le_mul_right _ (by omega)
  rw [hsum, hcast]
  generalize M / N = q at *
  generalize M % N = r at *
  have hL : 0 < 256 ^ orderlen order := Nat.pow_pos (by norm_num)
  have hLc : (256 : ℚ) ^ orderlen order = ((256 ^ orderlen order : Nat) : ℚ) := by push_cast; rfl
  rw [hLc]
  generalize (256 : Nat) ^ orderlen order = L at hNl hL ⊢
  have hbr : (b : ℚ) ≤ N := by exact_mod_cast hbA
  have hAr : (A.card : ℚ) ≤ N := by exact_mod_cast hAN
  have hrN : (r : ℚ) ≤ N := by exact_mod_cast hr.le
  have hb0 : (0 : ℚ) ≤ b := Nat.cast_nonneg b
  have hA0 : (0 : ℚ) ≤ A.card := Nat.cast_nonneg _
  have hr0 : (0 : ℚ) ≤ r := Nat.cast_nonneg r
  have hNp : (0 : ℚ) < N := by exact_mod_cast hN0
  have hMp : (0 : ℚ) < M := by exact_mod_cast hM0
  have hMq : (M : ℚ) = N * q + r := by exact_mod_cast hdm.symm
  have hLM : (N : ℚ) * L ≤ M := by exact_mod_cast hNl
  have hLp : (0 : ℚ) < L := by exact_mod_cast hL
  have h1 : ((A.card * q + b : Nat) : ℚ) / M - (A.card : ℚ) / N = (b * N - A.card * r) / (M * N) := by
    push_cast
    rw [div_sub_div _ _ hMp.ne' hNp.ne', hMq]
    congr 1
    ring
  have h2 : |(b : ℚ) * N - A.card * r| ≤ N * N := by
    rw [abs_le]
    have := mul_le_mul_of_nonneg_right hbr hNp.le
    have := mul_le_mul hAr hrN hr0 hNp.le
    have := mul_nonneg hb0 hNp.le
    have := mul_nonneg hA0 hr0
    constructor <;> linarith
  rw [h1, abs_div, abs_of_pos (mul_pos hMp hNp), div_le_div_iff₀ (mul_pos hMp hNp) hLp, one_mul]
  calc |(b : ℚ) * N - A.card * r| * L ≤ N * N * L := mul_le_mul_of_nonneg_right h2 hLp.le
    _ = N * L * N := by ring
    _ ≤ M * N := mul_le_mul_of_nonneg_right hLM hNp.le

/-- C148: "not perfect": the distribution is uniform exactly when `order - 1` divides the number of strings. -/
theorem C148_exact (order : Nat) (ho : 1 < order) :
    (∀ k k', 1 ≤ k ∧ k < order → 1 ≤ k' ∧ k' < order → seedCount order k = seedCount order k') ↔
      order - 1 ∣ 256 ^ (2 * orderlen order) := by
  have hr := Nat.mod_lt (256 ^ (2 * orderlen order)) (by omega : order - 1 > 0)
  rw [Nat.dvd_iff_mod_eq_zero]
  constructor
  · intro h
    by_contra h0
    have := h 1 (order - 1) ⟨le_rfl, ho⟩ ⟨by omega, by omega⟩
    rw [C148_count _ _ ⟨le_rfl, ho⟩, C148_count _ _ ⟨by omega, by omega⟩, if_pos (by omega), if_neg (by omega)] at this
    omega
  · intro h k k' hk hk'
    rw [C148_count _ _ hk, C148_count _ _ hk', h, if_neg (by omega), if_neg (by omega)]

/-- C148: so it is uniform for none of the curves of the library. -/
theorem C148_curves (c : Curve) (hc : c ∈ curves) :
    ∃ k k', (1 ≤ k ∧ k < c.order) ∧ (1 ≤ k' ∧ k' < c.order) ∧ seedCount c.order k ≠ seedCount c.order k' := by
  by_contra hn
  push Not at hn
  have h1 : 1 < c.order ∧ 256 ^ (2 * orderlen c.order) % (c.order - 1) ≠ 0 := by
    clear hn
    simp only [curves, List.mem_cons, List.not_mem_nil, or_false] at hc
    rcases hc with rfl | rfl | rfl | rfl | rfl | rfl
    · decide +kernel
    · decide +kernel
    · decide +kernel
    · decide +kernel
    · decide +kernel
    · decide +kernel
  exact h1.2 (Nat.dvd_iff_mod_eq_zero.1 ((C148_exact c.order h1.1).1 (fun k k' hk hk' => hn k k' hk hk')))

/-- For the order 200 (one byte): 65536 strings, 199 scalars; 1, ..., 65 come from 330 of them, the others from 329. -/
example : seedCount 200 65 = 330 ∧ seedCount 200 66 = 329 := by
  have h : orderlen 200 = 1 := by decide +kernel
  rw [C148_count 200 65 (by norm_num), C148_count 200 66 (by norm_num), h]
  decide +kernel

/-- For the order 257 every scalar comes from `2 ^ 24` strings of four bytes. -/
example (k k' : Nat) (hk : 1 ≤ k ∧ k < 257) (hk' : 1 ≤ k' ∧ k' < 257) : seedCount 257 k = seedCount 257 k' :=
  (C148_exact 257 (by norm_num)).2 (by decide +kernel) k k' hk hk'

end NBC.Props
