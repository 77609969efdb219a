import Mathlib.Data.Nat.Digits.Lemmas
import Verif.Model.Bytes
import Verif.Spec.Bytes

/-! # Lemmas on digit loops, hexadecimal text and big-endian values -/

namespace NBC
open Spec

/-! ## `beVal` -/

theorem beVal_append (b : Nat) (xs ys : List Nat) :
    beVal b (xs ++ ys) = beVal b xs * b ^ ys.length + beVal b ys := by
  induction xs with
  | nil => simp [beVal]
  | cons x xs ih =>
    simp only [List.cons_append, beVal, ih, List.length_append, pow_add]
    ring

theorem beVal_eq_ofDigits (b : Nat) (ds : List Nat) : beVal b ds = Nat.ofDigits b ds.reverse := by
  induction ds with
  | nil => simp [beVal]
  | cons d ds ih =>
    rw [beVal, ih, List.reverse_cons, Nat.ofDigits_append]
    simp [Nat.ofDigits_singleton]; ring

theorem beVal_lt (b : Nat) (ds : List Nat) (h : ∀ d ∈ ds, d < b) : beVal b ds < b ^ ds.length := by
  induction ds with
  | nil => simp [beVal]
  | cons d ds ih =>
    have h1 : d + 1 ≤ b := h d (by simp)
    have h2 := ih (fun x hx => h x (by simp [hx]))
    calc beVal b (d :: ds) = d * b ^ ds.length + beVal b ds := rfl
      _ < d * b ^ ds.length + b ^ ds.length := by omega
      _ = (d + 1) * b ^ ds.length := by ring
      _ ≤ b * b ^ ds.length := Nat.mul_le_mul_right _ h1
      _ = b ^ (d :: ds).length := by simp [pow_succ]; ring

theorem beVal_replicate_zero (b k : Nat) (ds : List Nat) :
    beVal b (List.replicate k 0 ++ ds) = beVal b ds := by
  induction k with
  | zero => simp
  | succ k ih => simp [List.replicate_succ, beVal, ih]

theorem beVal_foldl (b : Nat) (ds : List Nat) (a : Nat) :
    ds.foldl (fun acc d => acc * b + d) a = a * b ^ ds.length + beVal b ds := by
  induction ds generalizing a with
  | nil => simp [beVal]
  | cons d ds ih => simp only [List.foldl_cons, ih, beVal, List.length_cons, pow_succ]; ring

/-- Equal length and equal value force equal digits. -/
theorem beVal_inj (b : Nat) : ∀ (xs ys : List Nat), xs.length = ys.length →
    (∀ d ∈ xs, d < b) → (∀ d ∈ ys, d < b) → beVal b xs = beVal b ys → xs = ys
  | [], [], _, _, _, _ => rfl
  | x :: xs, y :: ys, hl, hx, hy, h => by
    have hl' : xs.length = ys.length := by simpa using hl
    have h1 := beVal_lt b xs (fun d hd => hx d (by simp [hd]))
    have h2 := beVal_lt b ys (fun d hd => hy d (by simp [hd]))
    simp only [beVal, hl'] at h h1
    have hpos : 0 < b ^ ys.length := by omega
    have hxy : x = y := by
      have e1 : (x * b ^ ys.length + beVal b xs) / b ^ ys.length = x := by
        rw [Nat.add_comm, Nat.add_mul_div_right _ _ hpos, Nat.div_eq_of_lt h1]; simp
      have e2 : (y * b ^ ys.length + beVal b ys) / b ^ ys.length = y := by
        rw [Nat.add_comm, Nat.add_mul_div_right _ _ hpos, Nat.div_eq_of_lt h2]; simp
      rw [← e1, ← e2, h]
    subst hxy
    rw [beVal_inj b xs ys hl' (fun d hd => hx d (by simp [hd]))
      (fun d hd => hy d (by simp [hd])) (by omega)]

/-! ## the digit loop -/

theorem digitsLoop_eq (b : Nat) (hb : 2 ≤ b) : ∀ (fuel n : Nat) (acc : List Nat), n ≤ fuel →
    digitsLoop b fuel n acc = (Nat.digits b n).reverse ++ acc
  | 0, n, acc, h => by
    have : n = 0 := by omega
    subst this; simp [digitsLoop]
  | fuel + 1, n, acc, h => by
    unfold digitsLoop
    by_cases hn : n = 0
    · simp [hn]
    · have hlt : n / b < n := Nat.div_lt_self (by omega) (by omega)
      rw [if_neg hn, digitsLoop_eq b hb fuel (n / b) _ (by omega),
        Nat.digits_def' (by omega) (by omega : 0 < n)]
      simp

theorem digitsBE_eq (b n : Nat) (hb : 2 ≤ b) : digitsBE b n = (Nat.digits b n).reverse := by
  simp [digitsBE, digitsLoop_eq b hb n n [] le_rfl]

theorem digitsBE_lt (b n : Nat) (hb : 2 ≤ b) : ∀ d ∈ digitsBE b n, d < b := by
  intro d hd
  rw [digitsBE_eq b n hb] at hd
  exact Nat.digits_lt_base (by omega) (List.mem_reverse.1 hd)

theorem beVal_digitsBE (b n : Nat) (hb : 2 ≤ b) : beVal b (digitsBE b n) = n := by
  rw [beVal_eq_ofDigits, digitsBE_eq b n hb, List.reverse_reverse, Nat.ofDigits_digits]

theorem digitsBE_zero (b : Nat) : digitsBE b 0 = [] := rfl

theorem digitsBE_step (b n : Nat) (hb : 2 ≤ b) (hn : n ≠ 0) :
    digitsBE b n = digitsBE b (n / b) ++ [n % b] := by
  rw [digitsBE_eq b n hb, digitsBE_eq b _ hb, Nat.digits_def' (by omega) (by omega),
    List.reverse_cons]

theorem digitsBE_beVal (b : Nat) (hb : 2 ≤ b) (ds : List Nat) (h : ∀ d ∈ ds, d < b)
    (h0 : ∀ x, ds.head? = some x → x ≠ 0) : digitsBE b (beVal b ds) = ds := by
  rw [digitsBE_eq b _ hb, beVal_eq_ofDigits, Nat.digits_ofDigits b (by omega), List.reverse_reverse]
  · intro d hd; exact h d (List.mem_reverse.1 hd)
  · intro hne
    rw [List.getLast_reverse]
    cases ds with
    | nil => simp at hne
    | cons x xs => exact h0 x rfl

theorem digitsBE_head (b n : Nat) (hb : 2 ≤ b) : ∀ x, (digitsBE b n).head? = some x → x ≠ 0 := by
  intro x hx
  rw [digitsBE_eq b n hb, List.head?_reverse] at hx
  have hne : Nat.digits b n ≠ [] := by
    intro h; rw [h] at hx; simp at hx
  have := Nat.getLast_digit_ne_zero b (m := n) (by
    intro h; subst h; simp at hne)
  rw [List.getLast?_eq_getLast_of_ne_nil hne] at hx
  simp only [Option.some.injEq] at hx
  rw [← hx]; exact this

/-- The number of digits is the least one that suffices. -/
theorem digitsBE_length_le_iff (b n k : Nat) (hb : 2 ≤ b) :
    (digitsBE b n).length ≤ k ↔ n < b ^ k := by
  rw [digitsBE_eq b n hb, List.length_reverse]
  exact Nat.digits_length_le_iff (by omega) n

end NBC
