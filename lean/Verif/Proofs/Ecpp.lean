import Mathlib.AlgebraicGeometry.EllipticCurve.Affine.Point
import Mathlib.GroupTheory.OrderOfElement
import Mathlib.Data.ZMod.Basic
import Verif.Proofs.Pocklington

/-!
# Primality certificates from elliptic curves

The Goldwasser–Kilian criterion with the elementary bound `2p + 2` on a prime order, and a
checker the kernel evaluates on literal numbers.  Used for the order of NIST521p, whose
predecessor does not factor far enough for Pocklington's criterion alone.
-/

namespace NBC.NT
open NBC WeierstrassCurve

/-- Evaluate `n` before passing it on (the kernel reduces the major premise of the match). -/
def forced {α : Type} (n : Nat) (f : Nat → α) : α :=
  match n with
  | 0 => f 0
  | m + 1 => f (m + 1)

theorem forced_eq {α : Type} (n : Nat) (f : Nat → α) : forced n f = f n := by
  cases n <;> rfl

/-- The third point of the line of slope `l` through `(x₁, y₁)` and a point at `x₂`, reflected. -/
def ecLine (N l x₁ y₁ x₂ : Nat) : Nat × Nat :=
  forced ((l * l + (N - x₁ % N) + (N - x₂ % N)) % N) fun x₃ =>
    forced ((l * (x₁ + (N - x₃ % N)) + (N - y₁ % N)) % N) fun y₃ => (x₃, y₃)

/-- Sum of two points with `x₁ - x₂` invertible. -/
def ecAdd (N x₁ y₁ x₂ y₂ : Nat) : Option (Nat × Nat) :=
  forced ((x₁ + (N - x₂ % N)) % N) fun d =>
    forced (powMod d (N - 2) N) fun u =>
      if u * d % N = 1 then
        forced ((y₁ + (N - y₂ % N)) * u % N) fun l => some (ecLine N l x₁ y₁ x₂)
      else none

/-- Double of a point with `2 y` invertible. -/
def ecDbl (N a x y : Nat) : Option (Nat × Nat) :=
  forced (2 * y % N) fun d =>
    forced (powMod d (N - 2) N) fun u =>
      if u * d % N = 1 then
        forced ((3 * (x * x) + a) * u % N) fun l => some (ecLine N l x y x)
      else none

/-- `k` times the point, from the leading bit down. -/
def ecMul (N a px py k : Nat) : Nat → Nat → Nat → Option (Nat × Nat)
  | 0, x, y => some (x, y)
  | i + 1, x, y =>
    match ecDbl N a x y with
    | none => none
    | some (x', y') =>
      if (k / 2 ^ i) % 2 = 1 then
        match ecAdd N x' y' px py with
        | none => none
        | some (x'', y'') => ecMul N a px py k i x'' y''
      else ecMul N a px py k i x' y'

/-- The curve `y² = x³ + a x + b` through `(x, y)`, over `ZMod p`. -/
def ecW (p a x y : Nat) : Affine (ZMod p) :=
  ⟨0, 0, 0, (a : ZMod p), (y : ZMod p) ^ 2 - (x : ZMod p) ^ 3 - a * x⟩

variable {p : Nat} [hp : Fact p.Prime]

theorem cast_mod_of_dvd {N : Nat} (hd : p ∣ N) (x : Nat) : ((x % N : Nat) : ZMod p) = (x : ZMod p) := by
  rw [ZMod.natCast_eq_natCast_iff]
  exact (Nat.mod_modEq x N).of_dvd hd

theorem cast_neg_mod {N : Nat} (hN : 0 < N) (hd : p ∣ N) (x : Nat) :
    ((N - x % N : Nat) : ZMod p) = -(x : ZMod p) := by
  rw [Nat.cast_sub (Nat.mod_lt x hN).le, cast_mod_of_dvd hd,
    (ZMod.natCast_eq_zero_iff N p).mpr hd, zero_sub]

theorem unit_ne {N u d : Nat} (hd : p ∣ N) (h : u * d % N = 1) :
    (u : ZMod p) * (d : ZMod p) = 1 := by
  have := cast_mod_of_dvd hd (u * d)
  rw [h] at this
  push_cast at this
  exact this.symm

/-- The pair `(x, y)` is the affine point `P`. -/
def IsPt (W : Affine (ZMod p)) (x y : Nat) (P : W.Point) : Prop :=
  ∃ h : W.Nonsingular (x : ZMod p) (y : ZMod p), P = Affine.Point.some (x : ZMod p) (y : ZMod p) h

theorem ecLine_cast {N : Nat} (hN : 0 < N) (hd : p ∣ N) (l x₁ y₁ x₂ : Nat) :
    (((ecLine N l x₁ y₁ x₂).1 : Nat) : ZMod p) = (l : ZMod p) ^ 2 - x₁ - x₂ ∧
    (((ecLine N l x₁ y₁ x₂).2 : Nat) : ZMod p) =
      (l : ZMod p) * (x₁ - ((l : ZMod p) ^ 2 - x₁ - x₂)) - y₁ := by
  have e1 : (((ecLine N l x₁ y₁ x₂).1 : Nat) : ZMod p) = (l : ZMod p) ^ 2 - x₁ - x₂ := by
    unfold ecLine
    rw [forced_eq, forced_eq]
    simp only
    rw [cast_mod_of_dvd hd]
    push_cast
    rw [cast_neg_mod hN hd, cast_neg_mod hN hd]
    ring
  refine ⟨e1, ?_⟩
  rw [← e1]
  unfold ecLine
  rw [forced_eq, forced_eq]
  simp only
  rw [cast_mod_of_dvd hd]
  push_cast
  rw [cast_neg_mod hN hd, cast_neg_mod hN hd]
  ring

theorem isPt_of_eq {W : Affine (ZMod p)} {x y : Nat} {u v : ZMod p} {h : W.Nonsingular u v}
    (hx : (x : ZMod p) = u) (hy : (y : ZMod p) = v) : IsPt W x y (Affine.Point.some u v h) := by
  subst hx hy
  exact ⟨h, rfl⟩

theorem ecAdd_spec {N a bx bY : Nat} (hN : 1 < N) (hd : p ∣ N) {x₁ y₁ x₂ y₂ x y : Nat}
    {P Q : (ecW p a bx bY).Point} (hP : IsPt _ x₁ y₁ P) (hQ : IsPt _ x₂ y₂ Q)
    (h : ecAdd N x₁ y₁ x₂ y₂ = some (x, y)) : IsPt _ x y (P + Q) := by
  obtain ⟨h1, rfl⟩ := hP
  obtain ⟨h2, rfl⟩ := hQ
  unfold ecAdd at h
  rw [forced_eq, forced_eq] at h
  split at h
  · rename_i hu
    rw [forced_eq] at h
    have hun := unit_ne hd hu
    set u := powMod ((x₁ + (N - x₂ % N)) % N) (N - 2) N
    rw [cast_mod_of_dvd hd] at hun
    push_cast at hun
    rw [cast_neg_mod (by omega) hd] at hun
    have hne : (x₁ : ZMod p) ≠ x₂ := by
      intro he
      rw [he] at hun
      simp at hun
    have hsub : (x₁ : ZMod p) - x₂ ≠ 0 := sub_ne_zero.mpr hne
    rw [Affine.Point.add_of_X_ne hne]
    have hl : (((y₁ + (N - y₂ % N)) * u % N : Nat) : ZMod p) =
        (ecW p a bx bY).slope x₁ x₂ y₁ y₂ := by
      rw [Affine.slope_of_X_ne hne, cast_mod_of_dvd hd]
      push_cast
      rw [cast_neg_mod (by omega) hd, eq_div_iff hsub]
      linear_combination ((y₁ : ZMod p) - y₂) * hun
    have hc := ecLine_cast (by omega) hd ((y₁ + (N - y₂ % N)) * u % N) x₁ y₁ x₂
    rw [Option.some.injEq] at h
    rw [h] at hc
    simp only at hc
    apply isPt_of_eq
    · rw [hc.1, hl, Affine.addX]; simp [ecW]
    · rw [hc.2, hl, Affine.addY, Affine.negAddY, Affine.addX, Affine.negY]; simp [ecW]; ring
  · exact absurd h (by simp)

theorem ecDbl_spec {N a bx bY : Nat} (hN : 1 < N) (hd : p ∣ N) {x₁ y₁ x y : Nat}
    {P : (ecW p a bx bY).Point} (hP : IsPt _ x₁ y₁ P)
    (h : ecDbl N a x₁ y₁ = some (x, y)) : IsPt _ x y (P + P) := by
  obtain ⟨h1, rfl⟩ := hP
  unfold ecDbl at h
  rw [forced_eq, forced_eq] at h
  split at h
  · rename_i hu
    rw [forced_eq] at h
    have hun := unit_ne hd hu
    set u := powMod (2 * y₁ % N) (N - 2) N
    rw [cast_mod_of_dvd hd] at hun
    push_cast at hun
    have h2y : (2 : ZMod p) * y₁ ≠ 0 := by
      intro he
      rw [he] at hun
      simp at hun
    have hneg : (ecW p a bx bY).negY (x₁ : ZMod p) (y₁ : ZMod p) = -(y₁ : ZMod p) := by
      simp [Affine.negY, ecW]
    have hne : (y₁ : ZMod p) ≠ (ecW p a bx bY).negY x₁ y₁ := by
      rw [hneg]
      intro he
      apply h2y
      linear_combination he
    rw [Affine.Point.add_self_of_Y_ne hne]
    have hl : (((3 * (x₁ * x₁) + a) * u % N : Nat) : ZMod p) =
        (ecW p a bx bY).slope x₁ x₁ y₁ y₁ := by
      rw [Affine.slope_of_Y_ne rfl hne, cast_mod_of_dvd hd, hneg]
      have : (y₁ : ZMod p) - -y₁ ≠ 0 := by
        intro he; apply h2y; linear_combination he
      rw [eq_div_iff this]
      push_cast
      simp only [ecW]
      linear_combination ((3 : ZMod p) * x₁ ^ 2 + a) * hun
    have hc := ecLine_cast (by omega) hd ((3 * (x₁ * x₁) + a) * u % N) x₁ y₁ x₁
    rw [Option.some.injEq] at h
    rw [h] at hc
    simp only at hc
    apply isPt_of_eq
    · rw [hc.1, hl, Affine.addX]; simp [ecW]
    · rw [hc.2, hl, Affine.addY, Affine.negAddY, Affine.addX, Affine.negY]; simp [ecW]; ring
  · exact absurd h (by simp)

theorem ecMul_spec {N a bx bY : Nat} (hN : 1 < N) (hd : p ∣ N) {px py k : Nat}
    {P : (ecW p a bx bY).Point} (hP : IsPt _ px py P) :
    ∀ (i : Nat) {x y x' y' : Nat}, IsPt _ x y ((k / 2 ^ i) • P) →
      ecMul N a px py k i x y = some (x', y') → IsPt _ x' y' (k • P) := by
  intro i
  induction i with
  | zero =>
    intro x y x' y' hxy h
    simp only [ecMul, Option.some.injEq, Prod.mk.injEq] at h
    obtain ⟨rfl, rfl⟩ := h
    simpa using hxy
  | succ i ih =>
    intro x y x' y' hxy h
    have hk : k / 2 ^ i = 2 * (k / 2 ^ (i + 1)) + (k / 2 ^ i) % 2 := by
      rw [pow_succ, ← Nat.div_div_eq_div_mul]
      omega
    simp only [ecMul] at h
    split at h
    · exact absurd h (by simp)
    · rename_i u v hdbl
      have h2 := ecDbl_spec hN hd hxy hdbl
      rw [← add_nsmul, ← two_mul] at h2
      split at h
      · rename_i hbit
        split at h
        · exact absurd h (by simp)
        · rename_i s t hadd
          have h3 := ecAdd_spec hN hd h2 hP hadd
          refine ih ?_ h
          rw [hk, hbit, succ_nsmul]
          exact h3
      · rename_i hbit
        refine ih ?_ h
        have h0 : (k / 2 ^ i) % 2 = 0 := by omega
        rw [hk, h0, add_zero]
        exact h2

/-- A point of prime order `q` needs at least `(q - 1) / 2` different `x` coordinates. -/
theorem order_le {W : Affine (ZMod p)} {q : Nat} (hq : q.Prime) {Q : W.Point} (h0 : Q ≠ 0)
    (hqQ : q • Q = 0) : q ≤ 2 * p + 2 := by
  have : Fact q.Prime := ⟨hq⟩
  have hord : addOrderOf Q = q := addOrderOf_eq_prime hqQ h0
  classical
  let f : Fin ((q - 1) / 2) → ZMod p := fun i =>
    match (i.1 + 1) • Q with
    | .zero => 0
    | .some x _ _ => x
  have hnz : ∀ m : Nat, 0 < m → m < q → m • Q ≠ 0 := by
    intro m hm hmq he
    have := addOrderOf_dvd_of_nsmul_eq_zero he
    rw [hord] at this
    exact absurd (Nat.le_of_dvd hm this) (by omega)
  have hinj : Function.Injective f := by
    intro i j hij
    have hi := i.2
    have hj := j.2
    have hi0 := hnz (i.1 + 1) (by omega) (by omega)
    have hj0 := hnz (j.1 + 1) (by omega) (by omega)
    simp only [f] at hij
    have key : (i.1 + 1) • Q = (j.1 + 1) • Q ∨ (i.1 + 1) • Q = -((j.1 + 1) • Q) := by
      revert hij hi0 hj0
      generalize (i.1 + 1) • Q = A
      generalize (j.1 + 1) • Q = B
      intro hij hA hB
      rcases A with _ | ⟨x, y, hx⟩
      · exact absurd rfl hA
      rcases B with _ | ⟨x', y', hx'⟩
      · exact absurd rfl hB
      simp only at hij
      subst hij
      rcases Affine.Y_eq_of_X_eq hx.1 hx'.1 rfl with h | h
      · left; subst h; rfl
      · right; subst h; rw [Affine.Point.neg_some]
    rcases key with h | h
    · have h1 : (i.1 + 1) % addOrderOf Q = (j.1 + 1) % addOrderOf Q :=
        (nsmul_inj_mod).mp h
      rw [hord, Nat.mod_eq_of_lt (by omega), Nat.mod_eq_of_lt (by omega)] at h1
      exact Fin.ext (by omega)
    · exfalso
      have h1 : (i.1 + 1 + (j.1 + 1)) • Q = 0 := by
        rw [add_nsmul, h]; simp
      exact hnz _ (by omega) (by omega) h1
  have hcard := Fintype.card_le_of_injective f hinj
  rw [Fintype.card_fin, ZMod.card] at hcard
  have := hq.two_le
  omega

/-- The checker: `(x, y)` on `y² = x³ + a x + b` satisfies `(q - 1) • (x, y) = (x, -y)` with every
denominator invertible modulo `N`, and `q` is larger than a curve over a prime at most `√N` allows. -/
def ecppCheck (N a x y q i : Nat) : Bool :=
  decide (1 < N) && decide (4 * N < (q - 2) * (q - 2)) && decide ((q - 1) / 2 ^ i = 1) &&
  decide (powMod (2 * y) (N - 2) N * (2 * y) % N = 1) &&
  match ecMul N a x y (q - 1) i x y with
  | none => false
  | some (x', y') => decide (x' % N = x % N) && decide ((y + y') % N = 0)

theorem prime_of_ecppCheck (N a x y q i : Nat) (hq : q.Prime) (h : ecppCheck N a x y q i = true) :
    N.Prime := by
  simp only [ecppCheck, Bool.and_eq_true, decide_eq_true_eq] at h
  obtain ⟨⟨⟨⟨hN, hsz⟩, hbits⟩, hy⟩, hm⟩ := h
  split at hm
  · exact absurd hm (by simp)
  rename_i x' y' hmul
  simp only [Bool.and_eq_true, decide_eq_true_eq] at hm
  obtain ⟨hx', hy'⟩ := hm
  by_contra hcomp
  have hrp : N.minFac.Prime := Nat.minFac_prime (by omega)
  have hd : N.minFac ∣ N := Nat.minFac_dvd N
  have hr2 : N.minFac * N.minFac ≤ N := by
    have := Nat.minFac_sq_le_self (by omega : 0 < N) hcomp
    rwa [sq] at this
  have : Fact N.minFac.Prime := ⟨hrp⟩
  generalize N.minFac = r at *
  have h2y : (2 : ZMod r) * y ≠ 0 := by
    have := unit_ne hd hy
    intro he
    push_cast at this
    rw [he] at this
    simp at this
  have hns : (ecW r a x y).Nonsingular (x : ZMod r) (y : ZMod r) := by
    rw [Affine.nonsingular_iff]
    refine ⟨?_, Or.inr ?_⟩
    · rw [Affine.equation_iff]; simp [ecW]
    · simp only [ecW]
      intro he
      apply h2y
      linear_combination he
  have hP : IsPt (ecW r a x y) x y (Affine.Point.some _ _ hns) := ⟨hns, rfl⟩
  have hk := ecMul_spec (k := q - 1) hN hd hP i (by rw [hbits, one_nsmul]; exact hP) hmul
  obtain ⟨h', he⟩ := hk
  have hxx : (x' : ZMod r) = x := by
    rw [← cast_mod_of_dvd hd x', hx', cast_mod_of_dvd hd]
  have hyy : (y' : ZMod r) = -y := by
    have := cast_mod_of_dvd hd (y + y')
    rw [hy'] at this
    push_cast at this
    linear_combination -this
  have hneg : (q - 1) • (Affine.Point.some _ _ hns : (ecW r a x y).Point) =
      -Affine.Point.some _ _ hns := by
    rw [he, Affine.Point.neg_some]
    simp only [Affine.Point.some.injEq]
    exact ⟨hxx, by rw [hyy]; simp [Affine.negY, ecW]⟩
  have hz : q • (Affine.Point.some _ _ hns : (ecW r a x y).Point) = 0 := by
    have : q = (q - 1) + 1 := by have := hq.two_le; omega
    rw [this, succ_nsmul, hneg]; simp
  have hle := order_le hq (Affine.Point.some_ne_zero hns) hz
  have h1 : q - 2 ≤ 2 * r := by omega
  have h2 := Nat.mul_le_mul h1 h1
  have h3 : 2 * r * (2 * r) = 4 * (r * r) := by ring
  omega

end NBC.NT
