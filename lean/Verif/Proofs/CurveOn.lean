import Verif.Proofs.CurveMul

/-!
# Every point a program can build is on its curve (no assumption on the modulus)
-/

namespace NBC.EC
open NBC NT Spec

variable {C : CurveFp}

theorem mkPoint0_on {x y : Int} {R : Pt} (h : mkPoint0 C x y = .ok R) : PtOn C R := by
  obtain ⟨h1, rfl⟩ := mkPoint0_ok h
  exact (onCurve_iff C x y).mpr h1

theorem double_on {P R : Pt} (h : double C P = .ok R) : PtOn C R := by
  cases P with
  | inf => injection h with h; subst h; trivial
  | aff x y o =>
    simp only [double] at h
    cases hi : inverseMod (2 * y) C.p with
    | error e => simp [hi, Bind.bind, Except.bind] at h
    | ok i =>
      simp only [hi, Bind.bind, Except.bind] at h
      exact mkPoint0_on h

theorem add_on {P Q R : Pt} (hP : PtOn C P) (hQ : PtOn C Q) (h : add C P Q = .ok R) : PtOn C R := by
  cases Q with
  | inf =>
    have : add C P .inf = .ok P := by cases P <;> rfl
    rw [this] at h; injection h with h; subst h; exact hP
  | aff x2 y2 o2 =>
    cases P with
    | inf => simp only [add] at h; injection h with h; subst h; exact hQ
    | aff x1 y1 o1 =>
      simp only [add] at h
      split at h
      · split at h
        · injection h with h; subst h; trivial
        · exact double_on h
      · cases hi : inverseMod (x2 - x1) C.p with
        | error e => simp [hi, Bind.bind, Except.bind] at h
        | ok i =>
          simp only [hi, Bind.bind, Except.bind] at h
          exact mkPoint0_on h

theorem mulLoop_on {P N : Pt} (hP : PtOn C P) (hN : PtOn C N) (e3 e : Nat) :
    ∀ fuel i R R', PtOn C R → mulLoop C P N e3 e fuel i R = .ok R' → PtOn C R'
  | 0, i, R, R', hR, h => by injection h with h; subst h; exact hR
  | fuel + 1, i, R, R', hR, h => by
    unfold mulLoop at h
    split at h
    · cases h1 : double C R with
      | error e => simp [h1, Bind.bind, Except.bind] at h
      | ok R1 =>
        have hR1 := double_on h1
        simp only [h1, Bind.bind, Except.bind] at h
        -- the second conditional addition and the recursive call
        have second : ∀ R2, PtOn C R2 →
            (if e3 &&& i = 0 ∧ e &&& i ≠ 0 then
              Except.bind (add C R2 N) fun v => mulLoop C P N e3 e fuel (i / 2) v
            else mulLoop C P N e3 e fuel (i / 2) R2) = Except.ok R' → PtOn C R' := by
          intro R2 hR2 h
          split at h
          · cases h3 : add C R2 N with
            | error e => simp [h3, Except.bind] at h
            | ok R3 =>
              simp only [h3, Except.bind] at h
              exact mulLoop_on hP hN e3 e fuel _ R3 R' (add_on hR2 hN h3) h
          · exact mulLoop_on hP hN e3 e fuel _ R2 R' hR2 h
        split at h
        · cases h2 : add C R1 P with
          | error e => simp [h2] at h
          | ok R2 =>
            simp only [h2] at h
            exact second R2 (add_on hR1 hP h2) h
        · exact second R1 hR1 h
    · injection h with h; subst h; exact hR

theorem mul_on {P R : Pt} {e : Int} (hP : PtOn C P) (h : mul C P e = .ok R) : PtOn C R := by
  have unf : mul C P e = (if effScalar P e = 0 then .ok .inf
    else match P with
      | .inf => .ok .inf
      | .aff x y order => do
        pyAssert (decide (effScalar P e > 0))
        let negSelf ← mkPointWith (mulD C 1) C x (-y) order
        mulLoop C P negSelf (3 * (effScalar P e).toNat) (effScalar P e).toNat
          (leftmostBit (3 * (effScalar P e).toNat) / 2)
          (leftmostBit (3 * (effScalar P e).toNat) / 2) P) := by
    cases P <;> rfl
  rw [unf] at h
  split at h
  · injection h with h; subst h; trivial
  · cases P with
    | inf => injection h with h; subst h; trivial
    | aff x y o =>
      have hc : C.containsPoint x y = true := (onCurve_iff C x y).mp hP
      simp only at h
      rw [mkPointWith_eq 0 o (by rw [contains_neg]; exact hc)] at h
      unfold pyAssert at h
      split at h
      · simp only [Bind.bind, Except.bind] at h
        refine mulLoop_on hP ?_ _ _ _ _ _ _ hP h
        exact (onCurve_iff C x (-y)).mpr (by rw [contains_neg]; exact hc)
      · cases h

theorem built_on {P : Pt} (h : Built C P) : PtOn C P := by
  induction h with
  | inf => trivial
  | new h =>
    rw [mkPoint_eq] at h
    split at h
    · rename_i hc; injection h with h; subst h; exact (onCurve_iff _ _ _).mpr hc
    · cases h
  | add _ _ h h1 h2 => exact add_on h1 h2 h
  | mul _ h h1 => exact mul_on h1 h
  | double _ h _ => exact double_on h

end NBC.EC
