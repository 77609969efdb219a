import Verif.Model.KeysUnchecked
import Verif.Props.Points
import Verif.Props.Curve

/-!
# Property C169: reading a public key without the check of its point
-/

namespace NBC.Props
open NBC NT EC Ecdsa Spec Key Der

/-- With the check it is the function of the other properties. -/
theorem fromStringV_true (s : Bytes) (c : Curve) : VerifyingKey.fromStringV s c true = VerifyingKey.fromString s c := by
  unfold VerifyingKey.fromStringV VerifyingKey.fromString
  simp only [if_true, pure_bind, bind_assoc]

/-- `from_public_point` on a point that carries the order of the curve. -/
theorem fromPublicPoint_order (c : Curve) (hn : c.order ≠ 0) (x y : Nat) :
    VerifyingKey.fromPublicPoint (.aff x y (some c.order)) c =
      if x < c.order ∧ y < c.order then .ok ⟨c, ⟨c.curve, c.generator, .aff x y (some c.order)⟩⟩
      else .error .runtimeError := by
  have hm := mul_self_order (C := c.curve) (x := x) (y := y) hn
  have e : (((x : Int) < 0 ∨ (c.order : Int) ≤ x ∨ (y : Int) < 0 ∨ (c.order : Int) ≤ y)) ↔
      ¬ (x < c.order ∧ y < c.order) := by omega
  simp only [VerifyingKey.fromPublicPoint, mkPublicKey, Curve.generator, Pt.order, hn, if_false, hm, Pt.x, Pt.y,
    Bind.bind, Except.bind, e]
  by_cases h : x < c.order ∧ y < c.order
  · simp [h, Pt.eq, pure, Except.pure]
  · simp [h, Pt.eq]

/-- C169.  Without the check, on any curve whatever.  A string of the wrong length and one whose coordinates do not
satisfy the equation are an `AssertionError`; a point of the curve whose coordinates are not below the order is a
`RuntimeError`; every other string is the key of its two coordinates.  The order of the point is never looked at. -/
theorem C169_unchecked (c : Curve) (hn : c.order ≠ 0) (s : Bytes) :
    (s.length ≠ 2 * c.baselen → VerifyingKey.fromStringV s c false = .error .assertionError) ∧
    (s.length = 2 * c.baselen → ∀ x y, x = bytesVal (s.take c.baselen) → y = bytesVal (s.drop c.baselen) →
      (¬ OnCurve c.curve x y → VerifyingKey.fromStringV s c false = .error .assertionError) ∧
      (OnCurve c.curve x y → ¬ (x < c.order ∧ y < c.order) →
        VerifyingKey.fromStringV s c false = .error .runtimeError) ∧
      (OnCurve c.curve x y → x < c.order ∧ y < c.order →
        VerifyingKey.fromStringV s c false = .ok ⟨c, ⟨c.curve, c.generator, .aff x y (some c.order)⟩⟩)) := by
  refine ⟨fun h => ?_, ?_⟩
  · have : (s.length == 2 * c.baselen) = false := by simpa using h
    simp [VerifyingKey.fromStringV, this, pyAssert, Bind.bind, Except.bind]
  · rintro h x y rfl rfl
    have hpos : 0 < c.baselen := orderlen_pos _
    have l1 : (s.take c.baselen).length = c.baselen := by rw [List.length_take]; omega
    have l2 : (s.drop c.baselen).length = c.baselen := by rw [List.length_drop]; omega
    have h1 := stringToNumber_of_length l1 hpos
    have h2 := stringToNumber_of_length l2 hpos
    have e : VerifyingKey.fromStringV s c false = (do
        let point ← mkPoint c.curve (bytesVal (s.take c.baselen)) (bytesVal (s.drop c.baselen)) (some c.order)
        VerifyingKey.fromPublicPoint point c) := by
      simp only [VerifyingKey.fromStringV, h, l1, l2, pyAssert, beq_self_eq_true, if_true, Bind.bind, Except.bind, h1,
        h2, Bool.false_eq_true, if_false, pure, Except.pure]
    rw [e]
    refine ⟨fun ho => ?_, fun ho hr => ?_, fun ho hr => ?_⟩
    · rw [(C18_constructor _ _ _ _).1 ho]; rfl
    · rw [(C18_constructor _ _ _ _).2 ho]
      exact (fromPublicPoint_order c hn _ _).trans (if_neg hr)
    · rw [(C18_constructor _ _ _ _).2 ho]
      exact (fromPublicPoint_order c hn _ _).trans (if_pos hr)

/-- C169.  On each of the six curves the argument changes nothing in what is accepted: the same strings are keys with
and without the check, and they are the same keys. -/
theorem C169_same (c : Curve) (hc : c ∈ curves) (s : Bytes) (vk : VerifyingKey) :
    VerifyingKey.fromStringV s c false = .ok vk ↔ VerifyingKey.fromStringV s c true = .ok vk := by
  have : Fact c.curve.p.Prime := ⟨(curveOk_of_mem hc).prime_p⟩
  have hn : c.order ≠ 0 := (curveOk_of_mem hc).order_pos.ne'
  obtain ⟨hbad, hgood⟩ := C169_unchecked c hn s
  have hk := (C132_keys c hc s).1
  -- what the check lets through is the key of the coordinates
  have up : ∀ vk, VerifyingKey.fromString s c = .ok vk → VerifyingKey.fromStringV s c false = .ok vk := by
    intro vk h
    unfold VerifyingKey.fromString at h
    unfold VerifyingKey.fromStringV
    obtain ⟨a1, h1, h⟩ := bind_ok_iff.1 h
    obtain ⟨a2, h2, h⟩ := bind_ok_iff.1 h
    obtain ⟨a3, h3, h⟩ := bind_ok_iff.1 h
    obtain ⟨x, h4, h⟩ := bind_ok_iff.1 h
    obtain ⟨y, h5, h⟩ := bind_ok_iff.1 h
    obtain ⟨b, h6, h⟩ := bind_ok_iff.1 h
    obtain ⟨_, h7, h⟩ := bind_ok_iff.1 h
    simp only [h1, h2, h3, h4, h5, Bind.bind, Except.bind, Bool.false_eq_true, if_false]
    exact h
  rw [fromStringV_true]
  refine ⟨fun h => ?_, up vk⟩
  by_cases hl : s.length = 2 * c.baselen
  · obtain ⟨g1, g2, g3⟩ := hgood hl _ _ rfl rfl
    by_cases ho : OnCurve c.curve (bytesVal (s.take c.baselen)) (bytesVal (s.drop c.baselen))
    · by_cases hr : bytesVal (s.take c.baselen) < c.order ∧ bytesVal (s.drop c.baselen) < c.order
      · obtain ⟨vk', h'⟩ := hk.2 ⟨hl, hr.1, hr.2, ho⟩
        have := up vk' h'
        rw [h] at this
        cases this
        exact h'
      · rw [g2 ho hr] at h; cases h
    · rw [g1 ho] at h; cases h
  · rw [hbad hl] at h; cases h

/-- A curve of a program's own: 33 points, and a generator of order 11. -/
def ownCurve : Curve := ⟨"own", ⟨23, 4, 19⟩, 1, 1, 11, [1, 3, 132]⟩

/-- C169 is false of a curve whose group is larger than the one of its generator.  The point `(3, 9)` of this curve has
order 3, so it is no public key; the check refuses it, and without the check it is taken. -/
theorem C169_own_curve_false :
    ¬ ∀ (c : Curve) (s : Bytes) (vk : VerifyingKey), mul c.curve (.aff c.gx c.gy none) c.order = .ok .inf →
      VerifyingKey.fromStringV s c false = .ok vk → VerifyingKey.fromStringV s c true = .ok vk := by
  intro h
  have := h ownCurve [3, 9] ⟨ownCurve, ⟨ownCurve.curve, ownCurve.generator, .aff 3 9 (some 11)⟩⟩ (by decide +kernel)
    (by decide +kernel)
  revert this
  decide +kernel

/-- No private key of that curve has this public key. -/
example : (mul ownCurve.curve (.aff 3 9 none) 3 = .ok .inf) ∧
    (∀ d : Nat, d < 11 → mul ownCurve.curve (.aff 1 1 none) d ≠ .ok (.aff 3 9 none)) := by decide +kernel

/-- A point of NIST192p, read without the check; with one digit changed it is refused. -/
example : VerifyingKey.fromStringV (beBytes 24 nist192p.gx.toNat ++ beBytes 24 nist192p.gy.toNat) nist192p false =
      .ok ⟨nist192p, ⟨nist192p.curve, nist192p.generator, nist192p.generator⟩⟩ ∧
    VerifyingKey.fromStringV (beBytes 24 nist192p.gx.toNat ++ beBytes 24 (nist192p.gy.toNat + 1)) nist192p false =
      .error .assertionError := by decide +kernel

end NBC.Props
