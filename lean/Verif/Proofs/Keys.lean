import Verif.Proofs.PubKey
import Verif.Proofs.Ecdsa
import Verif.Proofs.Der
import Verif.Proofs.CurveOn

/-! # Lemmas about signing and verifying keys -/

namespace NBC.EC
open NBC NT

/-- The order attribute of a product: none, or that of the argument. -/
def OrderIn (o : Option Nat) (P : Pt) : Prop := P.order = none ∨ P.order = o

theorem mkPoint0_order {C : CurveFp} {x y : Int} {R : Pt} (h : mkPoint0 C x y = .ok R) :
    R.order = none := by
  simp only [mkPoint0, pyAssert, Bind.bind, Except.bind, Pure.pure, Except.pure] at h
  split at h
  · cases h
  · cases h; rfl

theorem double_order {C : CurveFp} {P R : Pt} (h : double C P = .ok R) : R.order = none := by
  cases P with
  | inf => cases h; rfl
  | aff x y o =>
    simp only [double, Bind.bind, Except.bind] at h
    split at h
    · cases h
    · exact mkPoint0_order h

theorem add_order {C : CurveFp} {P Q R : Pt} {o : Option Nat} (hP : OrderIn o P) (hQ : OrderIn o Q)
    (h : add C P Q = .ok R) : OrderIn o R := by
  cases Q with
  | inf => simp only [add] at h; cases h; exact hP
  | aff x2 y2 o2 =>
    cases P with
    | inf => simp only [add] at h; cases h; exact hQ
    | aff x1 y1 o1 =>
      simp only [add] at h
      split at h
      · split at h
        · cases h; exact Or.inl rfl
        · exact Or.inl (double_order h)
      · simp only [Bind.bind, Except.bind] at h
        split at h
        · cases h
        · exact Or.inl (mkPoint0_order h)

theorem mulLoop_order {C : CurveFp} {P N : Pt} {o : Option Nat} (hP : OrderIn o P)
    (hN : OrderIn o N) (e3 e : Nat) : ∀ (fuel i : Nat) (R S : Pt), OrderIn o R →
    mulLoop C P N e3 e fuel i R = .ok S → OrderIn o S
  | 0, _, R, S, hR, h => by simp only [mulLoop] at h; cases h; exact hR
  | fuel + 1, i, R, S, hR, h => by
    simp only [mulLoop] at h
    split at h
    · cases hd : double C R with
      | error e => rw [hd] at h; cases h
      | ok D =>
        have hD : OrderIn o D := Or.inl (double_order hd)
        rw [hd] at h
        simp only [Bind.bind, Except.bind] at h
        split at h
        · split at h
          · cases h
          · rename_i v hv
            have hV := add_order hD hP hv
            split at h
            · split at h
              · cases h
              · rename_i w hw
                exact mulLoop_order hP hN e3 e fuel _ w S (add_order hV hN hw) h
            · exact mulLoop_order hP hN e3 e fuel _ _ S hV h
        · split at h
          · split at h
            · cases h
            · rename_i w hw
              exact mulLoop_order hP hN e3 e fuel _ w S (add_order hD hN hw) h
          · exact mulLoop_order hP hN e3 e fuel _ _ S hD h
    · cases h; exact hR

theorem mul_order {C : CurveFp} {P R : Pt} {e : Int} (h : mul C P e = .ok R) :
    OrderIn P.order R := by
  have unf : mul C P e = (if effScalar P e = 0 then .ok .inf
    else match P with
      | .inf => .ok .inf
      | .aff x y order => do
        pyAssert (decide (effScalar P e > 0))
        let negSelf ← mkPointWith (mulD C 1) C x (-y) order
        mulLoop C P negSelf (3 * (effScalar P e).toNat) (effScalar P e).toNat
          (leftmostBit (3 * (effScalar P e).toNat) / 2)
          (leftmostBit (3 * (effScalar P e).toNat) / 2) P) := by
    cases P <;> rfl
  rw [unf] at h
  split at h
  · cases h; exact Or.inl rfl
  · cases P with
    | inf => cases h; exact Or.inl rfl
    | aff x y o =>
      simp only [Bind.bind, Except.bind] at h
      split at h
      · cases h
      · split at h
        · cases h
        · rename_i N hN
          have hN' : OrderIn o N := by
            simp only [mkPointWith, Bind.bind, Except.bind] at hN
            split at hN
            · cases hN
            · split at hN
              · cases hN; exact Or.inl rfl
              · split at hN
                · cases hN; exact Or.inr rfl
                · split at hN
                  · cases hN
                  · split at hN
                    · cases hN
                    · cases hN; exact Or.inr rfl
          exact mulLoop_order (P := .aff x y o) (o := o) (Or.inr rfl) hN' _ _ _ _ _ _ (Or.inr rfl) h

theorem mul_self_order {C : CurveFp} {x y : Int} {n : Nat} (hn : n ≠ 0) :
    mul C (.aff x y (some n)) (n : Int) = .ok .inf := by
  unfold mul mulD
  simp [Pt.order, hn]

end NBC.EC

namespace NBC.Ecdsa
open NBC NT EC Spec Der Key

theorem mkPublicKey_ok (C : CurveFp) (G : Pt) {n : Nat} (hn : n ≠ 0) (hG : G.order = some n)
    {x y : Int} {o : Option Nat} (hx : 0 ≤ x ∧ x < n) (hy : 0 ≤ y ∧ y < n)
    (hm : EC.mul C (.aff x y o) n = .ok .inf) :
    mkPublicKey C G (.aff x y o) = .ok ⟨C, G, .aff x y o⟩ := by
  simp only [mkPublicKey, hG, hn, if_false, hm, Bind.bind, Except.bind, Pt.eq, Pt.x, Pt.y, not_true]
  rw [if_neg (by omega)]

theorem mkPublicKey_range (C : CurveFp) (G : Pt) {n : Nat} (hn : n ≠ 0) (hG : G.order = some n)
    {x y : Int} {o : Option Nat} (h : ¬ (0 ≤ x ∧ x < n ∧ 0 ≤ y ∧ y < n))
    (hm : EC.mul C (.aff x y o) n = .ok .inf) :
    mkPublicKey C G (.aff x y o) = .error .runtimeError := by
  simp only [mkPublicKey, hG, hn, if_false, hm, Bind.bind, Except.bind, Pt.eq, Pt.x, Pt.y, not_true]
  rw [if_pos (by omega)]

/-- What `Public_key.__init__` has established. -/
theorem mkPublicKey_sound {C : CurveFp} {G P : Pt} {K : PublicKey} {n : Nat}
    (hG : G.order = some n) (h : mkPublicKey C G P = .ok K) :
    K = ⟨C, G, P⟩ ∧ n ≠ 0 ∧ ∃ x y : Int, ∃ o, P = .aff x y o ∧ 0 ≤ x ∧ x < n ∧ 0 ≤ y ∧ y < n ∧
      EC.mul C P n = .ok .inf := by
  simp only [mkPublicKey, hG] at h
  split at h
  · cases h
  · rename_i hn
    simp only [Bind.bind, Except.bind] at h
    cases hm : EC.mul C P n with
    | error e => rw [hm] at h; cases h
    | ok r =>
      rw [hm] at h
      simp only at h
      split at h
      · cases h
      · rename_i hr
        have hr : r = .inf := by
          cases r with
          | inf => rfl
          | aff => simp [Pt.eq] at hr
        subst hr
        cases P with
        | inf => cases h
        | aff x y o =>
          simp only [Pt.x, Pt.y] at h
          split at h
          · cases h
          · rename_i hxy
            cases h
            exact ⟨rfl, hn, x, y, o, rfl, by omega, by omega, by omega, by omega, rfl⟩

theorem fromString_ok (c : Curve) (hc : c.order ≠ 0) {x y : Nat} (hx : x < c.order)
    (hy : y < c.order) (hv : pointIsValid c.curve c.order x y = .ok true)
    (hon : c.curve.containsPoint x y = true) :
    VerifyingKey.fromString (beBytes c.baselen x ++ beBytes c.baselen y) c =
      .ok ⟨c, ⟨c.curve, c.generator, .aff x y (some c.order)⟩⟩ := by
  have hpos : 0 < c.baselen := orderlen_pos _
  have hxl : x < 256 ^ c.baselen := lt_trans hx (lt_256_pow_orderlen _)
  have hyl : y < 256 ^ c.baselen := lt_trans hy (lt_256_pow_orderlen _)
  have htake : (beBytes c.baselen x ++ beBytes c.baselen y).take c.baselen = beBytes c.baselen x := by
    rw [List.take_append_of_le_length (by simp)]; exact List.take_of_length_le (by simp)
  have hdrop : (beBytes c.baselen x ++ beBytes c.baselen y).drop c.baselen = beBytes c.baselen y := by
    rw [List.drop_append_of_le_length (by simp)]; simp
  have h1 := stringToNumber_of_length (beBytes_length c.baselen x) hpos
  have h2 := stringToNumber_of_length (beBytes_length c.baselen y) hpos
  rw [bytesVal_beBytes_of_lt hxl] at h1
  rw [bytesVal_beBytes_of_lt hyl] at h2
  have hl : ((beBytes c.baselen x ++ beBytes c.baselen y).length == 2 * c.baselen) = true := by
    simp; omega
  have hk := mkPublicKey_ok c.curve c.generator hc rfl (o := some c.order)
    (x := x) (y := y) ⟨by omega, by omega⟩ ⟨by omega, by omega⟩ (mul_self_order hc)
  simp only [VerifyingKey.fromString, hl, htake, hdrop, pyAssert, beBytes_length, beq_self_eq_true,
    if_true, Bind.bind, Except.bind, h1, h2, hv, mkPoint_eq, hon, VerifyingKey.fromPublicPoint, hk]
  rfl

theorem fromString_invalid (c : Curve) {x y : Nat} (hx : x < 256 ^ c.baselen)
    (hy : y < 256 ^ c.baselen) (hv : pointIsValid c.curve c.order x y = .ok false) :
    VerifyingKey.fromString (beBytes c.baselen x ++ beBytes c.baselen y) c =
      .error .assertionError := by
  have hpos : 0 < c.baselen := orderlen_pos _
  have htake : (beBytes c.baselen x ++ beBytes c.baselen y).take c.baselen = beBytes c.baselen x := by
    rw [List.take_append_of_le_length (by simp)]; exact List.take_of_length_le (by simp)
  have hdrop : (beBytes c.baselen x ++ beBytes c.baselen y).drop c.baselen = beBytes c.baselen y := by
    rw [List.drop_append_of_le_length (by simp)]; simp
  have h1 := stringToNumber_of_length (beBytes_length c.baselen x) hpos
  have h2 := stringToNumber_of_length (beBytes_length c.baselen y) hpos
  rw [bytesVal_beBytes_of_lt hx] at h1
  rw [bytesVal_beBytes_of_lt hy] at h2
  have hl : ((beBytes c.baselen x ++ beBytes c.baselen y).length == 2 * c.baselen) = true := by
    simp; omega
  simp only [VerifyingKey.fromString, hl, htake, hdrop, pyAssert, beBytes_length, beq_self_eq_true,
    if_true, Bind.bind, Except.bind, h1, h2, hv]
  rfl

theorem fromSecretExponent_ok (c : Curve) (hc : c.order ≠ 0) {d : Int} (h1 : 1 ≤ d) (h2 : d < c.order)
    {x y : Int} {o : Option Nat} (hm : EC.mul c.curve c.generator d = .ok (.aff x y o))
    (hx : 0 ≤ x ∧ x < c.order) (hy : 0 ≤ y ∧ y < c.order)
    (hn : EC.mul c.curve (.aff x y o) c.order = .ok .inf) :
    SigningKey.fromSecretExponent d c =
      .ok ⟨c, ⟨c, ⟨c.curve, c.generator, .aff x y o⟩⟩, ⟨c.curve, c.generator, .aff x y o⟩, d⟩ := by
  have hk := mkPublicKey_ok c.curve c.generator hc rfl hx hy hn
  simp only [SigningKey.fromSecretExponent, h1, h2, decide_true, Bool.and_self, pyAssert, if_true,
    Bind.bind, Except.bind, hm, hk, VerifyingKey.fromPublicPoint]
  rfl

theorem fromSecretExponent_bad (c : Curve) {d : Int} (h : ¬ (1 ≤ d ∧ d < c.order)) :
    SigningKey.fromSecretExponent d c = .error .assertionError := by
  have : (decide (1 ≤ d) && decide (d < (c.order : Int))) = false := by
    rw [Bool.and_eq_false_iff, decide_eq_false_iff_not, decide_eq_false_iff_not]; tauto
  simp only [SigningKey.fromSecretExponent, this, pyAssert, Bind.bind, Except.bind]
  rfl

theorem fromSecretExponent_range (c : Curve) (hc : c.order ≠ 0) {d : Int} (h1 : 1 ≤ d)
    (h2 : d < c.order) {x y : Int} {o : Option Nat}
    (hm : EC.mul c.curve c.generator d = .ok (.aff x y o))
    (hr : ¬ (0 ≤ x ∧ x < c.order ∧ 0 ≤ y ∧ y < c.order))
    (hn : EC.mul c.curve (.aff x y o) c.order = .ok .inf) :
    SigningKey.fromSecretExponent d c = .error .runtimeError := by
  have hk := mkPublicKey_range c.curve c.generator hc rfl hr hn
  simp only [SigningKey.fromSecretExponent, h1, h2, decide_true, Bool.and_self, pyAssert, if_true,
    Bind.bind, Except.bind, hm, hk]

/-- What `from_secret_exponent` has established. -/
theorem fromSecretExponent_sound {c : Curve} {d : Int} {sk : SigningKey}
    (h : SigningKey.fromSecretExponent d c = .ok sk) :
    1 ≤ d ∧ d < c.order ∧ ∃ x y : Int, ∃ o, EC.mul c.curve c.generator d = .ok (.aff x y o) ∧
      (0 ≤ x ∧ x < c.order) ∧ (0 ≤ y ∧ y < c.order) ∧
      EC.mul c.curve (.aff x y o) c.order = .ok .inf ∧
      sk = ⟨c, ⟨c, ⟨c.curve, c.generator, .aff x y o⟩⟩, ⟨c.curve, c.generator, .aff x y o⟩, d⟩ := by
  simp only [SigningKey.fromSecretExponent, Bind.bind, Except.bind] at h
  by_cases hd : 1 ≤ d ∧ d < c.order
  · obtain ⟨h1, h2⟩ := hd
    simp only [h1, h2, decide_true, Bool.and_self, pyAssert, if_true] at h
    cases hm : EC.mul c.curve c.generator d with
    | error e => rw [hm] at h; cases h
    | ok P =>
      rw [hm] at h
      simp only at h
      cases hk : mkPublicKey c.curve c.generator P with
      | error e => rw [hk] at h; cases h
      | ok K =>
        obtain ⟨rfl, hn, x, y, o, rfl, a1, a2, a3, a4, a5⟩ := mkPublicKey_sound rfl hk
        rw [hk] at h
        simp only [VerifyingKey.fromPublicPoint, hk, Bind.bind, Except.bind, Pure.pure, Except.pure] at h
        cases h
        exact ⟨h1, h2, x, y, o, rfl, ⟨a1, a2⟩, ⟨a3, a4⟩, a5, rfl⟩
  · have : (decide (1 ≤ d) && decide (d < (c.order : Int))) = false := by
      rw [Bool.and_eq_false_iff, decide_eq_false_iff_not, decide_eq_false_iff_not]; tauto
    rw [this] at h
    cases h

theorem toStr_eq {vk : VerifyingKey} {x y : Nat} {o : Option Nat}
    (hp : vk.pubkey.point = .aff x y o) (hx : x < vk.curve.order) (hy : y < vk.curve.order) :
    vk.toStr = .ok (beBytes vk.curve.baselen x ++ beBytes vk.curve.baselen y) := by
  have h1 := numberToString_eq (lt_trans hx (lt_256_pow_orderlen _))
  have h2 := numberToString_eq (lt_trans hy (lt_256_pow_orderlen _))
  simp only [VerifyingKey.toStr, hp, Pt.x, Pt.y, h1, h2]
  rfl

end NBC.Ecdsa
