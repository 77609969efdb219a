import Verif.Proofs.Keys
import Verif.Proofs.PyBind

/-! # Keys on SECP256k1 -/

namespace NBC.Secp
open NBC NT EC Ecdsa Spec Key Der

/-- `(x, y)` are the coordinates of `d` times the generator. -/
def PubPoint (d : Int) (x y : Nat) : Prop :=
  x < p ∧ y < p ∧ ∃ h, d • g = .some (x : ZMod K.p) (y : ZMod K.p) h

theorem baselen_eq : secp256k1.baselen = 32 := orderlen_n
theorem order_ne : secp256k1.order ≠ 0 := by decide

theorem PubPoint.on {d : Int} {x y : Nat} (h : PubPoint d x y) : OnCurve K x y := by
  obtain ⟨-, -, h, -⟩ := h
  rw [onCurve_iff, containsPoint_iff, Int.cast_natCast, Int.cast_natCast]
  exact h.1

theorem PubPoint.rep {d : Int} {x y : Nat} (h : PubPoint d x y) (o : Option Nat) :
    Rep K (.aff x y o) (d • g) := by
  obtain ⟨hx, -, hns, he⟩ := h
  refine ⟨by omega, by exact_mod_cast hx, by simpa using hns, ?_⟩
  rw [he]; simp

theorem PubPoint.unique {d : Int} {x y x' y' : Nat} (h : PubPoint d x y) (h' : PubPoint d x' y') :
    x = x' ∧ y = y' := by
  obtain ⟨hx, hy, hns, he⟩ := h
  obtain ⟨hx', hy', hns', he'⟩ := h'
  rw [he] at he'
  simp only [WeierstrassCurve.Affine.Point.some.injEq] at he'
  constructor
  · have := (ZMod.natCast_eq_natCast_iff' x x' p).1 he'.1
    rwa [Nat.mod_eq_of_lt hx, Nat.mod_eq_of_lt hx'] at this
  · have := (ZMod.natCast_eq_natCast_iff' y y' p).1 he'.2
    rwa [Nat.mod_eq_of_lt hy, Nat.mod_eq_of_lt hy'] at this

theorem smul_ne {d : Int} (h1 : 1 ≤ d) (h2 : d < n) : d • g ≠ 0 := by
  intro h0
  rw [← addOrderOf_dvd_iff_zsmul_eq_zero, addOrderOf_g] at h0
  exact not_dvd_of_range h1 h2 h0

theorem reduced_gen : Reduced K secp256k1.generator := by
  show (0 : Int) ≤ secp256k1.gy ∧ secp256k1.gy < K.p
  decide

/-- The point object computed for a secret exponent. -/
theorem gen_mul {d : Int} (h1 : 1 ≤ d) (h2 : d < n) :
    ∃ (x y : Nat) (o : Option Nat), (o = none ∨ o = some n) ∧ PubPoint d x y ∧
      EC.mul K secp256k1.generator d = .ok (.aff x y o) := by
  obtain ⟨R, hm, hr, hred⟩ := genOk.mul d (by omega)
  have ho := mul_order hm
  cases R with
  | inf => exact absurd hr (smul_ne h1 h2)
  | aff x y o =>
    have hred := hred h2 reduced_gen
    obtain ⟨hx0, hxp, hns, he⟩ := hr
    obtain ⟨hy0, hyp⟩ := hred
    obtain ⟨x, rfl⟩ := Int.eq_ofNat_of_zero_le hx0
    obtain ⟨y, rfl⟩ := Int.eq_ofNat_of_zero_le hy0
    refine ⟨x, y, o, ho, ⟨by exact_mod_cast hxp, by exact_mod_cast hyp, ?_⟩, hm⟩
    refine ⟨by simpa using hns, ?_⟩
    rw [he]; simp

theorem PubPoint.mul_n {d : Int} {x y : Nat} (h : PubPoint d x y) {o : Option Nat}
    (ho : o = none ∨ o = some n) : EC.mul K (.aff x y o) (n : Int) = .ok .inf := by
  rcases ho with rfl | rfl
  · exact mul_n_eq (by omega) (by exact_mod_cast h.1) h.on
  · exact mul_self_order (by decide)

theorem PubPoint.keyOk {d : Int} {x y : Nat} (h : PubPoint d x y) {o : Option Nat}
    (ho : o = none ∨ o = some n) : KeyOk K n (.aff x y o) (d • g) :=
  ⟨h.rep o, ho, n_smul _⟩

theorem fromSecretExponent_secp {d : Int} (h1 : 1 ≤ d) (h2 : d < n) :
    ∃ (x y : Nat) (o : Option Nat), (o = none ∨ o = some n) ∧ PubPoint d x y ∧
      (x < n ∧ y < n → SigningKey.fromSecretExponent d secp256k1 =
        .ok ⟨secp256k1, ⟨secp256k1, ⟨K, secp256k1.generator, .aff x y o⟩⟩,
          ⟨K, secp256k1.generator, .aff x y o⟩, d⟩) ∧
      (¬ (x < n ∧ y < n) → SigningKey.fromSecretExponent d secp256k1 = .error .runtimeError) := by
  obtain ⟨x, y, o, ho, hp, hm⟩ := gen_mul h1 h2
  refine ⟨x, y, o, ho, hp, ?_, ?_⟩
  · rintro ⟨hx, hy⟩
    exact fromSecretExponent_ok secp256k1 order_ne h1 h2 hm ⟨by omega, by exact_mod_cast hx⟩
      ⟨by omega, by exact_mod_cast hy⟩ (hp.mul_n ho)
  · intro hxy
    refine fromSecretExponent_range secp256k1 order_ne h1 h2 hm ?_ (hp.mul_n ho)
    rintro ⟨-, a, -, b⟩
    exact hxy ⟨by exact_mod_cast a, by exact_mod_cast b⟩

theorem fromString_secp {x y : Nat} (hx : x < n) (hy : y < n) (h : OnCurve K x y) :
    VerifyingKey.fromString (beBytes 32 x ++ beBytes 32 y) secp256k1 =
      .ok ⟨secp256k1, ⟨K, secp256k1.generator, .aff x y (some n)⟩⟩ := by
  have := fromString_ok secp256k1 order_ne hx hy
    (pointIsValid_true ⟨by omega, by exact_mod_cast hx, by omega, by exact_mod_cast hy, h⟩)
    ((onCurve_iff _ _ _).1 h)
  rw [baselen_eq] at this
  exact this

theorem fromString_secp_bad {x y : Nat} (hx : x < p) (hy : y < p)
    (h : ¬ (x < n ∧ y < n ∧ OnCurve K x y)) :
    VerifyingKey.fromString (beBytes 32 x ++ beBytes 32 y) secp256k1 = .error .assertionError := by
  have hv : pointIsValid secp256k1.curve secp256k1.order x y = .ok false := by
    apply pointIsValid_false
    rintro ⟨-, a, -, b, c⟩
    exact h ⟨by exact_mod_cast a, by exact_mod_cast b, c⟩
  have h3 : (256 : Nat) ^ secp256k1.baselen = 256 ^ 32 := by rw [baselen_eq]
  have := fromString_invalid secp256k1 (by rw [h3]; exact lt_trans hx p_lt)
    (by rw [h3]; exact lt_trans hy p_lt) hv
  rw [baselen_eq] at this
  exact this

/-! ### decompress, for any string -/

theorem decompress_sound {s k : Bytes} (h : decompressPublicKey s = .ok k) :
    ∃ x y : Nat, x < n ∧ 0 < y ∧ y < p ∧ OnCurve K x y ∧ k = uncompressedKey x y ∧
      (s = uncompressedKey x y ∧ y < n ∨ s = compressedKey x y) := by
  by_cases h4 : s.head? = some 4 ∧ s.length = 65
  · obtain ⟨hh, hl⟩ := h4
    cases s with
    | nil => cases hh
    | cons c t =>
      simp only [List.head?_cons, Option.some.injEq] at hh
      subst hh
      have ht : t.length = 64 := by simpa using hl
      have e : beBytes 32 (bytesVal (t.take 32)) ++ beBytes 32 (bytesVal (t.drop 32)) = t := by
        rw [beBytes_bytesVal' (by simp; omega), beBytes_bytesVal' (by simp; omega),
          List.take_append_drop]
      by_cases hv : (0 : Int) ≤ bytesVal (t.take 32) ∧ (bytesVal (t.take 32) : Int) < n ∧
          (0 : Int) ≤ bytesVal (t.drop 32) ∧ (bytesVal (t.drop 32) : Int) < n ∧
          OnCurve K (bytesVal (t.take 32) : Int) (bytesVal (t.drop 32) : Int)
      · rw [decompressPublicKey, decompressOn_uncompressed _ ht (pointIsValid_true hv)] at h
        simp only [if_true, Except.ok.injEq] at h
        obtain ⟨-, hx, -, hy, hon⟩ := hv
        have hx' : bytesVal (t.take 32) < n := by exact_mod_cast hx
        have hy' : bytesVal (t.drop 32) < n := by exact_mod_cast hy
        refine ⟨bytesVal (t.take 32), bytesVal (t.drop 32), hx', ?_, lt_trans hy' n_lt_p, hon,
          by rw [← h, uncompressedKey, e], Or.inl ⟨by rw [uncompressedKey, e], hy'⟩⟩
        rcases Nat.eq_zero_or_pos (bytesVal (t.drop 32)) with h0 | h0
        · exact absurd (by rw [h0]; exact dvd_zero _) (y_ne_zero hon)
        · exact h0
      · rw [decompressPublicKey, decompressOn_uncompressed _ ht (pointIsValid_false hv)] at h
        cases h
  · by_cases h2 : (s.head? = some 2 ∨ s.head? = some 3) ∧ s.length = 33
    · obtain ⟨hh, hl⟩ := h2
      cases s with
      | nil => rcases hh with hh | hh <;> cases hh
      | cons c t =>
        simp only [List.head?_cons, Option.some.injEq] at hh
        have ht : t.length = 32 := by simpa using hl
        have hd := decompressOn_compressed secp256k1 hh ht
        by_cases hex : ∃ y : Int, OnCurve K (bytesVal t) y
        · obtain ⟨y0, hy0⟩ := hex
          obtain ⟨r, hr, r0, rp, hon⟩ := sqrt_of_on hy0
          by_cases hv : (0 : Int) ≤ bytesVal t ∧ (bytesVal t : Int) < n ∧
              (0 : Int) ≤ r ∧ r < n ∧ OnCurve K (bytesVal t : Int) r
          · rw [decompressPublicKey, hd.2 r true hr (pointIsValid_true hv)] at h
            obtain ⟨hf1, hf2, hf3, hf4⟩ := fixParity_eq (ch := c) r0 rp
            rw [if_pos rfl, curve_p, numberToString_y hf2.le hf3] at h
            simp only [Except.map, Except.ok.injEq] at h
            obtain ⟨y, hy⟩ := Int.eq_ofNat_of_zero_le hf2.le
            have hony : OnCurve K (bytesVal t) (y : Int) := by
              change fixParity p c r = (y : Int) at hy
              rw [← hy]
              rcases hf1 with h1 | h1 <;> rw [h1]
              · exact hon
              · exact onCurve_neg hon
            change fixParity p c r = (y : Int) at hy
            rw [hy] at hf2 hf3 hf4 h
            have et : beBytes 32 (bytesVal t) = t := beBytes_bytesVal' ht
            refine ⟨bytesVal t, y, by exact_mod_cast hv.2.1, by exact_mod_cast hf2,
              by exact_mod_cast hf3, hony, ?_, Or.inr ?_⟩
            · rw [← h, uncompressedKey, et]; simp
            · rw [compressedKey, et]
              rcases hh with rfl | rfl
              · rw [if_pos (by have : ((2 : UInt8).toNat : Int) = 2 := rfl
                               omega)]
              · rw [if_neg (by have : ((3 : UInt8).toNat : Int) = 3 := rfl
                               omega)]
          · rw [decompressPublicKey, hd.2 r false hr (pointIsValid_false hv)] at h
            cases h
        · rw [decompressPublicKey, hd.1 _ (sqrt_of_not_on hex)] at h
          cases h
    · rw [decompressPublicKey, decompressOn_other _ h4 h2] at h
      cases h

theorem decompress_uncompressedKey {x y : Nat} (hx : x < n) (hy : y < n) (h : OnCurve K x y) :
    decompressPublicKey (uncompressedKey x y) = .ok (uncompressedKey x y) := by
  have hl : (beBytes 32 x ++ beBytes 32 y).length = 64 := by simp
  have e1 : (beBytes 32 x ++ beBytes 32 y).take 32 = beBytes 32 x := by
    rw [List.take_append_of_le_length (by simp)]; exact List.take_of_length_le (by simp)
  have e2 : (beBytes 32 x ++ beBytes 32 y).drop 32 = beBytes 32 y := by
    rw [List.drop_append_of_le_length (by simp)]; simp
  have hv : pointIsValid secp256k1.curve secp256k1.order
      (bytesVal ((beBytes 32 x ++ beBytes 32 y).take 32))
      (bytesVal ((beBytes 32 x ++ beBytes 32 y).drop 32)) = .ok true := by
    rw [e1, e2, bytesVal_beBytes_of_lt (lt_trans (lt_trans hx n_lt_p) p_lt),
      bytesVal_beBytes_of_lt (lt_trans (lt_trans hy n_lt_p) p_lt)]
    exact pointIsValid_true ⟨by omega, by exact_mod_cast hx, by omega, by exact_mod_cast hy, h⟩
  rw [uncompressedKey, decompressPublicKey, decompressOn_uncompressed _ hl hv]
  rfl

/-- The outcome on an uncompressed key of any curve point. -/
theorem decompress_uncompressed {x y : Nat} (hx : x < p) (hy : y < p) (h : OnCurve K x y) :
    decompressPublicKey (uncompressedKey x y) =
      if x < n ∧ y < n then .ok (uncompressedKey x y) else .error .valueError := by
  by_cases hn : x < n ∧ y < n
  · rw [if_pos hn, decompress_uncompressedKey hn.1 hn.2 h]
  · rw [if_neg hn]
    have hl : (beBytes 32 x ++ beBytes 32 y).length = 64 := by simp
    have e1 : (beBytes 32 x ++ beBytes 32 y).take 32 = beBytes 32 x := by
      rw [List.take_append_of_le_length (by simp)]; exact List.take_of_length_le (by simp)
    have e2 : (beBytes 32 x ++ beBytes 32 y).drop 32 = beBytes 32 y := by
      rw [List.drop_append_of_le_length (by simp)]; simp
    have hv : pointIsValid secp256k1.curve secp256k1.order
        (bytesVal ((beBytes 32 x ++ beBytes 32 y).take 32))
        (bytesVal ((beBytes 32 x ++ beBytes 32 y).drop 32)) = .ok false := by
      rw [e1, e2, bytesVal_beBytes_of_lt (lt_trans hx p_lt), bytesVal_beBytes_of_lt (lt_trans hy p_lt)]
      exact pointIsValid_false (fun q => hn ⟨by exact_mod_cast q.2.1, by exact_mod_cast q.2.2.2.1⟩)
    rw [uncompressedKey, decompressPublicKey, decompressOn_uncompressed _ hl hv]
    rfl

/-- The outcome on a compressed key of a curve point. -/
theorem decompress_compressedKey {x y : Nat} (hx : x < n) (hy : y < p) (h : OnCurve K x y) :
    ∃ r : Int, squareRootModPrime (rhs K x) p = .ok r ∧ (r = y ∨ r = p - y) ∧
      (r < n → decompressPublicKey (compressedKey x y) = .ok (uncompressedKey x y)) ∧
      (¬ r < n → decompressPublicKey (compressedKey x y) = .error .valueError) := by
  obtain ⟨r, hr, r0, rp, hon⟩ := sqrt_of_on h
  have hor := root_or h hon (by omega) (by exact_mod_cast hy) r0.le rp
  have hb : bytesVal (beBytes 32 x) = x :=
    bytesVal_beBytes_of_lt (lt_trans (lt_trans hx n_lt_p) p_lt)
  have hd := decompressOn_compressed secp256k1 (ch := if y % 2 = 0 then 2 else 3)
    (by split <;> simp) (beBytes_length 32 x)
  rw [hb] at hd
  refine ⟨r, hr, hor, fun hrn => ?_, fun hrn => ?_⟩
  · have hpar : (y : Int) % 2 = ((if y % 2 = 0 then 2 else 3 : UInt8).toNat : Int) % 2 := by
      split
      · have : ((2 : UInt8).toNat : Int) = 2 := rfl
        omega
      · have : ((3 : UInt8).toNat : Int) = 3 := rfl
        omega
    rw [compressedKey, decompressPublicKey, hd.2 r true hr
      (pointIsValid_true ⟨by omega, by exact_mod_cast hx, r0.le, hrn, hon⟩), if_pos rfl, curve_p,
      fixParity_of hor hpar, numberToString_y (by omega) (by exact_mod_cast hy)]
    simp [Except.map, uncompressedKey]
  · rw [compressedKey, decompressPublicKey, hd.2 r false hr (pointIsValid_false (fun q => hrn q.2.2.2.1))]
    rfl

theorem residueRoot_lt {y : Nat} (h : y < n) (h' : p - y < n) : residueRoot p y < n := by
  unfold residueRoot
  split <;> assumption

theorem isSquare_iff (y : Nat) (hy : y < p) : IsSquare ((y : Nat) : ZMod p) ↔ ∃ w : Nat, w * w % p = y := by
  constructor
  · rintro ⟨c, hc⟩
    refine ⟨c.val, ?_⟩
    have := congrArg ZMod.val hc
    rw [ZMod.val_natCast_of_lt hy, ZMod.val_mul] at this
    exact this.symm
  · rintro ⟨w, hw⟩
    refine ⟨(w : ZMod p), ?_⟩
    rw [← hw, ZMod.natCast_mod, Nat.cast_mul]

/-- Of `y` and `p - y` the square root that is found is the one that is a square. -/
theorem root_eq {x y : Nat} (hy : y < p) (h : OnCurve K x y) {r : Int}
    (hr : squareRootModPrime (rhs K x) p = .ok r) : r = residueRoot p y := by
  obtain ⟨r', hr', r0, rp, hon⟩ := sqrt_of_on h
  rw [hr] at hr'
  cases hr'
  have hor := root_or h hon (by omega) (by exact_mod_cast hy) r0.le rp
  have hs := squareRoot_isSquare p (rhs K x) (rhs_nonneg x) (rhs_lt x) (by decide) r hr
  unfold residueRoot
  by_cases hq : ∃ w : Nat, w * w % p = y
  · rw [if_pos hq]
    rcases hor with e | e
    · exact e
    · exfalso
      have h1 := (isSquare_iff y hy).2 hq
      rw [e, Int.cast_sub, Int.cast_natCast, Int.cast_natCast, ZMod.natCast_self, zero_sub] at hs
      have hy0 : ((y : Nat) : ZMod p) ≠ 0 := by
        intro h0
        have := congrArg ZMod.val h0
        rw [ZMod.val_natCast_of_lt hy, ZMod.val_zero] at this
        rw [this, Nat.cast_zero, sub_zero] at e
        omega
      have := IsSquare.div hs h1
      rw [neg_div, div_self hy0] at this
      exact absurd (ZMod.exists_sq_eq_neg_one_iff.1 this) (by decide)
  · rw [if_neg hq]
    rcases hor with e | e
    · exact absurd ((isSquare_iff y hy).1 (by rw [e] at hs; simpa using hs)) hq
    · rw [e]; omega

/-- The outcome on a compressed key of any curve point. -/
theorem decompress_compressed {x y : Nat} (hx : x < p) (hy : y < p) (h : OnCurve K x y) :
    decompressPublicKey (compressedKey x y) =
      if x < n ∧ residueRoot p y < n then .ok (uncompressedKey x y) else .error .valueError := by
  by_cases hxn : x < n
  · obtain ⟨r, hr, -, h1, h2⟩ := decompress_compressedKey hxn hy h
    have e := root_eq hy h hr
    by_cases hrn : residueRoot p y < n
    · rw [if_pos ⟨hxn, hrn⟩, h1 (by rw [e]; exact_mod_cast hrn)]
    · rw [if_neg (fun q => hrn q.2), h2 (by rw [e]; exact_mod_cast hrn)]
  · rw [if_neg (fun q => hxn q.1)]
    obtain ⟨r, hr, r0, rp, hon⟩ := sqrt_of_on h
    have hb : bytesVal (beBytes 32 x) = x := bytesVal_beBytes_of_lt (lt_trans hx p_lt)
    have hd := decompressOn_compressed secp256k1 (ch := if y % 2 = 0 then 2 else 3)
      (by split <;> simp) (beBytes_length 32 x)
    rw [hb] at hd
    rw [compressedKey, decompressPublicKey, hd.2 r false hr
      (pointIsValid_false (fun q => hxn (by exact_mod_cast q.2.1)))]
    rfl

theorem compress_uncompressedKey {x y : Nat} (hy : y < 256 ^ 32) :
    compressPublicKey (uncompressedKey x y) = .ok (compressedKey x y) := by
  have h0 : pyIndex (uncompressedKey x y) 0 = .ok 4 := rfl
  have h1 : ¬ ((4 : UInt8) ≠ 4 ∨ (uncompressedKey x y).length ≠ 65) := by simp [uncompressedKey]
  have e1 : ((uncompressedKey x y).drop 33).take 32 = beBytes 32 y := by
    rw [uncompressedKey, List.drop_succ_cons, List.drop_append_of_le_length (by simp)]
    simp only [List.drop_of_length_le (show (beBytes 32 x).length ≤ 32 by simp), List.nil_append]
    exact List.take_of_length_le (by simp)
  have e2 : ((uncompressedKey x y).drop 1).take 32 = beBytes 32 x := by
    rw [uncompressedKey, List.drop_succ_cons, List.drop_zero, List.take_append_of_le_length (by simp)]
    exact List.take_of_length_le (by simp)
  have h2 := stringToNumber_of_length (beBytes_length 32 y) (by omega)
  rw [bytesVal_beBytes_of_lt hy] at h2
  simp only [compressPublicKey, h0, ok_bind]
  rw [if_neg h1, e1, e2, h2]
  simp only [ok_bind, Nat.and_one_is_mod, compressedKey]
  rcases Nat.mod_two_eq_zero_or_one y with h | h <;> rw [h] <;> rfl

end NBC.Secp
