import Verif.Props.Points
import Verif.Props.Ecdsa
import Verif.Props.Keys

/-!
# Properties C136 and C137: what a signature is bound to, and nonces that repeat
-/

namespace NBC.Props
open NBC NT EC Ecdsa Spec Key Der

section
variable {C : CurveFp} [Fact C.p.Prime] {G P : Pt} {n : Nat} {g q : (W C).Point}

/-- The point of an accepted signature. -/
theorem accepted_point (hG : GenOk C G n g) (hP : KeyOk C n P q) {hash r s w : Int} (hw : (s * w) % (n : Int) = 1)
    (h : PublicKey.verifies ⟨C, G, P⟩ hash r s = .ok true) :
    (1 ≤ r ∧ r < n ∧ 1 ≤ s ∧ s < n) ∧ ∃ x y hxy, (hash * w) • g + (r * w) • q = .some x y hxy ∧
      (x.val : Int) % (n : Int) = r := by
  have hr : 1 ≤ r ∧ r < n ∧ 1 ≤ s ∧ s < n := by
    by_contra hr
    rw [(C23_equation hG hP hash r s).1 hr] at h
    cases h
  refine ⟨hr, ?_⟩
  obtain ⟨h0, h1⟩ := verifies_spec hG hP hash r s w hr hw
  cases hS : (hash * w) • g + (r * w) • q with
  | zero => rw [h0 hS] at h; cases h
  | some x y hxy =>
    rw [h1 x y hxy hS] at h
    exact ⟨x, y, hxy, rfl, by simpa using h⟩

/-- The points with a given `r`: at most four, and at most two unless `r + n` is an element of the field. -/
def codes (p n r : Nat) : List (Option (ZMod p × Bool)) :=
  [some ((r : ZMod p), false), some ((r : ZMod p), true)] ++
    if r + n < p then [some (((r + n : Nat) : ZMod p), false), some (((r + n : Nat) : ZMod p), true)] else []

theorem code_mem (hpn : C.p < 2 * n) {r : Nat} {x y : ZMod C.p} {hxy} (hx : (x.val : Int) % (n : Int) = r) :
    codePt (C := C) (.some x y hxy) ∈ codes C.p n r := by
  have hlt : x.val < C.p := ZMod.val_lt x
  have hx' : x.val % n = r := by exact_mod_cast hx
  have hcase : x.val = r ∨ (x.val = r + n ∧ r + n < C.p) := by
    have := Nat.div_add_mod x.val n
    have hd : x.val / n < 2 := Nat.div_lt_of_lt_mul (by omega)
    rw [hx'] at this
    rcases Nat.le_one_iff_eq_zero_or_eq_one.1 (Nat.lt_succ_iff.1 hd) with h2 | h2
    · rw [h2] at this; left; omega
    · rw [h2] at this; right; omega
  have hcast : ((x.val : Nat) : ZMod C.p) = x := ZMod.natCast_zmod_val x
  unfold codes codePt
  rcases hcase with e | ⟨e, hlt⟩
  · rw [← e, hcast]
    rcases Nat.mod_two_eq_zero_or_one y.val with h | h <;> simp [h]
  · rw [if_pos hlt, ← e, hcast]
    rcases Nat.mod_two_eq_zero_or_one y.val with h | h <;> simp [h]

theorem codes_length (p n r : Nat) : (codes p n r).length ≤ 4 ∧ (p ≤ r + n → (codes p n r).length = 2) := by
  unfold codes
  constructor
  · split <;> simp
  · intro h
    rw [if_neg (by omega)]
    rfl

theorem zsmul_eq_iff (hG : GenOk C G n g) {a b : Int} (h : a • g = b • g) : a % (n : Int) = b % (n : Int) := by
  have h0 : (a - b) • g = 0 := by rw [sub_zsmul, h, add_neg_cancel]
  rw [← addOrderOf_dvd_iff_zsmul_eq_zero, hG.addOrder] at h0
  exact Int.modEq_iff_dvd.2 (by rw [← neg_sub, dvd_neg]; exact h0)

/-- A list of things with different points has at most as many entries as there are points with that `r`. -/
theorem length_le_codes (hg : Good C) (hpn : C.p < 2 * n) {α : Type} (r : Nat) (l : List α)
    (pt : α → (W C).Point) (hd : l.Pairwise (fun a b => pt a ≠ pt b))
    (hp : ∀ a ∈ l, ∃ x y hxy, pt a = .some x y hxy ∧ (x.val : Int) % (n : Int) = r) :
    l.length ≤ 4 ∧ (C.p ≤ r + n → l.length ≤ 2) := by
  have hnd : (l.map (fun a => codePt (pt a))).Nodup := by
    rw [List.Nodup, List.pairwise_map]
    exact hd.imp (fun h he => h (codePt_injective hg he))
  have hsub : l.map (fun a => codePt (pt a)) ⊆ codes C.p n r := by
    intro z hz
    obtain ⟨a, ha, rfl⟩ := List.mem_map.1 hz
    obtain ⟨x, y, hxy, e, hx⟩ := hp a ha
    rw [e]
    exact code_mem hpn hx
  have hle := (List.subperm_of_subset hnd hsub).length_le
  rw [List.length_map] at hle
  obtain ⟨h1, h2⟩ := codes_length C.p n r
  exact ⟨by omega, fun h => by have := h2 h; omega⟩

end

/-- C136, for a key.  On the curves of the library: the digests, up to multiples of the order, for which a given pair
`r`, `s` is accepted under a given key are at most four, and at most two unless `r` plus the order is below `p`. -/
theorem C136_digests_partial (c : Curve) (hc : c ∈ curves) [Fact c.curve.p.Prime] {P : Pt} {g q : (W c.curve).Point}
    (hG : GenOk c.curve c.generator c.order g) (hP : KeyOk c.curve c.order P q) (r s : Int) (hashes : List Int)
    (hd : hashes.Pairwise (fun a b => a % (c.order : Int) ≠ b % (c.order : Int)))
    (hv : ∀ h ∈ hashes, PublicKey.verifies ⟨c.curve, c.generator, P⟩ h r s = .ok true) :
    hashes.length ≤ 4 ∧ (c.curve.p ≤ r + c.order → hashes.length ≤ 2) := by
  cases hashes with
  | nil => simp
  | cons h0 t =>
    have hv0 := hv h0 (List.mem_cons_self ..)
    have hr : 1 ≤ r ∧ r < c.order ∧ 1 ≤ s ∧ s < c.order := by
      by_contra hr
      rw [(C23_equation hG hP h0 r s).1 hr] at hv0
      cases hv0
    obtain ⟨w, -, -, -, hw⟩ := inverseMod_prime hG.prime s (not_dvd_of_range hr.2.2.1 hr.2.2.2)
    obtain ⟨r, rfl⟩ := Int.eq_ofNat_of_zero_le (by omega : 0 ≤ r)
    have hpn : c.curve.p < 2 * c.order := by have := (small_of_mem hc).2; omega
    have := length_le_codes hG.good hpn r (h0 :: t) (fun h => (h * w) • g + ((r : Int) * w) • q) (hd.imp ?_)
      (fun h hh => (accepted_point hG hP hw (hv h hh)).2)
    · exact ⟨this.1, fun h => this.2 (by exact_mod_cast h)⟩
    · intro a b hab he
      have he' : (a * w) • g = (b * w) • g := add_right_cancel he
      have hm : (a * w) % (c.order : Int) = (b * w) % (c.order : Int) := zsmul_eq_iff hG he'
      refine hab ?_
      have key : ∀ z : Int, z % (c.order : Int) = ((z * w) * s) % (c.order : Int) := by
        intro z
        rw [show z * w * s = z * (s * w) by ring, Int.mul_emod, hw, mul_one, Int.emod_emod_of_dvd _ (dvd_refl _)]
      rw [key a, key b, Int.mul_emod, hm, ← Int.mul_emod]

/-- C136, for a digest: the keys under which a given pair is accepted for a given digest are at most four, and at most
two unless `r` plus the order is below `p`. -/
theorem C136_keys_partial (c : Curve) (hc : c ∈ curves) [Fact c.curve.p.Prime] {g : (W c.curve).Point}
    (hG : GenOk c.curve c.generator c.order g) (hash r s : Int) (keys : List (Pt × (W c.curve).Point))
    (hd : keys.Pairwise (fun a b => a.2 ≠ b.2))
    (hv : ∀ k ∈ keys, KeyOk c.curve c.order k.1 k.2 ∧
      PublicKey.verifies ⟨c.curve, c.generator, k.1⟩ hash r s = .ok true) :
    keys.length ≤ 4 ∧ (c.curve.p ≤ r + c.order → keys.length ≤ 2) := by
  cases keys with
  | nil => simp
  | cons k0 t =>
    obtain ⟨hP0, hv0⟩ := hv k0 (List.mem_cons_self ..)
    have hr : 1 ≤ r ∧ r < c.order ∧ 1 ≤ s ∧ s < c.order := by
      by_contra hr
      rw [(C23_equation hG hP0 hash r s).1 hr] at hv0
      cases hv0
    obtain ⟨w, -, -, -, hw⟩ := inverseMod_prime hG.prime s (not_dvd_of_range hr.2.2.1 hr.2.2.2)
    obtain ⟨v, -, -, -, hv'⟩ := inverseMod_prime hG.prime r (not_dvd_of_range hr.1 hr.2.1)
    obtain ⟨r, rfl⟩ := Int.eq_ofNat_of_zero_le (by omega : 0 ≤ r)
    have hpn : c.curve.p < 2 * c.order := by have := (small_of_mem hc).2; omega
    have := length_le_codes hG.good hpn r ((k0 :: t).attach) (fun k => (hash * w) • g + ((r : Int) * w) • k.1.2) ?_
      (fun k _ => (accepted_point hG (hv k.1 k.2).1 hw (hv k.1 k.2).2).2)
    · rw [List.length_attach] at this
      exact ⟨this.1, fun h => this.2 (by exact_mod_cast h)⟩
    · have hd' : ((k0 :: t).attach).Pairwise (fun a b => a.1.2 ≠ b.1.2) := by
        rw [← List.pairwise_map (f := fun a : {x // x ∈ k0 :: t} => a.1) (R := fun a b => a.2 ≠ b.2)]
        rw [List.attach_map_subtype_val]
        exact hd
      refine hd'.imp fun {a b} hab he => hab ?_
      have he' : ((r : Int) * w) • a.1.2 = ((r : Int) * w) • b.1.2 := add_left_cancel he
      have key : ∀ z : (W c.curve).Point, c.order • z = 0 → z = (v * s) • (((r : Int) * w) • z) := by
        intro z hz
        rw [← mul_zsmul, show v * s * ((r : Int) * w) = ((r : Int) * v) * (s * w) by ring, ← zsmul_emod hz, Int.mul_emod,
          hv', hw]
        have h2 : (2 : Int) ≤ c.order := by exact_mod_cast hG.prime.two_le
        rw [mul_one, Int.emod_eq_of_lt (by omega) (by omega), one_zsmul]
      rw [key a.1.2 (hv a.1 a.2).1.torsion, he', ← key b.1.2 (hv b.1 b.2).1.torsion]

/-- C136 is false for digests: whoever knows the private number `d` of a key finds, for any accepted signature, another
digest for which it is accepted too (`- h - 2·r·d`). -/
theorem C136_other_digest_false (c : Curve) [Fact c.curve.p.Prime] {P : Pt} {g : (W c.curve).Point}
    (hG : GenOk c.curve c.generator c.order g) (d : Int) (hP : KeyOk c.curve c.order P (d • g)) (hash r s : Int)
    (hv : PublicKey.verifies ⟨c.curve, c.generator, P⟩ hash r s = .ok true) :
    (-hash - 2 * r * d) % (c.order : Int) ≠ hash % (c.order : Int) ∧
      PublicKey.verifies ⟨c.curve, c.generator, P⟩ ((-hash - 2 * r * d) % (c.order : Int)) r s = .ok true := by
  have hr : 1 ≤ r ∧ r < c.order ∧ 1 ≤ s ∧ s < c.order := by
    by_contra hr
    rw [(C23_equation hG hP hash r s).1 hr] at hv
    cases hv
  obtain ⟨w, -, -, -, hw⟩ := inverseMod_prime hG.prime s (not_dvd_of_range hr.2.2.1 hr.2.2.2)
  obtain ⟨-, x, y, hxy, e, hx⟩ := accepted_point hG hP hw hv
  have e' : ((hash + r * d) * w) • g = .some x y hxy := by
    rw [← e, ← mul_zsmul, ← add_zsmul]
    congr 1
    ring
  constructor
  · intro h
    have h1 : (c.order : Int) ∣ 2 * (hash + r * d) := by
      have := Int.ModEq.dvd h
      rwa [show hash - (-hash - 2 * r * d) = 2 * (hash + r * d) by ring] at this
    have h2 : (c.order : Int) ∣ hash + r * d := by
      rcases (Nat.prime_iff_prime_int.mp hG.prime).dvd_mul.mp h1 with h | h
      · have h3 := Int.le_of_dvd (by norm_num) h
        have h4 := hG.prime.two_le
        have h5 := hG.odd
        omega
      · exact h
    have h0 : ((hash + r * d) * w) • g = 0 := by
      rw [← zsmul_emod hG.torsion, Int.emod_eq_zero_of_dvd (Dvd.dvd.mul_right h2 w), zero_zsmul]
    rw [h0] at e'
    cases e'
  · obtain ⟨-, h1⟩ := verifies_spec hG hP ((-hash - 2 * r * d) % (c.order : Int)) r s w hr hw
    have hneg : ((-hash - 2 * r * d) % (c.order : Int) * w) • g + (r * w) • (d • g) = -(.some x y hxy) := by
      rw [← e', ← neg_zsmul, mul_comm _ w, mul_zsmul, zsmul_emod hG.torsion, ← mul_zsmul, ← mul_zsmul, ← add_zsmul]
      congr 1
      ring
    rw [h1 _ _ _ (hneg.trans (WeierstrassCurve.Affine.Point.neg_some ..))]
    rw [hx]
    simp

/-- The hypotheses of C136 are met: a signature of the digest 5 under the key whose point is the generator, and the
other digest (`d = 1`, `- 5 - 2·r`) under which it is accepted as well. -/
example :
    let r : Int := 0x79be667ef9dcbbac55a06295ce870b07029bfcdb2dce28d959f2815b16f81798
    PublicKey.verifies ⟨secp256k1.curve, secp256k1.generator, secp256k1.generator⟩ 5 r (r + 5) = .ok true ∧
    PublicKey.verifies ⟨secp256k1.curve, secp256k1.generator, secp256k1.generator⟩
      ((-5 - 2 * r * 1) % (secp256k1.order : Int)) r (r + 5) = .ok true := by
  intro r
  have hk : KeyOk secp256k1.curve secp256k1.order secp256k1.generator ((1 : Int) • Secp.g) := by
    rw [one_zsmul]; exact Secp.genOk.key
  have hs : Ecdsa.sign ⟨secp256k1.curve, secp256k1.generator, secp256k1.generator⟩ 1 5 1 = .ok (r, r + 5) := by
    decide +kernel
  have hv := (sign_verifies Secp.genOk hk hs).2.2.2.2
  rw [show decide (r < Secp.n) = true by decide] at hv
  exact ⟨hv, (C136_other_digest_false secp256k1 Secp.genOk 1 hk 5 r (r + 5) hv).2⟩

/-! ### C137 -/

/-- Two signatures made with the same nonce. -/
theorem repeated_nonce {C : CurveFp} [Fact C.p.Prime] {G P P' : Pt} {n : Nat} {g : (W C).Point} (hG : GenOk C G n g)
    {d h1 h2 k k' r1 s1 r2 s2 : Int} (hk : k % (n : Int) = k' % (n : Int))
    (e1 : Ecdsa.sign ⟨C, G, P⟩ d h1 k = .ok (r1, s1)) (e2 : Ecdsa.sign ⟨C, G, P'⟩ d h2 k' = .ok (r2, s2)) :
    r1 = r2 ∧ 1 ≤ r1 ∧ (k * (s1 - s2)) % (n : Int) = (h1 - h2) % (n : Int) ∧
      (d * (r1 * (s1 - s2))) % (n : Int) = (s2 * h1 - s1 * h2) % (n : Int) := by
  by_cases hk0 : k % (n : Int) = 0
  · rw [(sign_spec hG d h1 k).1 hk0] at e1; cases e1
  obtain ⟨x, y, hxy, i, hkg, hi, f1⟩ := (sign_spec (P := P) hG d h1 k).2 hk0
  obtain ⟨x', y', hxy', i', hkg', hi', f2⟩ := (sign_spec (P := P') hG d h2 k').2 (by rw [← hk]; exact hk0)
  rw [← zsmul_congr hG.torsion hk, hkg, WeierstrassCurve.Affine.Point.some.injEq] at hkg'
  obtain ⟨rfl, rfl⟩ := hkg'
  simp only at f1 f2
  rw [f1] at e1
  rw [f2] at e2
  split at e1
  · cases e1
  rename_i hne
  split at e2
  · cases e2
  simp only [Except.ok.injEq, Prod.mk.injEq] at e1 e2
  obtain ⟨rfl, hs1⟩ := e1
  obtain ⟨rfl, hs2⟩ := e2
  refine ⟨rfl, ?_, ?_⟩
  · have : x.val ≠ 0 := by rw [Ne, ZMod.val_eq_zero]; tauto
    omega
  have one : ∀ {a b : Int}, (a * b) % (n : Int) = 1 → ((a : ZMod n)) * b = 1 := by
    intro a b h
    have hn2 : (2 : Int) ≤ n := by exact_mod_cast hG.prime.two_le
    have : ((a * b : Int) : ZMod n) = ((1 : Int) : ZMod n) := by
      rw [ZMod.intCast_eq_intCast_iff', h, Int.emod_eq_of_lt (by norm_num) (by omega)]
    simpa using this
  have z1 := one hi
  have z2 := one hi'
  have zk : (k : ZMod n) = k' := by rw [ZMod.intCast_eq_intCast_iff']; exact hk
  have a1 : (s1 : ZMod n) = i * (h1 + d * x.val) := by
    have : (s1 : ZMod n) = ((i * (h1 + d * x.val) : Int) : ZMod n) := by
      rw [← hs1, ZMod.intCast_eq_intCast_iff']; exact Int.emod_emod_of_dvd _ dvd_rfl
    rw [this]; push_cast; rfl
  have a2 : (s2 : ZMod n) = i' * (h2 + d * x.val) := by
    have : (s2 : ZMod n) = ((i' * (h2 + d * x.val) : Int) : ZMod n) := by
      rw [← hs2, ZMod.intCast_eq_intCast_iff']; exact Int.emod_emod_of_dvd _ dvd_rfl
    rw [this]; push_cast; rfl
  rw [← zk] at z2
  have b1 : (k : ZMod n) * s1 = h1 + d * x.val := by rw [a1, ← mul_assoc, z1, one_mul]
  have b2 : (k : ZMod n) * s2 = h2 + d * x.val := by rw [a2, ← mul_assoc, z2, one_mul]
  constructor
  · rw [← ZMod.intCast_eq_intCast_iff']
    push_cast
    linear_combination b1 - b2
  · rw [← ZMod.intCast_eq_intCast_iff']
    push_cast
    linear_combination (s2 : ZMod n) * b1 - s1 * b2

/-- What anybody can compute from two signatures and two digests. -/
def recovered (n : Nat) (z1 z2 : Int) (sig1 sig2 : Bytes) : Py Int := do
  let (r, s1) ← eccSigdecodeDer sig1
  let (_, s2) ← eccSigdecodeDer sig2
  let c ← inverseMod (r * (s1 - s2 : Int)) n
  return ((s2 * z1 - s1 * z2) * c) % (n : Int)

open Secp Ecc in
/-- C137 is false when randomness repeats: from the signatures of two messages for which `sign` was given the same
nonce, and the two messages, `recovered` computes the private key, unless the digests agree modulo `n` or `r` is `n`. -/
theorem C137_repeated_false (H : Hashes) (data1 data2 priv sig1 sig2 : Bytes) (ent1 ent2 : Nat → Nat → Bytes)
    (h1 : Ecc.sign H data1 priv ent1 = .ok sig1) (h2 : Ecc.sign H data2 priv ent2 = .ok sig2)
    (hent : randrange Secp.n ent1 = randrange Secp.n ent2)
    (hz : (bytesVal (H.sha256d data1) : Int) % (Secp.n : Int) ≠ (bytesVal (H.sha256d data2) : Int) % (Secp.n : Int))
    (hr : ∀ s, eccSigdecodeDer sig1 ≠ .ok (Secp.n, s)) :
    recovered Secp.n (bytesVal (H.sha256d data1)) (bytesVal (H.sha256d data2)) sig1 sig2 = .ok (bytesVal priv : Int) ∧
      SigningKey.fromSecretExponent (bytesVal priv) secp256k1 = SigningKey.fromString priv secp256k1 := by
  obtain ⟨x, y, k, r, s, hp, hx, hy, hk, hs, hj, -⟩ := sign_verify h1
  obtain ⟨x', y', k', r', s', -, -, -, hk', hs', hj', -⟩ := sign_verify h2
  rw [← hent, hk] at hk'
  cases hk'
  have hj := hj []
  have hj' := hj' []
  rw [List.append_nil] at hj hj'
  obtain ⟨hrr, hr1, hkk, hd⟩ := repeated_nonce Secp.genOk rfl hs hs'
  have hrr : r = r' := by exact_mod_cast hrr
  subst hrr
  obtain ⟨hl, ⟨hd1, hd2⟩, -⟩ := sign_inv h1
  have hnk : ¬ (Secp.n : Int) ∣ (s - s' : Int) := by
    intro h
    apply hz
    have := hkk
    rw [Int.emod_eq_zero_of_dvd (Dvd.dvd.mul_left h _)] at this
    exact Int.emod_eq_emod_iff_emod_sub_eq_zero.2 this.symm
  have hnr : ¬ (Secp.n : Int) ∣ (r : Int) := by
    have hsv : Ecdsa.sign ⟨K, secp256k1.generator, .aff x y (some Secp.n)⟩ (bytesVal priv)
      (hashNum H data1) k = .ok ((r : Int), (s : Int)) := hs
    have hrp := (sign_verifies Secp.genOk (hp.keyOk (Or.inr rfl)) hsv).2.1
    have hpn : (K.p : Int) < 2 * (Secp.n : Int) := by decide
    rintro ⟨t, ht⟩
    have hrn : r ≠ Secp.n := fun h => hr s (by rw [hj, h])
    have hn : (0 : Int) < (Secp.n : Int) := by decide
    have t1 : 0 < t := by
      by_contra h
      have := mul_nonpos_of_nonneg_of_nonpos hn.le (not_lt.1 h)
      omega
    have t2 : t < 2 := by
      by_contra h
      have := mul_le_mul_of_nonneg_left (not_lt.1 h) hn.le
      omega
    have : t = 1 := by omega
    rw [this, mul_one] at ht
    exact hrn (by exact_mod_cast ht)
  obtain ⟨c, hc, -, -, hcc⟩ := inverseMod_prime Secp.prime_n ((r : Int) * (s - s' : Int)) (fun h =>
    ((Nat.prime_iff_prime_int.mp Secp.prime_n).dvd_mul.mp h).elim hnr hnk)
  constructor
  · simp only [recovered, hj, hj', ok_bind, hc, pure_ok_iff]
    have : ((s' * (bytesVal (H.sha256d data1) : Int) - s * (bytesVal (H.sha256d data2) : Int)) * c) % (Secp.n : Int)
        = (bytesVal priv : Int) := by
      rw [Int.mul_emod]
      have hd' := hd
      simp only [hashNum] at hd'
      rw [← hd', ← Int.mul_emod, mul_assoc, Int.mul_emod, hcc, mul_one, Int.emod_emod_of_dvd _ dvd_rfl,
        Int.emod_eq_of_lt (by omega) hd2]
    rw [this]
  · have ha : pyAssert (priv.length == secp256k1.baselen) = .ok () := by
      rw [pyAssert_ok_iff, beq_iff_eq, baselen_eq]; exact hl
    simp only [SigningKey.fromString, ha, ok_bind, stringToNumber_of_length hl (by omega : 0 < 32)]

open Secp Ecc in
/-- The hypotheses of C137 are met: two messages signed with the same entropy. -/
example : ∃ sig1 sig2, Ecc.sign Hashes.toy [1] (beBytes 32 1) (fun _ _ => beBytes 32 0) = .ok sig1 ∧
    Ecc.sign Hashes.toy [2] (beBytes 32 1) (fun _ _ => beBytes 32 0) = .ok sig2 ∧
    recovered Secp.n (bytesVal (Hashes.toy.sha256d [1])) (bytesVal (Hashes.toy.sha256d [2])) sig1 sig2 = .ok 1 := by
  have hb : bytesVal (beBytes 32 1) = 1 := bytesVal_beBytes_of_lt (by decide)
  have hp := pubPoint_one
  have hp' := hp
  rw [show (1 : Int) = ((bytesVal (beBytes 32 1) : Nat) : Int) by rw [hb]; rfl] at hp'
  have hk := randrange_first (k := 1) (by decide) (by decide)
  obtain ⟨sig1, h1⟩ := (C24_sign_total_partial Hashes.toy [1] (beBytes 32 1) _ 1 (beBytes_length _ _)
    (by rw [hb]) (by rw [hb]; decide) _ _ hp' hk _ _ hp (by decide) (by decide +kernel)).1 ⟨by decide, by decide⟩
  obtain ⟨sig2, h2⟩ := (C24_sign_total_partial Hashes.toy [2] (beBytes 32 1) _ 1 (beBytes_length _ _)
    (by rw [hb]) (by rw [hb]; decide) _ _ hp' hk _ _ hp (by decide) (by decide +kernel)).1 ⟨by decide, by decide⟩
  refine ⟨sig1, sig2, h1, h2, ?_⟩
  have := (C137_repeated_false Hashes.toy [1] [2] (beBytes 32 1) sig1 sig2 _ _ h1 h2 rfl (by decide +kernel) ?_).1
  · rw [this, hb]; rfl
  · intro s hs
    obtain ⟨x', y', k', r', s', -, -, -, hk', hsg, hj, -⟩ := sign_verify h1
    have hj := hj []
    rw [List.append_nil, hs] at hj
    cases hj
    rw [hk] at hk'
    cases hk'
    rw [hb] at hsg
    have hf : (Ecdsa.sign ⟨K, secp256k1.generator, .inf⟩ 1 (hashNum Hashes.toy [1]) 1).map (fun q => q.1)
      = .ok (Secp.n : Int) := by
      rw [show (1 : Int) = ((1 : Nat) : Int) from rfl, hsg]; rfl
    revert hf
    decide +kernel

end NBC.Props
