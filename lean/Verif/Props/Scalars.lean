import Verif.Proofs.Rand
import Verif.Proofs.KeysDer
import Verif.Proofs.Ecc
import Verif.Proofs.Nist521Order

/-!
# C32-C35, C87-C89: scalars, low-s signatures, DER forms of keys, the curve table
-/

namespace NBC.Props
open NBC NT EC Ecdsa Spec Key Der

/-! ### C32 -/

/-- C32.  Whatever the entropy source does, a returned scalar lies in `[1, order-1]`. -/
theorem C32_range (order : Nat) (entropy : Nat → Nat → Bytes) (k : Nat)
    (h : randrange order entropy = .ok k) : 1 ≤ k ∧ k < order := by
  simp only [randrange, bind_ok_iff] at h
  obtain ⟨_, _, h⟩ := h
  exact randrangeLoop_range' h

/-- C32.  With a source that gives as many bytes as asked, the result is the first candidate below
`order` among the first 10000, and `RuntimeError` if there is none. -/
theorem C32_first (order : Nat) (ho : 1 < order) (entropy : Nat → Nat → Bytes)
    (he : ∀ i b, (entropy i b).length = b) :
    let cand := fun i => bytesVal (entropy i (orderlen order)) + 1
    (∀ j < 10000, (∀ t < j, order ≤ cand t) → cand j < order →
      randrange order entropy = .ok (cand j)) ∧
    ((∀ t < 10000, order ≤ cand t) → randrange order entropy = .error .runtimeError) := by
  intro cand
  have hne : ∀ i, entropy i (orderlen order) ≠ [] := by
    intro i h0
    have h1 := he i (orderlen order)
    have h2 := orderlen_pos order
    rw [h0] at h1; simp at h1; omega
  have ha : pyAssert (decide (order > 1)) = .ok () := by rw [pyAssert_ok_iff]; simpa using ho
  obtain ⟨h1, h2⟩ := randrangeLoop_spec order (orderlen order) entropy hne 10000 0
  constructor
  · intro j hj hb hc
    simp only [randrange, ha, ok_bind]
    exact h1 j (by omega) (by omega) (fun t _ ht => hb t ht) hc
  · intro hb
    simp only [randrange, ha, ok_bind]
    exact h2 (fun t _ ht => hb t (by omega))

/-- C32.  Every scalar in range is the answer for some source. -/
theorem C32_onto (order k : Nat) (h1 : 1 ≤ k) (h2 : k < order) :
    randrange order (fun _ b => beBytes b (k - 1)) = .ok k := by
  have hv : bytesVal (beBytes (orderlen order) (k - 1)) + 1 = k := by
    rw [bytesVal_beBytes_of_lt (lt_trans (by omega : k - 1 < order) (lt_256_pow_orderlen _))]
    omega
  have := (C32_first order (by omega) (fun _ b => beBytes b (k - 1)) (fun _ b => beBytes_length b _)).1
    0 (by omega) (fun t ht => by omega) (by simp only [hv]; exact h2)
  simp only [hv] at this
  exact this

/-- An order of at most one is refused. -/
theorem C32_small (order : Nat) (h : order ≤ 1) (entropy : Nat → Nat → Bytes) :
    randrange order entropy = .error .assertionError := by
  have ha : pyAssert (decide (order > 1)) = .error .assertionError := by
    rw [decide_eq_false (by omega)]; rfl
  simp only [randrange, ha, error_bind]

/-- A source that first gives `ff` (rejected for order 200) and then `07`. -/
example : randrange 200 (fun i _ => if i = 0 then [0xff] else [7]) = .ok 8 := by decide +kernel

/-! ### C33 -/

/-- C33.  A nonce returned by `generate_k` lies in `[1, order-1]`, for any HMAC. -/
theorem C33_range (hmac : Bytes → Bytes → Bytes) (holen : Nat) (py3 : Bool) (order : Nat)
    (secexp : Int) (data : Bytes) (fuel k : Nat)
    (h : generateK hmac holen py3 order secexp data fuel = .ok (some k)) : 1 ≤ k ∧ k < order := by
  simp only [generateK, bind_ok_iff] at h
  obtain ⟨_, _, _, _, h⟩ := h
  exact stepH_range h

/-- C33.  The answer does not depend on how many rounds the loop is allowed, once it is reached. -/
theorem C33_reproducible (hmac : Bytes → Bytes → Bytes) (holen : Nat) (py3 : Bool) (order : Nat)
    (secexp : Int) (data : Bytes) (fuel fuel' k k' : Nat)
    (h : generateK hmac holen py3 order secexp data fuel = .ok (some k))
    (h' : generateK hmac holen py3 order secexp data fuel' = .ok (some k')) : k = k' := by
  simp only [generateK, bind_ok_iff] at h h'
  obtain ⟨a, ha, b, hb, h⟩ := h
  obtain ⟨a', ha', b', hb', h'⟩ := h'
  rw [ha] at ha'
  rw [hb] at hb'
  cases ha'
  cases hb'
  have h1 := stepH_mono fuel' h
  have h2 := stepH_mono fuel h'
  rw [Nat.add_comm] at h1
  rw [h1] at h2
  cases h2
  rfl

/-- C33.  The first candidate is accepted under Python 2 division exactly when it is under Python 3
division, and it is the same number.  (Missing: after a rejected first candidate the two differ.) -/
theorem C33_first_candidate_partial (hmac : Bytes → Bytes → Bytes)
    (hh : ∀ k m, 0 < (hmac k m).length) (holen order : Nat) (ho : 1 ≤ order) (secexp : Int)
    (data : Bytes) (s : Nat) :
    generateK hmac holen false order secexp data 1 = .ok (some s) ↔
      generateK hmac holen true order secexp data 1 = .ok (some s) := by
  have := fun k v => stepH_first hmac hh order (bitLength order) (bitLength_pos ho) k v s
  simp only [generateK, bind_ok_iff, this]

/-- C33.  Under the two divisions the nonce is the same, whatever is rejected, if the division is exact or no
number of digests has the length of the order.  (Missing: the other lengths, `C33_division_false`.) -/
theorem C33_divisions_partial (hmac : Bytes → Bytes → Bytes) (holen : Nat)
    (hl : ∀ k m, (hmac k m).length = holen) (order : Nat)
    (h : 8 ∣ bitLength order + 7 ∨ ¬ holen ∣ (bitLength order + 7) / 8) (secexp : Int) (data : Bytes)
    (fuel : Nat) :
    generateK hmac holen true order secexp data fuel = generateK hmac holen false order secexp data fuel := by
  simp only [generateK, stepH_agree hmac holen hl order (bitLength order) h]

/-- A one-byte keyed function for the examples (not a real HMAC). -/
def toyHmac (k m : Bytes) : Bytes :=
  [UInt8.ofNat (k.foldl (fun s c => s * 3 + c.toNat) 1 + m.foldl (fun s c => s * 5 + c.toNat) 1)]

/-- C33 is false in full: once the first candidate is rejected, Python 3 has advanced `v` once more
and the nonces differ. -/
theorem C33_division_false :
    generateK toyHmac 1 false 7 3 [3] 50 = .ok (some 3) ∧
    generateK toyHmac 1 true 7 3 [3] 50 = .ok (some 6) := by decide +kernel

example : generateK toyHmac 1 false 7 2 [3] 1 = .ok (some 1) ∧
    generateK toyHmac 1 true 7 2 [3] 1 = .ok (some 1) := by decide +kernel

/-! ### C34 -/

/-- C34.  Canonisation chooses `s` or `order - s`, and the choice is low up to the error of the
float `order / 2`: twice the result exceeds the order by at most one part in `2 ^ 53`; for orders
below `2 ^ 53` not at all. -/
theorem C34_low_s_partial (s : Int) (order : Nat) (h1 : 1 ≤ s) (h2 : s < order) :
    (canonizeS s order = s ∨ canonizeS s order = order - s) ∧
    1 ≤ canonizeS s order ∧ canonizeS s order < order ∧
    2 * canonizeS s order ≤ order + order / 2 ^ 53 ∧
    (order < 2 ^ 53 → 2 * canonizeS s order ≤ order) := by
  obtain ⟨e1, e2⟩ := round53_err order
  refine ⟨?_, ?_, ?_, ?_, fun hs => ?_⟩
  · unfold canonizeS; split <;> simp
  · unfold canonizeS; split <;> omega
  · unfold canonizeS; split <;> omega
  · unfold canonizeS; split <;> omega
  · unfold canonizeS
    rw [round53_small hs]; split <;> omega

/-- C34 is false: on SECP256k1 the float `order / 2` is `2 ^ 255`, and `s = 2 ^ 255 - 1`, which is
above half the order, is emitted unchanged by all three encoders. -/
theorem C34_low_s_false :
    let s : Int := 2 ^ 255 - 1
    let n := secp256k1.order
    1 ≤ s ∧ s < n ∧ 2 * s > n ∧
    sigencodeDerCanonize 1 s n = sigencodeDer 1 s ∧
    sigencodeStringCanonize 1 s n = sigencodeString 1 s n ∧
    (sigencodeStringsCanonize 1 s n).map Prod.snd = numberToString s n := by
  decide +kernel

example : canonizeS 5 7 = 2 ∧ canonizeS 3 7 = 3 := by decide +kernel

/-- C88.  Replacing `s` by `n - s` does not change the verdict, so canonisation keeps signatures
valid. -/
theorem C88_negated_s {C : CurveFp} [Fact C.p.Prime] {G P : Pt} {n : Nat} {g q : (W C).Point}
    (hG : GenOk C G n g) (hP : KeyOk C n P q) (hash r s : Int) :
    PublicKey.verifies ⟨C, G, P⟩ hash r (n - s) = PublicKey.verifies ⟨C, G, P⟩ hash r s := by
  by_cases h : 1 ≤ r ∧ r < n ∧ 1 ≤ s ∧ s < n
  · have h' : 1 ≤ r ∧ r < n ∧ 1 ≤ (n : Int) - s ∧ (n : Int) - s < n := by omega
    obtain ⟨w, -, -, -, hw⟩ := inverseMod_prime hG.prime s (not_dvd_of_range h.2.2.1 h.2.2.2)
    have hw' : (((n : Int) - s) * (-w)) % (n : Int) = 1 := by
      have e : ((n : Int) - s) * (-w) = s * w + (n : Int) * (-w) := by ring
      rw [e, Int.add_mul_emod_self_left, hw]
    obtain ⟨a0, a1⟩ := verifies_spec hG hP hash r s w h hw
    obtain ⟨b0, b1⟩ := verifies_spec hG hP hash r (n - s) (-w) h' hw'
    have e : (hash * -w) • g + (r * -w) • q = -((hash * w) • g + (r * w) • q) := by
      rw [mul_neg, mul_neg, neg_zsmul, neg_zsmul, neg_add]
    cases hS : (hash * w) • g + (r * w) • q with
    | zero =>
      rw [a0 hS, b0]
      rw [e, hS]; exact neg_zero
    | some x y hxy =>
      rw [a1 x y hxy hS]
      rw [hS, WeierstrassCurve.Affine.Point.neg_some] at e
      exact b1 _ _ _ e
  · rw [verifies_range hG.order _ _ _ (by omega), verifies_range hG.order _ _ _ (by omega)]

/-- C88, with the rest of the canonical encoders. -/
theorem C88_canonize_verifies {C : CurveFp} [Fact C.p.Prime] {G P : Pt} {n : Nat}
    {g q : (W C).Point} (hG : GenOk C G n g) (hP : KeyOk C n P q) (hash r s : Int) :
    PublicKey.verifies ⟨C, G, P⟩ hash r (canonizeS s n) = PublicKey.verifies ⟨C, G, P⟩ hash r s := by
  unfold canonizeS
  split
  · exact C88_negated_s hG hP hash r s
  · rfl

/-! ### C87 -/

/-- C87.  `randrange_from_seed__overshoot_modulo` always returns, in range, for orders above one. -/
theorem C87_overshoot (H : Hashes) (seed : Bytes) (order : Nat) (ho : 1 < order) :
    ∃ k, overshootModulo H seed order = .ok k ∧ 1 ≤ k ∧ k < order ∧
      (k : Int) = (bytesVal (prng H seed 0 (2 * orderlen order)) : Int) % ((order : Int) - 1) + 1 := by
  have hl := orderlen_pos order
  have hne : prng H seed 0 (2 * orderlen order) ≠ [] := by
    intro h0
    have := congrArg List.length h0
    simp [prng] at this; omega
  have hs := stringToNumber_eq _ hne
  rw [stringToNumber] at hs
  have hm1 := Int.emod_nonneg (bytesVal (prng H seed 0 (2 * orderlen order)) : Int)
    (by omega : (order : Int) - 1 ≠ 0)
  have hm2 := Int.emod_lt_of_pos (bytesVal (prng H seed 0 (2 * orderlen order)) : Int)
    (by omega : 0 < (order : Int) - 1)
  set k := ((bytesVal (prng H seed 0 (2 * orderlen order)) : Int) % ((order : Int) - 1) + 1).toNat with hk
  have hkI : (k : Int) = (bytesVal (prng H seed 0 (2 * orderlen order)) : Int) % ((order : Int) - 1) + 1 := by
    rw [hk]; omega
  have ha : pyAssert (decide (1 ≤ k) && decide (k < order)) = .ok () := by
    rw [pyAssert_ok_iff, Bool.and_eq_true, decide_eq_true_eq, decide_eq_true_eq]; omega
  refine ⟨k, ?_, by omega, by omega, hkI⟩
  simp only [overshootModulo, hs, ok_bind]
  rw [if_neg (by omega), ← hk, ha]
  rfl

/-- C87.  What `randrange_from_seed__trytryagain` returns is in range. -/
theorem C87_trytryagain (H : Hashes) (seed : Bytes) (order bytes extrabits fuel k : Nat)
    (h : tryTryAgain H seed order bytes extrabits fuel = .ok (some k)) : 1 ≤ k ∧ k < order := by
  simp only [tryTryAgain, bind_ok_iff] at h
  obtain ⟨_, _, h⟩ := h
  exact tryTryAgainLoop_range h

/-- The bytes that a try of `randrange_from_seed__trytryagain` uses. -/
def tryLength (bytes extrabits : Nat) : Nat := bytes + (if extrabits = 0 then 0 else 1)

/-- The number of try `i`: the low bits of a first byte, if there are any over, then whole bytes, and one is added. -/
def tryNumber (H : Hashes) (seed : Bytes) (bytes extrabits i : Nat) : Nat :=
  let pos := i * tryLength bytes extrabits
  if extrabits = 0 then bytesVal (prng H seed pos bytes) + 1
  else (prngByte H seed pos).toNat % 2 ^ extrabits * 256 ^ bytes + bytesVal (prng H seed (pos + 1) bytes) + 1

theorem tryLoop_spec (H : Hashes) (seed : Bytes) (order bytes extrabits : Nat) (hne : bytes ≠ 0 ∨ extrabits ≠ 0) :
    ∀ fuel i k, tryTryAgainLoop H seed order bytes extrabits fuel (i * tryLength bytes extrabits) = .ok (some k) ↔
      ∃ j < fuel, k = tryNumber H seed bytes extrabits (i + j) ∧ k < order ∧
        ∀ l < j, order ≤ tryNumber H seed bytes extrabits (i + l) := by
  intro fuel
  induction fuel with
  | zero => intro i k; simp [tryTryAgainLoop]
  | succ fuel ih =>
    intro i k
    have hstep : tryTryAgainLoop H seed order bytes extrabits (fuel + 1) (i * tryLength bytes extrabits) =
        if tryNumber H seed bytes extrabits i < order then .ok (some (tryNumber H seed bytes extrabits i))
        else tryTryAgainLoop H seed order bytes extrabits fuel ((i + 1) * tryLength bytes extrabits) := by
      rw [tryTryAgainLoop]
      by_cases he : extrabits = 0
      · have hb : bytes ≠ 0 := hne.resolve_right (fun h => h he)
        have hn : prng H seed (i * tryLength bytes extrabits) bytes ≠ [] := by
          intro h0
          have := congrArg List.length h0
          simp [prng] at this
          exact hb this
        simp only [he, ne_eq, not_true_eq_false, if_false, List.nil_append]
        rw [he] at hn
        rw [stringToNumber_eq _ hn, ok_bind]
        have ht : tryNumber H seed bytes 0 i = bytesVal (prng H seed (i * tryLength bytes 0) bytes) + 1 := by
          simp [tryNumber]
        rw [← ht, Nat.succ_mul, show tryLength bytes 0 = bytes by simp [tryLength]]
        have h1 : 1 ≤ tryNumber H seed bytes 0 i := by rw [ht]; omega
        by_cases hlt : tryNumber H seed bytes 0 i < order
        · rw [if_pos ⟨h1, hlt⟩, if_pos hlt]; rfl
        · rw [if_neg (fun h => hlt h.2), if_neg hlt]
      · simp only [ne_eq, he, not_false_eq_true, if_true, List.singleton_append]
        rw [stringToNumber_eq _ (by simp), ok_bind]
        have hm : ∀ x : UInt8, (UInt8.ofNat (x.toNat &&& ((1 <<< extrabits) - 1))).toNat = x.toNat % 2 ^ extrabits := by
          intro x
          rw [Nat.one_shiftLeft, Nat.and_two_pow_sub_one_eq_mod, UInt8.toNat_ofNat_of_lt']
          exact lt_of_le_of_lt (Nat.mod_le _ _) x.toNat_lt
        have ht : tryNumber H seed bytes extrabits i = bytesVal (UInt8.ofNat ((prngByte H seed
            (i * tryLength bytes extrabits)).toNat &&& ((1 <<< extrabits) - 1)) ::
            prng H seed (i * tryLength bytes extrabits + 1) bytes) + 1 := by
          rw [bytesVal_cons, hm]
          simp only [tryNumber, if_neg he]
          simp [prng]
        rw [← ht, Nat.succ_mul, show i * tryLength bytes extrabits + 1 + bytes =
          i * tryLength bytes extrabits + tryLength bytes extrabits by simp [tryLength, he]; omega]
        have h1 : 1 ≤ tryNumber H seed bytes extrabits i := by rw [ht]; omega
        by_cases hlt : tryNumber H seed bytes extrabits i < order
        · rw [if_pos ⟨h1, hlt⟩, if_pos hlt]; rfl
        · rw [if_neg (fun h => hlt h.2), if_neg hlt]
    rw [hstep]
    by_cases hlt : tryNumber H seed bytes extrabits i < order
    · rw [if_pos hlt]
      constructor
      · intro h
        injection h with h
        injection h with h
        exact ⟨0, by omega, h.symm, h ▸ hlt, fun l hl => absurd hl (by omega)⟩
      · rintro ⟨j, -, hk, -, hl⟩
        cases j with
        | zero => rw [hk]; rfl
        | succ j => exact absurd (hl 0 (by omega)) (by simpa using hlt)
    · rw [if_neg hlt, ih (i + 1) k]
      constructor
      · rintro ⟨j, hj, hk, ho, hl⟩
        refine ⟨j + 1, by omega, by rw [hk]; congr 1; omega, ho, fun l hl' => ?_⟩
        cases l with
        | zero => simpa using hlt
        | succ l =>
          have := hl l (by omega)
          rwa [show i + 1 + l = i + (l + 1) by omega] at this
      · rintro ⟨j, hj, hk, ho, hl⟩
        cases j with
        | zero => rw [hk] at ho; exact absurd ho hlt
        | succ j =>
          refine ⟨j, by omega, by rw [hk]; congr 1; omega, ho, fun l hl' => ?_⟩
          have := hl (l + 1) (by omega)
          rwa [show i + (l + 1) = i + 1 + l by omega] at this

/-- C87.  `randrange_from_seed__trytryagain` takes consecutive pieces of the generator's stream and returns the first
number in range; an order of at most one, for which there is none, is refused. -/
theorem C87_first (H : Hashes) (seed : Bytes) (order bytes extrabits fuel : Nat) (hne : bytes ≠ 0 ∨ extrabits ≠ 0) :
    (order ≤ 1 → tryTryAgain H seed order bytes extrabits fuel = .error .assertionError) ∧
    (1 < order → ∀ k, tryTryAgain H seed order bytes extrabits fuel = .ok (some k) ↔
      ∃ j < fuel, k = tryNumber H seed bytes extrabits j ∧ k < order ∧
        ∀ l < j, order ≤ tryNumber H seed bytes extrabits l) := by
  constructor
  · intro h
    unfold tryTryAgain
    rw [decide_eq_false (by omega)]
    rfl
  · intro h k
    have := tryLoop_spec H seed order bytes extrabits hne fuel 0 k
    simp only [Nat.zero_mul, Nat.zero_add] at this
    unfold tryTryAgain
    rw [decide_eq_true (by omega)]
    exact this

/-- Four tries are too large here, and the fifth is taken. -/
example : (List.range 5).map (tryNumber Hashes.toy [1] 0 7) = [113, 115, 111, 104, 46] ∧
    tryTryAgain Hashes.toy [1] 100 0 7 50 = .ok (some 46) := by decide +kernel

/-- C87.  The generator gives what it is asked for and continues where it stopped: two requests
give the same bytes as one. -/
theorem C87_prng (H : Hashes) (seed : Bytes) (pos a b : Nat) :
    prng H seed pos (a + b) = prng H seed pos a ++ prng H seed (pos + a) b ∧
    (prng H seed pos a).length = a := by
  constructor
  · simp only [prng, List.range_add, List.map_append, List.map_map]
    congr 1
    apply List.map_congr_left
    intro j _
    simp [Nat.add_assoc]
  · simp [prng]

theorem fmtDecNat_eq (n : Nat) : fmtDecNat n = ascii (Nat.repr n) := by
  have hd : ∀ d, d < 10 → hexDigit d = UInt8.ofNat (Nat.digitChar d).toNat := by decide +kernel
  induction n using Nat.strongRecOn with
  | _ n ih =>
    have hr : ∀ m, ascii (Nat.repr m) = (Nat.toDigits 10 m).map fun c => UInt8.ofNat c.toNat := by
      intro m; simp [ascii, Nat.repr]
    rw [hr, Nat.toDigits_eq_if (by omega)]
    by_cases h0 : n = 0
    · subst h0; decide +kernel
    · rw [fmtDecNat, if_neg h0, digitsBE_step 10 n (by omega) h0]
      split
      · rename_i h
        rw [Nat.div_eq_of_lt h, Nat.mod_eq_of_lt h, digitsBE_zero]
        simp [hd n h]
      · have := ih (n / 10) (by omega)
        rw [hr, fmtDecNat, if_neg (by omega)] at this
        rw [List.map_append, List.map_append, this]
        simp [hd (n % 10) (by omega)]

/-- C87.  The stream is the hashes of `prng-0-seed`, `prng-1-seed`, ... one after the other. -/
theorem C87_prng_stream (H : Hashes) (seed : Bytes) (m : Nat) :
    prng H seed 0 (32 * m) = ((List.range m).map fun i =>
      H.sha256 (ascii "prng-" ++ ascii (Nat.repr i) ++ ascii "-" ++ seed)).flatten := by
  induction m with
  | zero => rfl
  | succ m ih =>
    rw [Nat.mul_succ, (C87_prng H seed 0 (32 * m) 32).1, ih, List.range_succ, List.map_append,
      List.flatten_append]
    congr 1
    have hp : ascii "prng-" = [112, 114, 110, 103, 45] := by decide +kernel
    have hm : ascii "-" = [45] := by decide +kernel
    simp only [List.map_cons, List.map_nil, List.flatten_cons, List.flatten_nil, List.append_nil,
      ← fmtDecNat_eq, hp, hm]
    apply List.ext_getElem
    · simp [prng, H.sha256_length]
    · intro j h1 h2
      have hj : j < 32 := by simpa [prng] using h1
      have e1 : (0 + 32 * m + j) / 32 = m := by omega
      have e2 : (0 + 32 * m + j) % 32 = j := by omega
      simp only [prng, List.getElem_map, List.getElem_range, prngByte, e1, e2, prngBlock]
      rw [List.getD_eq_getElem?_getD, List.getElem?_eq_getElem (by rw [H.sha256_length]; exact hj),
        Option.getD_some]

example : tryTryAgain Hashes.toy [1] 200 0 7 50 = .ok (some 113) := by decide +kernel
example : overshootModulo Hashes.toy [1] 200 = .ok 131 := by decide +kernel

/-! ### C35 -/

theorem small_orderlen {c : Curve} (h : c ∈ curves) : c.baselen < 100 := by
  obtain ⟨e, ho⟩ := oidOk_of_mem h
  exact ho.baselen

/-- C35.  A signing key on any of the six curves survives export to and import from DER, and to and
from its string form. -/
theorem C35_signing_key (c : Curve) (hc : c ∈ curves) (d : Int) (sk : SigningKey)
    (h : SigningKey.fromSecretExponent d c = .ok sk) :
    (∃ der, sk.toDer = .ok der ∧ SigningKey.fromDer der = .ok sk) ∧
    (∃ s, sk.toStr = .ok s ∧ SigningKey.fromString s c = .ok sk) := by
  obtain ⟨e, ho⟩ := oidOk_of_mem hc
  obtain ⟨s, hs, hl, hfs⟩ := sk_toStr h
  have : Fact c.curve.p.Prime := ⟨(curveOk_of_mem hc).prime_p⟩
  obtain ⟨x, y, o, hx, hy, rfl, -, -⟩ := (curveOk_of_mem hc).valid h
  have hv := toStr_eq (vk := ⟨c, ⟨c.curve, c.generator, .aff x y o⟩⟩) rfl hx hy
  obtain ⟨der, h1, h2⟩ := skDer ho hs hl hv (by have := ho.baselen; simp; omega)
  exact ⟨⟨der, h1, by rw [h2]; exact hfs⟩, ⟨s, hs, hfs⟩⟩

/-- C35.  So does the verifying key of a signing key: the same point (as `Point.__eq__` compares
them) on the same curve with the same generator. -/
theorem C35_verifying_key (c : Curve) (hc : c ∈ curves) (d : Int) (sk : SigningKey)
    (h : SigningKey.fromSecretExponent d c = .ok sk) :
    ∃ der vk, sk.verifyingKey.toDer = .ok der ∧ VerifyingKey.fromDer der = .ok vk ∧
      vk.curve = c ∧ vk.pubkey.C = sk.pubkey.C ∧ vk.pubkey.generator = sk.pubkey.generator ∧
      Pt.eq vk.pubkey.point sk.pubkey.point = true := by
  obtain ⟨e, ho⟩ := oidOk_of_mem hc
  have : Fact c.curve.p.Prime := ⟨(curveOk_of_mem hc).prime_p⟩
  have hok := curveOk_of_mem hc
  obtain ⟨x, y, o, hx, hy, rfl, hcp, hpv⟩ := hok.valid h
  have hv := toStr_eq (vk := ⟨c, ⟨c.curve, c.generator, .aff x y o⟩⟩) rfl hx hy
  obtain ⟨der, h1, h2⟩ := vkDer ho hv (by have := ho.baselen; simp; omega)
  refine ⟨der, _, h1, h2.trans (fromString_ok c hok.order_pos.ne' hx hy hpv hcp), rfl, rfl, rfl, ?_⟩
  simp [Pt.eq]

/-- C35.  A verifying key read from a string is restored exactly, and writes that string again. -/
theorem C35_verifying_key_string (c : Curve) (hc : c ∈ curves) (s : Bytes) (vk : VerifyingKey)
    (h : VerifyingKey.fromString s c = .ok vk) :
    vk.toStr = .ok s ∧ ∃ der, vk.toDer = .ok der ∧ VerifyingKey.fromDer der = .ok vk := by
  obtain ⟨e, ho⟩ := oidOk_of_mem hc
  obtain ⟨x, y, hx, hy, rfl, -, -, rfl⟩ := fromString_sound h
  have hv := toStr_eq (vk := ⟨c, ⟨c.curve, c.generator, .aff x y (some c.order)⟩⟩) rfl hx hy
  obtain ⟨der, h1, h2⟩ := vkDer ho hv (by have := ho.baselen; simp; omega)
  exact ⟨hv, der, h1, h2.trans h⟩

/-- There is a key on SECP256k1. -/
example : ∃ sk, SigningKey.fromSecretExponent 1 secp256k1 = .ok sk := by
  obtain ⟨x, y, o, -, hp, hok, -⟩ := Secp.fromSecretExponent_secp (d := 1) (by decide) (by decide)
  by_cases h : x < Secp.n ∧ y < Secp.n
  · exact ⟨_, hok h⟩
  · have hg : Secp.PubPoint 1 0x79be667ef9dcbbac55a06295ce870b07029bfcdb2dce28d959f2815b16f81798
        0x483ada7726a3c4655da4fbfc0e1108a8fd17b448a68554199c47d08ffb10d4b8 :=
      ⟨by decide, by decide, nonsingular_of_equation Secp.good
        ((containsPoint_iff Secp.K _ _).mp Secp.gen_contains), by rw [one_zsmul]; rfl⟩
    obtain ⟨rfl, rfl⟩ := hp.unique hg
    exact absurd ⟨by decide, by decide⟩ h

/-! ### C89 -/

theorem prime_order_of_mem {c : Curve} (hc : c ∈ curves) : c.order.Prime := by
  simp only [curves, List.mem_cons, List.not_mem_nil, or_false] at hc
  rcases hc with rfl | rfl | rfl | rfl | rfl | rfl
  · exact prime_6277101735386680763835789423176059013767194773182842284081
  · exact prime_26959946667150639794667015087019625940457807714424391721682722368061
  · exact prime_115792089210356248762697446949407573529996955224135760342422259061068512044369
  · exact prime_39402006196394479212279040100143613805079739270465446667946905279627659399113263569398956308152294913554433653942643
  · exact prime_6864797660130609714981900799081393217269435300143305409394463459185543183397655394245057746333217197532963996371363321113864768612440380340372808892707005449
  · exact Secp.prime_n

/-- C89.  For each of the six curves of the table: the field modulus is a prime, the curve is
non-singular, the generator is on it, the declared order is an odd prime, and it is the order of the
generator. -/
theorem C89_curves (c : Curve) (hc : c ∈ curves) :
    ∃ hp : Nat.Prime c.curve.p, Good c.curve ∧ OnCurve c.curve c.gx c.gy ∧
      Nat.Prime c.order ∧ Odd c.order ∧
      haveI : Fact (Nat.Prime c.curve.p) := ⟨hp⟩
      ∃ g : (W c.curve).Point, Rep c.curve c.generator g ∧ addOrderOf g = c.order ∧
        GenOk c.curve c.generator c.order g := by
  have hok := curveOk_of_mem hc
  have : Fact (Nat.Prime c.curve.p) := ⟨hok.prime_p⟩
  obtain ⟨g, hg0, hg⟩ := hok.rep
  have hn := prime_order_of_mem hc
  have : Fact c.order.Prime := ⟨hn⟩
  have ho := addOrderOf_eq_prime (hok.torsion (hg none)) hg0
  exact ⟨hok.prime_p, hok.good, (onCurve_iff _ _ _).2 hok.contains, hn, hok.odd, g, hg _, ho,
    hok.good, hg _, rfl, hn, fun h2 => by have := hok.odd; rw [h2] at this; revert this; decide, ho⟩

/-- NIST521p is one of them. -/
example : nist521p ∈ curves := by simp [curves]

end NBC.Props
