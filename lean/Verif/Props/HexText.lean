import Verif.Model.Util
import Verif.Proofs.Hex
import Verif.Proofs.PyBind
import Mathlib.Data.Nat.Digits.Defs

/-!
C110: `hex_to_bin` and `bin_to_hex`.
-/

namespace NBC.Props

open NBC NBC.Util NBC.Spec

/-- The value of a string of hexadecimal digits of either case, most significant digit first; `none` if some
character is no digit. -/
def hexNumber (t : Bytes) : Option Nat :=
  (t.mapM (fun c => "0123456789abcdef".toList.findIdx? (fun x => x.toLower = (Char.ofNat c.toNat).toLower))).map
    (fun ds => Nat.ofDigits 16 ds.reverse)

/-- The number whose digits of base 256 are the bytes, least significant first. -/
def littleEndian (d : Bytes) : Nat := Nat.ofDigits 256 (d.map UInt8.toNat)

theorem digit_table : ∀ c : Fin 256,
    hexVal (UInt8.ofNat c.1) =
      "0123456789abcdef".toList.findIdx? (fun x => x.toLower = (Char.ofNat c.1).toLower) := by
  decide +kernel

theorem hexVal_spec (c : UInt8) : hexVal c =
    "0123456789abcdef".toList.findIdx? (fun x => x.toLower = (Char.ofNat c.toNat).toLower) := by
  have := digit_table ⟨c.toNat, c.toNat_lt⟩
  simpa using this

theorem hexNumber_eq (t : Bytes) : hexNumber t = (t.mapM hexVal).map (fun ds => Nat.ofDigits 16 ds.reverse) := by
  unfold hexNumber
  rw [show hexVal = _ from funext hexVal_spec]

theorem littleEndian_reverse (d : Bytes) : littleEndian d.reverse = bytesVal d := by
  unfold littleEndian
  induction d with
  | nil => rfl
  | cons c d ih =>
    rw [List.reverse_cons, List.map_append, Nat.ofDigits_append, ih, bytesVal_cons]
    simp
    ring

theorem mapM_hexDigit (ds : List Nat) (h : ∀ d ∈ ds, d < 16) : (ds.map hexDigit).mapM hexVal = some ds := by
  induction ds with
  | nil => rfl
  | cons d ds ih =>
    rw [List.map_cons, List.mapM_cons, hexVal_hexDigit d (h d (by simp)), ih (fun x hx => h x (by simp [hx]))]
    rfl

theorem ofDigits_beVal (b : Nat) (ds : List Nat) : Nat.ofDigits b ds.reverse = beVal b ds := by
  induction ds with
  | nil => rfl
  | cons d ds ih =>
    rw [List.reverse_cons, Nat.ofDigits_append, ih, beVal]
    simp
    ring

/-- The texts `unhexlify` takes, and the bytes it gives. -/
theorem unhexlify_ok_iff : ∀ (t d : Bytes), unhexlify t = .ok d ↔
    t.length = 2 * d.length ∧ ∃ ds, t.mapM hexVal = some ds ∧ ds = nibbles d
  | [], d => by
    constructor
    · intro h
      cases h
      exact ⟨rfl, [], rfl, rfl⟩
    · rintro ⟨h, -⟩
      have : d = [] := List.length_eq_zero_iff.1 (by simpa using h)
      subst this
      rfl
  | [a], d => by
    constructor
    · intro h; cases h
    · rintro ⟨h, -⟩
      rw [List.length_singleton] at h
      omega
  | a :: b :: t, d => by
    have hx : ∀ c x, hexVal c = some x → x < 16 := by
      intro c x h
      unfold hexVal at h
      split_ifs at h <;> simp only [Option.some.injEq] at h <;> omega
    have ih := unhexlify_ok_iff t
    constructor
    · intro h
      rw [unhexlify] at h
      cases ha : hexVal a with
      | none => rw [ha] at h; cases h
      | some x =>
        cases hb : hexVal b with
        | none => rw [ha, hb] at h; cases h
        | some y =>
          rw [ha, hb] at h
          cases hu : unhexlify t with
          | error e => rw [hu] at h; cases h
          | ok r =>
            rw [hu] at h
            simp only [Except.ok.injEq] at h
            subst h
            obtain ⟨h1, ds, h2, h3⟩ := (ih r).1 hu
            have hx' := hx a x ha
            have hy' := hx b y hb
            refine ⟨by simp only [List.length_cons]; omega, x :: y :: ds, ?_, ?_⟩
            · rw [List.mapM_cons, List.mapM_cons, ha, hb, h2]
              rfl
            · show _ = (UInt8.ofNat (16 * x + y)).toNat / 16 :: (UInt8.ofNat (16 * x + y)).toNat % 16 :: nibbles r
              rw [UInt8.toNat_ofNat_of_lt' (by simp only [UInt8.size]; omega), h3]
              congr 1
              · omega
              · congr 1
                omega
    · rintro ⟨hl, ds, hm, hd⟩
      cases d with
      | nil => simp at hl
      | cons c d =>
        rw [List.mapM_cons, List.mapM_cons] at hm
        cases ha : hexVal a with
        | none => rw [ha] at hm; cases hm
        | some x =>
          cases hb : hexVal b with
          | none => rw [ha, hb] at hm; cases hm
          | some y =>
            rw [ha, hb] at hm
            cases hu : t.mapM hexVal with
            | none => rw [hu] at hm; cases hm
            | some es =>
              rw [hu] at hm
              change some (x :: y :: es) = some ds at hm
              injection hm with hm
              have hn : nibbles (c :: d) = c.toNat / 16 :: c.toNat % 16 :: nibbles d := rfl
              rw [hd, hn] at hm
              injection hm with h1 hm
              injection hm with h2 h3
              have hr := (ih d).2 ⟨by simp only [List.length_cons] at hl; omega, es, hu, h3⟩
              rw [unhexlify, ha, hb, hr]
              simp only [Except.ok.injEq, List.cons.injEq, and_true]
              rw [h1, h2, show 16 * (c.toNat / 16) + c.toNat % 16 = c.toNat by omega]
              simp

/-- C110 in Python 2: `hex_to_bin` takes the texts of an even number of hexadecimal digits, of either case,
and gives the number written there, least significant byte first, in half as many bytes; anything else raises
`TypeError`. -/
theorem C110_hex_to_bin_partial (t : Bytes) :
    (∀ d, hexToBin .py2 t = .ok d ↔ t.length = 2 * d.length ∧ hexNumber t = some (littleEndian d)) ∧
    ((∀ d, hexToBin .py2 t ≠ .ok d) → hexToBin .py2 t = .error .typeError) := by
  have key : ∀ d, hexToBin .py2 t = .ok d ↔ unhexlify t = .ok d.reverse := by
    intro d
    simp only [hexToBin]
    cases hu : unhexlify t with
    | error e => simp
    | ok r =>
      simp only [Except.ok.injEq]
      constructor
      · rintro rfl; simp
      · rintro rfl; simp
  constructor
  · intro d
    rw [key, unhexlify_ok_iff, List.length_reverse, hexNumber_eq]
    constructor
    · rintro ⟨h1, ds, h2, h3⟩
      refine ⟨h1, ?_⟩
      rw [h2, Option.map_some, ofDigits_beVal, h3, beVal_nibbles, ← littleEndian_reverse, List.reverse_reverse]
    · rintro ⟨h1, h2⟩
      refine ⟨h1, ?_⟩
      cases hm : t.mapM hexVal with
      | none => rw [hm] at h2; cases h2
      | some ds =>
        refine ⟨ds, rfl, ?_⟩
        rw [hm, Option.map_some, ofDigits_beVal, Option.some.injEq, ← d.reverse_reverse, littleEndian_reverse,
          ← beVal_nibbles] at h2
        have hlen : ds.length = t.length := by
          clear h1 h2 key
          induction t generalizing ds with
          | nil => cases hm; rfl
          | cons c t ih =>
            rw [List.mapM_cons] at hm
            cases hc : hexVal c with
            | none => rw [hc] at hm; cases hm
            | some x =>
              rw [hc] at hm
              cases ht : t.mapM hexVal with
              | none => rw [ht] at hm; cases hm
              | some es =>
                rw [ht] at hm
                change some (x :: es) = some ds at hm
                injection hm with hm
                subst hm
                rw [List.length_cons, List.length_cons, ih es ht]
        have hlt : ∀ x ∈ ds, x < 16 := by
          clear h1 h2 key hlen
          induction t generalizing ds with
          | nil => cases hm; simp
          | cons c t ih =>
            rw [List.mapM_cons] at hm
            cases hc : hexVal c with
            | none => rw [hc] at hm; cases hm
            | some x =>
              rw [hc] at hm
              cases ht : t.mapM hexVal with
              | none => rw [ht] at hm; cases hm
              | some es =>
                rw [ht] at hm
                change some (x :: es) = some ds at hm
                injection hm with hm
                subst hm
                intro y hy
                rcases List.mem_cons.1 hy with rfl | hy
                · unfold hexVal at hc
                  split_ifs at hc <;> simp only [Option.some.injEq] at hc <;> omega
                · exact ih es ht y hy
        refine beVal_inj 16 _ _ ?_ hlt (nibbles_lt _) h2
        rw [hlen, nibbles_length, List.length_reverse, h1]
  · intro h
    simp only [hexToBin] at h ⊢
    cases hu : unhexlify t with
    | ok r => rw [hu] at h; exact absurd rfl (h _)
    | error e => rfl

/-- C110 in Python 2: `bin_to_hex` gives lower-case text that `hex_to_bin` takes back, so the two are inverse
to each other up to the case of the digits. -/
theorem C110_inverse_partial (d : Bytes) :
    ∃ t, binToHex .py2 d = .ok t ∧ hexToBin .py2 t = .ok d ∧ t.length = 2 * d.length ∧
      hexNumber t = some (littleEndian d) ∧ ∀ c ∈ t, (Char.ofNat c.toNat) ∈ "0123456789abcdef".toList := by
  have h : hexToBin .py2 (hexlify d.reverse) = .ok d := by
    simp only [hexToBin, unhexlify_hexlify, List.reverse_reverse]
  obtain ⟨h1, h2⟩ := ((C110_hex_to_bin_partial _).1 d).1 h
  refine ⟨hexlify d.reverse, rfl, h, h1, h2, ?_⟩
  intro c hc
  rw [hexlify_eq] at hc
  obtain ⟨x, hx, rfl⟩ := List.mem_map.1 hc
  have ht : ∀ x < 16, Char.ofNat (hexDigit x).toNat ∈ "0123456789abcdef".toList := by decide
  exact ht x (nibbles_lt _ x hx)

/-- C110 fails in Python 3, where both raise `AttributeError`. -/
theorem C110_python3_false (t : Bytes) :
    hexToBin .py3 t = .error .attributeError ∧ binToHex .py3 t = .error .attributeError := ⟨rfl, rfl⟩

/-- The number 0x0102 written as `0102` is the bytes 2, 1. -/
example : hexToBin .py2 [48, 49, 48, 50] = .ok [2, 1] ∧ littleEndian [2, 1] = 0x0102 ∧
    hexNumber [48, 49, 48, 50] = some 0x0102 := by decide

end NBC.Props
