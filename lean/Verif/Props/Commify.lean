import Verif.Model.Commify
import Verif.Proofs.Digits

/-!
# C171: numbers shown with separators
-/

namespace NBC.Spec

/-- The number that digits mean -/
def decimal (t : Bytes) : Nat := t.foldl (fun n c => 10 * n + (c.toNat - 48)) 0

/-- `t` shows `v` with separators: a sign if `v` is negative, a group of one to three digits and groups of three, with a comma
before each of these, without a leading zero. -/
def Grouped (t : Bytes) (v : Int) : Prop :=
  ∃ (first : Bytes) (rest : List Bytes), t = (if v < 0 then [45] else []) ++ (first ++ rest.flatMap (44 :: ·)) ∧
    1 ≤ first.length ∧ first.length ≤ 3 ∧ (∀ g ∈ rest, g.length = 3) ∧
    (∀ c ∈ first ++ rest.flatten, 48 ≤ c.toNat ∧ c.toNat ≤ 57) ∧ decimal (first ++ rest.flatten) = v.natAbs ∧
    (first.head? = some 48 → first ++ rest.flatten = [48])

end NBC.Spec

namespace NBC.Props
open NBC NBC.Ecdsa NBC.Util NBC.Spec

theorem comma_short (l : Bytes) (h : l.length ≤ 3) : commaLoop l = l := by
  match l, h with
  | [], _ => rfl
  | [_], _ => rfl
  | [_, _], _ => rfl
  | [_, _, _], _ => rfl
  | _ :: _ :: _ :: _ :: _, h => simp at h; omega

theorem comma_groups (first : Bytes) (rest : List Bytes) (h1 : 1 ≤ first.length) (h3 : first.length ≤ 3)
    (hr : ∀ g ∈ rest, g.length = 3) :
    (commaLoop (first ++ rest.flatten).reverse).reverse = first ++ rest.flatMap (44 :: ·) := by
  induction rest using List.reverseRecOn with
  | nil => simp [comma_short first.reverse (by simpa using h3)]
  | append_singleton rest g ih =>
    have ih := ih (fun x hx => hr x (by simp [hx]))
    have hg := hr g (by simp)
    match g, hg with
    | [a, b, c], _ =>
      have hne : (first ++ rest.flatten).reverse ≠ [] := by
        intro h0
        have := congrArg List.length h0
        rw [List.length_reverse, List.length_append, List.length_nil] at this
        omega
      have hrev : (first ++ (rest ++ [[a, b, c]]).flatten).reverse = c :: b :: a :: (first ++ rest.flatten).reverse := by
        simp
      rw [hrev]
      cases hl : (first ++ rest.flatten).reverse with
      | nil => exact absurd hl hne
      | cons d l =>
        rw [hl] at ih
        rw [commaLoop]
        simp only [List.reverse_cons, List.flatMap_append, List.flatMap_cons, List.flatMap_nil, List.append_nil, ih,
          List.append_assoc]
        rfl

/-- Every row of digits falls into such groups. -/
theorem groups_exist (l : Bytes) (h : l ≠ []) : ∃ (first : Bytes) (rest : List Bytes), l = first ++ rest.flatten ∧
    1 ≤ first.length ∧ first.length ≤ 3 ∧ ∀ g ∈ rest, g.length = 3 := by
  induction hn : l.length using Nat.strong_induction_on generalizing l with
  | _ n ih =>
    by_cases h3 : l.length ≤ 3
    · exact ⟨l, [], by simp, List.length_pos_of_ne_nil h, h3, by simp⟩
    · obtain ⟨first, rest, e, h1, h2, hr⟩ := ih (l.take (l.length - 3)).length (by rw [List.length_take]; omega)
        (l.take (l.length - 3)) (by
          intro h0
          have := congrArg List.length h0
          rw [List.length_take] at this
          simp at this
          omega) rfl
      refine ⟨first, rest ++ [l.drop (l.length - 3)], ?_, h1, h2, ?_⟩
      · rw [List.flatten_append, ← List.append_assoc, ← e]
        simp
      · intro g hg
        rcases List.mem_append.1 hg with hg | hg
        · exact hr g hg
        · rw [List.mem_singleton.1 hg, List.length_drop]
          omega

theorem dec_digit : ∀ d < 10, 48 ≤ (hexDigit d).toNat ∧ (hexDigit d).toNat ≤ 57 ∧ (hexDigit d).toNat - 48 = d ∧
    (hexDigit d = 48 → d = 0) := by decide

theorem dec_char : ∀ i < 256, 48 ≤ (UInt8.ofNat i).toNat ∧ (UInt8.ofNat i).toNat ≤ 57 →
    hexDigit ((UInt8.ofNat i).toNat - 48) = UInt8.ofNat i := by decide +kernel

theorem decimal_aux (ds : List Nat) (h : ∀ d ∈ ds, d < 10) (a : Nat) :
    (ds.map hexDigit).foldl (fun n c => 10 * n + (c.toNat - 48)) a = a * 10 ^ ds.length + beVal 10 ds := by
  induction ds generalizing a with
  | nil => simp [beVal]
  | cons d ds ih =>
    rw [List.map_cons, List.foldl_cons, ih (fun x hx => h x (by simp [hx])), (dec_digit d (h d (by simp))).2.2.1,
      beVal, List.length_cons]
    ring

theorem decimal_fmt (n : Nat) : decimal (fmtDecNat n) = n := by
  unfold fmtDecNat
  by_cases h : n = 0
  · rw [if_pos h, h]
    rfl
  · rw [if_neg h, decimal, decimal_aux _ (digitsBE_lt 10 n (by omega)), Nat.zero_mul, Nat.zero_add,
      beVal_digitsBE 10 n (by omega)]

theorem fmt_digits (n : Nat) : fmtDecNat n ≠ [] ∧ (∀ c ∈ fmtDecNat n, 48 ≤ c.toNat ∧ c.toNat ≤ 57) ∧
    ((fmtDecNat n).head? = some 48 → fmtDecNat n = [48]) := by
  unfold fmtDecNat
  by_cases h : n = 0
  · rw [if_pos h]
    exact ⟨by simp, by decide, fun _ => rfl⟩
  · rw [if_neg h]
    refine ⟨?_, ?_, ?_⟩
    · rw [digitsBE_step 10 n (by omega) h]
      simp
    · intro c hc
      obtain ⟨d, hd, rfl⟩ := List.mem_map.1 hc
      have := dec_digit d (digitsBE_lt 10 n (by omega) d hd)
      exact ⟨this.1, this.2.1⟩
    · intro hh
      rw [List.head?_map, Option.map_eq_some_iff] at hh
      obtain ⟨d, hd, hx⟩ := hh
      exact absurd ((dec_digit d (digitsBE_lt 10 n (by omega) d (List.mem_of_head? hd))).2.2.2 hx)
        (digitsBE_head 10 n (by omega) d hd)

theorem fmt_decimal (l : Bytes) (h0 : l ≠ []) (h : ∀ c ∈ l, 48 ≤ c.toNat ∧ c.toNat ≤ 57)
    (h1 : l.head? = some 48 → l = [48]) : fmtDecNat (decimal l) = l := by
  by_cases hz : l.head? = some 48
  · rw [h1 hz]
    rfl
  · have hc : ∀ c ∈ l, hexDigit (c.toNat - 48) = c := by
      intro c hcl
      have := dec_char c.toNat (UInt8.toNat_lt c)
      rw [UInt8.ofNat_toNat] at this
      exact this (h c hcl)
    have hm : (l.map (fun c => c.toNat - 48)).map hexDigit = l := by
      rw [List.map_map]
      conv_rhs => rw [← List.map_id l]
      exact List.map_congr_left hc
    have hlt : ∀ d ∈ l.map (fun c => c.toNat - 48), d < 10 := by
      intro d hd
      obtain ⟨c, hcl, rfl⟩ := List.mem_map.1 hd
      have := h c hcl
      omega
    have hv : decimal l = beVal 10 (l.map (fun c => c.toNat - 48)) := by
      have := decimal_aux _ hlt 0
      rw [hm, Nat.zero_mul, Nat.zero_add] at this
      exact this
    have hh : ∀ x, (l.map (fun c => c.toNat - 48)).head? = some x → x ≠ 0 := by
      intro x hx hx0
      rw [List.head?_map, Option.map_eq_some_iff] at hx
      obtain ⟨c, hcl, e⟩ := hx
      have h2 := h c (List.mem_of_head? hcl)
      apply hz
      rw [hcl]
      congr 1
      apply UInt8.toNat_inj.1
      have : (48 : UInt8).toNat = 48 := rfl
      omega
    have hd := digitsBE_beVal 10 (by omega) _ hlt hh
    unfold fmtDecNat
    have hne : decimal l ≠ 0 := by
      intro h00
      rw [← hv, h00] at hd
      rw [digitsBE_zero] at hd
      exact h0 (List.map_eq_nil_iff.1 hd.symm)
    rw [if_neg hne, hv, hd, hm]

/-- C171: `commify` shows a number exactly as it is grouped by thousands. -/
theorem C171_exact (v : Int) (t : Bytes) : t = commify v ↔ Grouped t v := by
  constructor
  · rintro rfl
    obtain ⟨hne, hd, hz⟩ := fmt_digits v.natAbs
    obtain ⟨first, rest, e, h1, h3, hr⟩ := groups_exist (fmtDecNat v.natAbs) hne
    refine ⟨first, rest, ?_, h1, h3, hr, by rw [← e]; exact hd, by rw [← e]; exact decimal_fmt _, ?_⟩
    · unfold commify
      rw [e, comma_groups first rest h1 h3 hr]
    · intro hf
      rw [← e]
      apply hz
      rw [e]
      cases first with
      | nil => simp at h1
      | cons c l => simpa using hf
  · rintro ⟨first, rest, rfl, h1, h3, hr, hd, hv, hz⟩
    have := fmt_decimal (first ++ rest.flatten) (by
        intro h0
        have := congrArg List.length h0
        rw [List.length_append, List.length_nil] at this
        omega) hd (by
        intro hf
        apply hz
        cases first with
        | nil => simp at h1
        | cons c l => simpa using hf)
    unfold commify
    rw [← hv, this, comma_groups first rest h1 h3 hr]

/-- C171: two numbers that are shown alike are equal. -/
theorem C171_injective (v w : Int) (h : commify v = commify w) : v = w := by
  obtain ⟨f1, r1, e1, l1, -, -, d1, v1, -⟩ := (C171_exact v _).1 rfl
  obtain ⟨f2, r2, e2, l2, -, -, d2, v2, -⟩ := (C171_exact w _).1 rfl
  have hs : ∀ (v : Int) (f : Bytes) (r : List Bytes), 1 ≤ f.length → (∀ c ∈ f ++ r.flatten, 48 ≤ c.toNat ∧ c.toNat ≤ 57) →
      ((((if v < 0 then [45] else []) ++ (f ++ r.flatMap (44 :: ·)) : Bytes).head? = some 45) ↔ v < 0) := by
    intro v f r hl hd
    cases f with
    | nil => simp at hl
    | cons c l =>
      by_cases hv : v < 0
      · simp [hv]
      · simp only [hv, if_false, List.nil_append, List.cons_append, List.head?_cons, iff_false, Option.some.injEq]
        rintro rfl
        have := hd 45 (by simp)
        have h45 : (45 : UInt8).toNat = 45 := rfl
        omega
  have s1 := hs v f1 r1 l1 d1
  have s2 := hs w f2 r2 l2 d2
  rw [← e1] at s1
  rw [← e2, ← h, s1] at s2
  have hf : ∀ l : Bytes, (∀ c ∈ l, 48 ≤ c.toNat ∧ c.toNat ≤ 57) → l.filter (fun c => c != 44 && c != 45) = l := by
    intro l hl
    rw [List.filter_eq_self]
    intro c hc
    have := hl c hc
    have h4 : c ≠ 44 := by rintro rfl; exact absurd this.1 (by decide)
    have h5 : c ≠ 45 := by rintro rfl; exact absurd this.1 (by decide)
    simp [h4, h5]
  have key : ∀ (v : Int) (f : Bytes) (r : List Bytes), (∀ c ∈ f ++ r.flatten, 48 ≤ c.toNat ∧ c.toNat ≤ 57) →
      ((if v < 0 then [45] else []) ++ (f ++ r.flatMap (44 :: ·)) : Bytes).filter (fun c => c != 44 && c != 45) =
        f ++ r.flatten := by
    intro v f r hd
    have hv : (if v < 0 then [45] else [] : Bytes).filter (fun c => c != 44 && c != 45) = [] := by
      split <;> rfl
    rw [List.filter_append, hv, List.nil_append, List.filter_append, hf f (fun c hc => hd c (by simp [hc]))]
    congr 1
    have hr : ∀ g ∈ r, ∀ c ∈ g, 48 ≤ c.toNat ∧ c.toNat ≤ 57 := by
      intro g hg c hc
      exact hd c (List.mem_append_right _ (List.mem_flatten.2 ⟨g, hg, hc⟩))
    clear hd e1 e2
    induction r with
    | nil => rfl
    | cons g r ih =>
      rw [List.flatMap_cons, List.filter_append, ih (fun x hx => hr x (by simp [hx])), List.flatten_cons]
      congr 1
      rw [List.filter_cons, if_neg (by decide), hf g (hr g (by simp))]
  have k1 := key v f1 r1 d1
  have k2 := key w f2 r2 d2
  rw [← e1] at k1
  rw [← e2, ← h, k1] at k2
  rw [← k2, v1] at v2
  omega

/-- Cases: 21000000 with two commas, -1234, and 0 -/
example : commify 21000000 = [50, 49, 44, 48, 48, 48, 44, 48, 48, 48] ∧ commify (-1234) = [45, 49, 44, 50, 51, 52] ∧
    commify 0 = [48] ∧ commify 999 = [57, 57, 57] := by
  decide +kernel

end NBC.Props
