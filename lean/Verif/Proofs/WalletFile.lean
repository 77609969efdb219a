import Verif.Model.WalletFile
import Verif.Proofs.Digits
import Verif.Proofs.PyBind

/-!
# Lemmas on the text of wallet files
-/

namespace NBC.Wallet
open NBC Spec Ecdsa

/-- A text that is written without escapes and read up to its closing quote. -/
def PlainText (s : Bytes) : Prop := ∀ c ∈ s, c ≠ 34 ∧ c ≠ 92 ∧ ¬ c < 32

/-- A value whose text is plain. -/
def PlainVal : JVal → Prop
  | .str s => PlainText s
  | _ => True

/-- An entry with plain key and value. -/
def PlainItem (x : Bytes × JVal) : Prop := PlainText x.1 ∧ PlainVal x.2

/-! ### Texts -/

theorem scanStr_ok (s r : Bytes) (h : PlainText s) : scanStr (s ++ 34 :: r) = .ok (s, r) := by
  induction s with
  | nil => simp [scanStr]
  | cons c cs ih =>
    obtain ⟨h1, h2, h3⟩ := h c (by simp)
    have := ih (fun x hx => h x (by simp [hx]))
    rw [List.cons_append, scanStr, if_neg h1, if_neg (by tauto), this, ok_bind]

theorem scanStr_cut (s : Bytes) (h : PlainText s) : scanStr s = .error .valueError := by
  induction s with
  | nil => rfl
  | cons c cs ih =>
    obtain ⟨h1, h2, h3⟩ := h c (by simp)
    have := ih (fun x hx => h x (by simp [hx]))
    rw [scanStr, if_neg h1, if_neg (by tauto), this, error_bind]

theorem plain_take {s : Bytes} (h : PlainText s) (k : Nat) : PlainText (s.take k) :=
  fun c hc => h c (List.mem_of_mem_take hc)

theorem scanStr_take (s : Bytes) (h : PlainText s) (k : Nat) (hk : k ≤ s.length) :
    scanStr ((s ++ [34]).take k) = .error .valueError := by
  rw [List.take_append_of_le_length hk]
  exact scanStr_cut _ (plain_take h k)

/-! ### Numbers -/

/-- A decimal numeral without a needless zero in front. -/
def NumText (t : Bytes) : Prop := t ≠ [] ∧ (∀ c ∈ t, isDig c = true) ∧ (t.head? = some 48 → t = [48])

/-- What follows a value: nothing that could go on with a number. -/
def Ends (r : Bytes) : Prop := ∀ c, r.head? = some c → isDig c = false

theorem takeWhile_dig (t r : Bytes) (h : ∀ c ∈ t, isDig c = true) (hr : Ends r) :
    (t ++ r).takeWhile isDig = t ∧ (t ++ r).dropWhile isDig = r := by
  induction t with
  | nil =>
    cases r with
    | nil => simp
    | cons c cs => simp [hr c rfl]
  | cons c cs ih =>
    obtain ⟨h1, h2⟩ := ih (fun x hx => h x (by simp [hx]))
    simp [h c (by simp), h1, h2]

theorem scanNat_ok (t r : Bytes) (h : NumText t) (hr : Ends r) : scanNat (t ++ r) = .ok (decVal t, r) := by
  obtain ⟨h0, h1, h2⟩ := h
  cases t with
  | nil => exact absurd rfl h0
  | cons c cs =>
    rw [List.cons_append, scanNat]
    by_cases hc : c = 48
    · subst hc
      have := h2 rfl
      simp only [List.cons.injEq, true_and] at this
      subst this
      rw [if_pos rfl]
      rfl
    · obtain ⟨e1, e2⟩ := takeWhile_dig (c :: cs) r h1 hr
      rw [if_neg hc, if_pos (h1 c (by simp)), ← List.cons_append, e1, e2]

theorem numText_take {t : Bytes} (h : NumText t) (k : Nat) (hk : t.take k ≠ []) : NumText (t.take k) := by
  obtain ⟨h0, h1, h2⟩ := h
  refine ⟨hk, fun c hc => h1 c (List.mem_of_mem_take hc), fun hh => ?_⟩
  cases k with
  | zero => simp at hk
  | succ k =>
    cases t with
    | nil => exact absurd rfl h0
    | cons c cs =>
      simp only [List.take_succ_cons, List.head?_cons, Option.some.injEq] at hh ⊢
      subst hh
      have := h2 rfl
      simp only [List.cons.injEq, true_and] at this
      subst this
      simp

theorem isDig_hexDigit : ∀ d < 10, isDig (hexDigit d) = true ∧ (hexDigit d).toNat - 48 = d ∧
    (hexDigit d = 48 → d = 0) := by decide

theorem decVal_aux (ds : List Nat) (h : ∀ d ∈ ds, d < 10) (a : Nat) :
    (ds.map hexDigit).foldl (fun a c => 10 * a + (c.toNat - 48)) a = a * 10 ^ ds.length + beVal 10 ds := by
  induction ds generalizing a with
  | nil => simp [beVal]
  | cons d ds ih =>
    rw [List.map_cons, List.foldl_cons, ih (fun x hx => h x (by simp [hx])), (isDig_hexDigit d (h d (by simp))).2.1,
      beVal, List.length_cons]
    ring

theorem decVal_fmt (n : Nat) : decVal (fmtDecNat n) = n := by
  unfold fmtDecNat
  by_cases h : n = 0
  · rw [if_pos h, h]
    rfl
  · rw [if_neg h, decVal, decVal_aux _ (digitsBE_lt 10 n (by omega)), Nat.zero_mul, Nat.zero_add,
      beVal_digitsBE 10 n (by omega)]

theorem numText_fmt (n : Nat) : NumText (fmtDecNat n) := by
  unfold fmtDecNat
  by_cases h : n = 0
  · rw [if_pos h]
    exact ⟨by simp, by decide, fun _ => rfl⟩
  · rw [if_neg h]
    refine ⟨?_, ?_, ?_⟩
    · rw [digitsBE_step 10 n (by omega) h]
      simp
    · intro c hc
      obtain ⟨d, hd, rfl⟩ := List.mem_map.1 hc
      exact (isDig_hexDigit d (digitsBE_lt 10 n (by omega) d hd)).1
    · intro hh
      rw [List.head?_map, Option.map_eq_some_iff] at hh
      obtain ⟨d, hd, hx⟩ := hh
      have hl := digitsBE_lt 10 n (by omega) d (List.mem_of_head? hd)
      exact absurd ((isDig_hexDigit d hl).2.2 hx) (digitsBE_head 10 n (by omega) d hd)

theorem dig_ne {c : UInt8} (h : isDig c = true) : c ≠ 34 ∧ c ≠ 45 ∧ c ≠ 110 ∧ c ≠ 116 ∧ c ≠ 102 := by
  revert h
  refine fun h => ⟨?_, ?_, ?_, ?_, ?_⟩ <;> rintro rfl <;> exact absurd h (by decide)

theorem scanInt_ok (i : Int) (r : Bytes) (hr : Ends r) : scanInt (jInt i ++ r) = .ok (i, r) := by
  have hn := numText_fmt i.natAbs
  have hs := scanNat_ok _ r hn hr
  rw [decVal_fmt] at hs
  unfold jInt
  by_cases h : i < 0
  · rw [if_pos h, List.cons_append, scanInt, if_pos rfl, hs, ok_bind]
    simp only
    congr 2
    omega
  · rw [if_neg h]
    cases ht : fmtDecNat i.natAbs with
    | nil => exact absurd ht hn.1
    | cons c cs =>
      rw [ht] at hs hn
      rw [List.cons_append, scanInt, if_neg (dig_ne (hn.2.1 c (by simp))).2.1, ← List.cons_append, hs, ok_bind]
      simp only
      congr 2
      omega

/-- Either refused, or taken for a value that ends with the text. -/
def CutOff {α : Type} (x : Py (α × Bytes)) : Prop := x = .error .valueError ∨ ∃ v, x = .ok (v, [])

theorem scanNat_take (t : Bytes) (h : NumText t) (k : Nat) : CutOff (scanNat (t.take k)) := by
  by_cases hk : t.take k = []
  · rw [hk]
    exact .inl rfl
  · have := scanNat_ok (t.take k) [] (numText_take h k hk) (fun c hc => by simp at hc)
    rw [List.append_nil] at this
    exact .inr ⟨_, this⟩

theorem scanInt_take (i : Int) (k : Nat) : CutOff (scanInt ((jInt i).take k)) := by
  have hn := numText_fmt i.natAbs
  unfold jInt
  cases k with
  | zero => exact .inl rfl
  | succ k =>
    by_cases h : i < 0
    · rw [if_pos h, List.take_succ_cons, scanInt, if_pos rfl]
      rcases scanNat_take _ hn k with e | ⟨v, e⟩
      · rw [e]
        exact .inl rfl
      · rw [e]
        exact .inr ⟨_, rfl⟩
    · rw [if_neg h]
      have hcut := scanNat_take _ hn (k + 1)
      cases ht : fmtDecNat i.natAbs with
      | nil => exact absurd ht hn.1
      | cons c cs =>
        rw [ht] at hn hcut
        rw [List.take_succ_cons] at hcut ⊢
        rw [scanInt, if_neg (dig_ne (hn.2.1 c (by simp))).2.1]
        rcases hcut with e | ⟨v, e⟩
        · rw [e]
          exact .inl rfl
        · rw [e]
          exact .inr ⟨_, rfl⟩

/-! ### Values -/

theorem jInt_head (i : Int) : ∃ c cs, jInt i = c :: cs ∧ c ≠ 34 ∧ c ≠ 110 ∧ c ≠ 116 ∧ c ≠ 102 := by
  have hn := numText_fmt i.natAbs
  unfold jInt
  by_cases h : i < 0
  · rw [if_pos h]
    exact ⟨_, _, rfl, by decide, by decide, by decide, by decide⟩
  · rw [if_neg h]
    cases ht : fmtDecNat i.natAbs with
    | nil => exact absurd ht hn.1
    | cons c cs =>
      rw [ht] at hn
      obtain ⟨h1, -, h2, h3, h4⟩ := dig_ne (hn.2.1 c (by simp))
      exact ⟨c, cs, rfl, h1, h2, h3, h4⟩

theorem scanVal_number (c : UInt8) (cs : Bytes) (h1 : c ≠ 34) (h2 : c ≠ 110) (h3 : c ≠ 116) (h4 : c ≠ 102) :
    scanVal (c :: cs) = (do let (v, r) ← scanInt (c :: cs); .ok (.int v, r)) := by
  rw [scanVal, if_neg h1, if_neg (by simp [h2]), if_neg (by simp [h3]), if_neg (by simp [h4])]

theorem scanVal_ok (v : JVal) (r : Bytes) (h : PlainVal v) (hr : Ends r) : scanVal (jVal v ++ r) = .ok (v, r) := by
  match v with
  | .null => simp [jVal, scanVal]
  | .bool true => simp [jVal, scanVal]
  | .bool false => simp [jVal, scanVal]
  | .str s =>
    rw [jVal, jStr, List.cons_append, scanVal, if_pos rfl, List.append_assoc, List.singleton_append,
      scanStr_ok s r h, ok_bind]
  | .int i =>
    obtain ⟨c, cs, hc, h1, h2, h3, h4⟩ := jInt_head i
    have hs := scanInt_ok i r hr
    rw [jVal, hc, List.cons_append, scanVal_number _ _ h1 h2 h3 h4, ← List.cons_append, ← hc, hs, ok_bind]

theorem scanVal_take (v : JVal) (h : PlainVal v) (k : Nat) (hk : k < (jVal v).length) :
    CutOff (scanVal ((jVal v).take k)) := by
  match v with
  | .null =>
    have : k < 4 := hk
    refine .inl ?_
    interval_cases k <;> rfl
  | .bool true =>
    have : k < 4 := hk
    refine .inl ?_
    interval_cases k <;> rfl
  | .bool false =>
    have : k < 5 := hk
    refine .inl ?_
    interval_cases k <;> rfl
  | .str s =>
    refine .inl ?_
    cases k with
    | zero => rfl
    | succ k =>
      have hk' : k ≤ s.length := by
        simp only [jVal, jStr, List.length_cons, List.length_append, List.length_nil] at hk
        omega
      rw [jVal, jStr, List.take_succ_cons, scanVal, if_pos rfl, scanStr_take s h k hk', error_bind]
  | .int i =>
    have hcut := scanInt_take i k
    obtain ⟨c, cs, hc, h1, h2, h3, h4⟩ := jInt_head i
    cases k with
    | zero => exact .inl rfl
    | succ k =>
      rw [hc] at hcut
      rw [jVal, hc]
      rw [List.take_succ_cons] at hcut ⊢
      rw [scanVal_number _ _ h1 h2 h3 h4]
      rcases hcut with e | ⟨v, e⟩
      · rw [e]
        exact .inl rfl
      · rw [e]
        exact .inr ⟨_, rfl⟩

/-! ### Entries -/

theorem jVal_head (v : JVal) : ∃ c cs, jVal v = c :: cs ∧ jWs c = false := by
  match v with
  | .null => exact ⟨_, _, rfl, by decide⟩
  | .bool true => exact ⟨_, _, rfl, by decide⟩
  | .bool false => exact ⟨_, _, rfl, by decide⟩
  | .str s => exact ⟨_, _, rfl, by decide⟩
  | .int i =>
    have hn := numText_fmt i.natAbs
    rw [jVal]
    unfold jInt
    by_cases h : i < 0
    · rw [if_pos h]
      exact ⟨_, _, rfl, by decide⟩
    · rw [if_neg h]
      cases ht : fmtDecNat i.natAbs with
      | nil => exact absurd ht hn.1
      | cons c cs =>
        rw [ht] at hn
        refine ⟨c, cs, rfl, ?_⟩
        have h1 := hn.2.1 c (by simp)
        by_contra hw
        simp only [jWs, Bool.not_eq_false, Bool.or_eq_true, beq_iff_eq] at hw
        rcases hw with ((rfl | rfl) | rfl) | rfl <;> exact absurd h1 (by decide)

theorem skipWs_val (v : JVal) (r : Bytes) : skipWs (32 :: (jVal v ++ r)) = jVal v ++ r := by
  obtain ⟨c, cs, hc, hw⟩ := jVal_head v
  rw [skipWs, if_pos (by decide), hc, List.cons_append, skipWs, hw]
  rfl

theorem skipWs_val_take (v : JVal) (k : Nat) : skipWs ((32 :: jVal v).take (k + 1)) = (jVal v).take k := by
  obtain ⟨c, cs, hc, hw⟩ := jVal_head v
  rw [List.take_succ_cons, skipWs, if_pos (by decide), hc]
  cases k with
  | zero => rfl
  | succ k =>
    rw [List.take_succ_cons, skipWs, hw]
    rfl

theorem scanItem_ok (x : Bytes × JVal) (r : Bytes) (h : PlainItem x) (hr : Ends r) :
    scanItem (jItem x ++ r) = .ok (x, skipWs r) := by
  have e : jItem x ++ r = 34 :: (x.1 ++ 34 :: (58 :: 32 :: (jVal x.2 ++ r))) := by
    simp [jItem, jStr]
  have e2 : skipWs (58 :: 32 :: (jVal x.2 ++ r)) = 58 :: 32 :: (jVal x.2 ++ r) := by
    rw [skipWs, if_neg (by decide)]
  rw [e, scanItem, if_pos rfl, scanStr_ok _ _ h.1, ok_bind]
  simp only [e2]
  rw [if_pos trivial, skipWs_val, scanVal_ok x.2 r h.2 hr, ok_bind]

theorem scanItem_take (x : Bytes × JVal) (h : PlainItem x) (k : Nat) (hk : k < (jItem x).length) :
    CutOff (scanItem ((jItem x).take k)) := by
  cases k with
  | zero => exact .inl rfl
  | succ k =>
    have e : jItem x = 34 :: ((x.1 ++ [34]) ++ (58 :: 32 :: jVal x.2)) := by
      simp [jItem, jStr]
    have hl : (jItem x).length = 1 + ((x.1.length + 1) + (2 + (jVal x.2).length)) := by
      rw [e]
      simp only [List.length_cons, List.length_append, List.length_nil]
      omega
    rw [hl] at hk
    rw [e, List.take_succ_cons, scanItem, if_pos rfl]
    by_cases h1 : k ≤ x.1.length
    · rw [List.take_append_of_le_length (by simp; omega), scanStr_take _ h.1 _ h1]
      exact .inl rfl
    · obtain ⟨j, rfl⟩ : ∃ j, k = (x.1 ++ [34]).length + j := ⟨k - (x.1.length + 1), by simp; omega⟩
      rw [List.take_length_add_append, List.append_assoc, List.singleton_append, scanStr_ok _ _ h.1, ok_bind]
      rcases j with _ | _ | j
      · exact .inl rfl
      · exact .inl rfl
      · have e2 : skipWs ((58 :: 32 :: jVal x.2).take (j + 1 + 1)) = 58 :: (32 :: jVal x.2).take (j + 1) := by
          rw [List.take_succ_cons, skipWs, if_neg (by decide)]
        simp only [e2]
        rw [if_pos trivial, skipWs_val_take]
        have hj : j < (jVal x.2).length := by
          simp only [List.length_append, List.length_cons, List.length_nil] at hk
          omega
        rcases scanVal_take x.2 h.2 j hj with e | ⟨v, e⟩
        · rw [e]
          exact .inl rfl
        · rw [e]
          exact .inr ⟨_, rfl⟩

theorem jItem_head (x : Bytes × JVal) : ∃ cs, jItem x = 34 :: cs := ⟨_, rfl⟩

theorem jJoin_head (x : Bytes × JVal) (l : JDict) : ∃ cs, jJoin ((x :: l).map jItem) = 34 :: cs := by
  obtain ⟨cs, hc⟩ := jItem_head x
  cases l with
  | nil => exact ⟨cs, by simp [jJoin, hc]⟩
  | cons y l => exact ⟨cs ++ (44 :: 32 :: jJoin ((y :: l).map jItem)), by simp [jJoin, hc]⟩

theorem jJoin_cons (x y : Bytes × JVal) (l : JDict) :
    jJoin ((x :: y :: l).map jItem) = jItem x ++ (44 :: 32 :: jJoin ((y :: l).map jItem)) := rfl

theorem ends_of {c : UInt8} {r : Bytes} (h : isDig c = false) : Ends (c :: r) := by
  intro d hd
  simp only [List.head?_cons, Option.some.injEq] at hd
  exact hd ▸ h

theorem scanItems_ok (d : JDict) (h0 : d ≠ []) (h : ∀ x ∈ d, PlainItem x) (r : Bytes) (fuel : Nat)
    (hf : d.length ≤ fuel) : scanItems fuel (jJoin (d.map jItem) ++ 125 :: r) = .ok (d, r) := by
  induction d generalizing fuel with
  | nil => exact absurd rfl h0
  | cons x l ih =>
    cases fuel with
    | zero => simp at hf
    | succ fuel =>
      cases l with
      | nil =>
        have : jJoin ([x].map jItem) = jItem x := rfl
        rw [this, scanItems, scanItem_ok x _ (h x (by simp)) (ends_of (by decide)), ok_bind]
        have e : skipWs (125 :: r) = 125 :: r := by rw [skipWs, if_neg (by decide)]
        simp only [e]
        rw [if_pos trivial]
      | cons y l =>
        have hi := ih (by simp) (fun z hz => h z (by simp [hz])) fuel (by simpa using hf)
        rw [jJoin_cons, List.append_assoc, List.cons_append, List.cons_append, scanItems, scanItem_ok x _ (h x (by simp)) (ends_of (by decide)), ok_bind]
        have e : skipWs (44 :: 32 :: (jJoin ((y :: l).map jItem) ++ 125 :: r)) =
            44 :: 32 :: (jJoin ((y :: l).map jItem) ++ 125 :: r) := by
          rw [skipWs, if_neg (by decide)]
        have e2 : skipWs (32 :: (jJoin ((y :: l).map jItem) ++ 125 :: r)) =
            jJoin ((y :: l).map jItem) ++ 125 :: r := by
          obtain ⟨cs, hc⟩ := jJoin_head y l
          rw [skipWs, if_pos (by decide), hc, List.cons_append, skipWs, if_neg (by decide)]
        simp only [e]
        rw [if_neg (by decide), if_pos trivial, e2, hi, ok_bind]

theorem scanItems_nil (fuel : Nat) : scanItems fuel [] = .error .valueError := by
  cases fuel <;> rfl

theorem scanItems_take (d : JDict) (h0 : d ≠ []) (h : ∀ x ∈ d, PlainItem x) (k fuel : Nat)
    (hk : k < (jJoin (d.map jItem) ++ [125]).length) :
    scanItems fuel ((jJoin (d.map jItem) ++ [125]).take k) = .error .valueError := by
  induction d generalizing fuel k with
  | nil => exact absurd rfl h0
  | cons x l ih =>
    cases fuel with
    | zero => rfl
    | succ fuel =>
      -- the text is the first entry and then `tail`
      obtain ⟨tail, ht, htail⟩ : ∃ tail, jJoin ((x :: l).map jItem) ++ [125] = jItem x ++ tail ∧
          (tail = [125] ∨ ∃ y l', l = y :: l' ∧ tail = 44 :: 32 :: (jJoin (l.map jItem) ++ [125])) := by
        cases l with
        | nil => exact ⟨[125], rfl, .inl rfl⟩
        | cons y l =>
          exact ⟨44 :: 32 :: (jJoin ((y :: l).map jItem) ++ [125]), by rw [jJoin_cons]; simp, .inr ⟨y, l, rfl, rfl⟩⟩
      rw [ht] at hk ⊢
      by_cases h1 : k < (jItem x).length
      · rw [List.take_append_of_le_length h1.le, scanItems]
        rcases scanItem_take x (h x (by simp)) k h1 with e | ⟨v, e⟩
        · rw [e, error_bind]
        · rw [e, ok_bind]
      · obtain ⟨j, rfl⟩ : ∃ j, k = (jItem x).length + j := ⟨k - (jItem x).length, by omega⟩
        rw [List.take_length_add_append]
        rw [List.length_append] at hk
        have hj : j < tail.length := by omega
        cases j with
        | zero =>
          have := scanItem_ok x [] (h x (by simp)) (fun c hc => by simp at hc)
          rw [List.take_zero, scanItems, this, ok_bind]
          rfl
        | succ j =>
          rcases htail with rfl | ⟨y, l', rfl, rfl⟩
          · simp at hj
          · rw [List.take_succ_cons, scanItems, scanItem_ok x _ (h x (by simp)) (ends_of (by decide)), ok_bind]
            have e : ∀ t : Bytes, skipWs (44 :: t) = 44 :: t := fun t => by rw [skipWs, if_neg (by decide)]
            simp only [e]
            rw [if_neg (by decide), if_pos trivial]
            cases j with
            | zero => rw [List.take_zero, skipWs, scanItems_nil, error_bind]
            | succ j =>
              have e2 : skipWs ((32 :: (jJoin ((y :: l').map jItem) ++ [125])).take (j + 1)) =
                  (jJoin ((y :: l').map jItem) ++ [125]).take j := by
                obtain ⟨cs, hc⟩ := jJoin_head y l'
                rw [List.take_succ_cons, skipWs, if_pos (by decide), hc, List.cons_append]
                cases j with
                | zero => rfl
                | succ j => rw [List.take_succ_cons, skipWs, if_neg (by decide)]
              rw [e2, ih (by simp) (fun z hz => h z (by simp [hz])) j fuel (by simp at hj ⊢; omega), error_bind]

/-! ### The whole text -/

theorem length_le_jJoin (d : JDict) : d.length ≤ (jJoin (d.map jItem)).length := by
  induction d with
  | nil => simp
  | cons x l ih =>
    obtain ⟨cs, hc⟩ := jItem_head x
    cases l with
    | nil => simp [jJoin, hc]
    | cons y l =>
      rw [jJoin_cons]
      simp only [List.length_append, List.length_cons] at ih ⊢
      omega

theorem skipWs_brace (t : Bytes) : skipWs (123 :: t) = 123 :: t := by rw [skipWs, if_neg (by decide)]

theorem jLoads_jDump (d : JDict) (h : ∀ x ∈ d, PlainItem x) : jLoads (jDump d) = .ok d := by
  unfold jLoads jDump
  rw [skipWs_brace]
  simp only
  rw [if_pos trivial]
  have : scanDict (jJoin (d.map jItem) ++ [125]) = .ok (d, []) := by
    cases d with
    | nil => rfl
    | cons x l =>
      obtain ⟨cs, hc⟩ := jJoin_head x l
      have hs := scanItems_ok (x :: l) (by simp) h [] (jJoin ((x :: l).map jItem) ++ [125]).length
        (by have := length_le_jJoin (x :: l); rw [List.length_append]; omega)
      unfold scanDict
      rw [hc] at hs ⊢
      rw [List.cons_append] at hs ⊢
      rw [skipWs, if_neg (by decide)]
      simp only
      rw [if_neg (by decide), hs]
  rw [this, ok_bind]
  rfl

theorem jLoads_take (d : JDict) (h : ∀ x ∈ d, PlainItem x) (k : Nat) (hk : k < (jDump d).length) :
    jLoads ((jDump d).take k) = .error .valueError := by
  cases k with
  | zero => rfl
  | succ k =>
    unfold jLoads
    have hk' : k < (jJoin (d.map jItem) ++ [125]).length := by
      rw [jDump, List.length_cons] at hk
      omega
    rw [jDump, List.take_succ_cons, skipWs_brace]
    simp only
    rw [if_pos trivial]
    have : scanDict ((jJoin (d.map jItem) ++ [125]).take k) = .error .valueError := by
      cases k with
      | zero => rfl
      | succ k =>
        cases d with
        | nil => simp [jJoin] at hk'
        | cons x l =>
          obtain ⟨cs, hc⟩ := jJoin_head x l
          have hs := fun fuel => scanItems_take (x :: l) (by simp) h (k + 1) fuel hk'
          unfold scanDict
          rw [hc] at hs ⊢
          rw [List.cons_append, List.take_succ_cons] at hs ⊢
          rw [skipWs, if_neg (by decide)]
          simp only
          rw [if_neg (by decide), hs]
    rw [this, error_bind]

/-! ### Dictionaries -/

theorem jGet_of_mem {d : JDict} (hn : (d.map (·.1)).Nodup) {k : Bytes} {v : JVal} (h : (k, v) ∈ d) :
    jGet d k = some v := by
  have : d.filter (fun x => x.1 = k) = [(k, v)] := by
    induction d with
    | nil => simp at h
    | cons x l ih =>
      rw [List.map_cons, List.nodup_cons] at hn
      rcases List.mem_cons.1 h with rfl | h'
      · rw [List.filter_cons_of_pos (by simp)]
        congr 1
        rw [List.filter_eq_nil_iff]
        intro y hy
        simp only [decide_eq_true_eq]
        rintro rfl
        exact hn.1 (List.mem_map.2 ⟨y, hy, rfl⟩)
      · have hne : x.1 ≠ k := by
          rintro rfl
          exact hn.1 (List.mem_map.2 ⟨_, h', rfl⟩)
        rw [List.filter_cons_of_neg (by simpa using hne), ih hn.2 h']
  unfold jGet
  rw [this]
  rfl

theorem jOptStr_of {d : JDict} {k : Bytes} {o : Option Bytes} (h : jGet d k = some (jOpt o)) : jOptStr d k = .ok o := by
  unfold jOptStr
  rw [h]
  cases o <;> rfl

/-- Whatever the order of the entries, the dictionary read back is the one written. -/
theorem cfgOf_perm (c : AnyCfg) (hc : c ≠ .other) (d : JDict) (hd : d.Perm (cfgItems c)) : cfgOf d = .ok c := by
  have hm : ∀ x, x ∈ d ↔ x ∈ cfgItems c := fun x => hd.mem_iff
  have hn : (d.map (·.1)).Nodup := by
    rw [(hd.map (·.1)).nodup_iff]
    cases c with
    | default c => simp only [cfgItems, List.map_cons, List.map_nil]; decide
    | hd c => simp only [cfgItems, List.map_cons, List.map_nil]; decide
    | other => exact absurd rfl hc
  have hg : ∀ k v, (k, v) ∈ cfgItems c → jGet d k = some v := fun k v h => jGet_of_mem hn ((hm _).2 h)
  cases c with
  | other => exact absurd rfl hc
  | default c =>
    have h1 := hg kEncrypted (.bool c.encrypted) (by simp [cfgItems])
    have h2 := hg kType (.str tDefault) (by simp [cfgItems])
    have h3 := hg kVcn (.int c.vcn) (by simp [cfgItems])
    have h4 := hg kTestnet (.bool c.testnet) (by simp [cfgItems])
    have h5 := hg kPrvkey (jOpt c.prvkey) (by simp [cfgItems])
    have h6 := hg kPubkey (jOpt c.pubkey) (by simp [cfgItems])
    have e : defaultCfg d = .ok c := by
      unfold defaultCfg jNumber jFlag jEncrypted
      rw [jOptStr_of h5, jOptStr_of h6, h1, h3, h4]
      rfl
    unfold cfgOf
    rw [h2, if_neg (by decide), if_pos rfl, e, ok_bind]
  | hd c =>
    have h1 := hg kEncrypted (.bool c.encrypted) (by simp [cfgItems])
    have h2 := hg kType (.str tHD) (by simp [cfgItems])
    have h3 := hg kVcn (.int c.vcn) (by simp [cfgItems])
    have h4 := hg kTestnet (.bool c.testnet) (by simp [cfgItems])
    have h5 := hg kPrvkey (jOpt c.prvkey) (by simp [cfgItems])
    have h6 := hg kPubkey (jOpt c.pubkey) (by simp [cfgItems])
    have h7 := hg kChain (.str c.chain) (by simp [cfgItems])
    have h8 := hg kDepth (.int c.depth) (by simp [cfgItems])
    have h9 := hg kParentfp (.str c.parentfp) (by simp [cfgItems])
    have h10 := hg kChildnum (.int c.childnum) (by simp [cfgItems])
    have e : hdCfg d = .ok c := by
      unfold hdCfg jNumber jFlag jEncrypted jText
      rw [jOptStr_of h5, jOptStr_of h6, h1, h3, h4, h7, h8, h9, h10]
      rfl
    unfold cfgOf
    rw [h2, if_pos rfl, e, ok_bind]

/-! ### What `dump_to_cfg` writes is plain -/

theorem plain_hexDigit : ∀ d < 16, hexDigit d ≠ 34 ∧ hexDigit d ≠ 92 ∧ ¬ hexDigit d < 32 := by decide

theorem plain_hexlify (s : Bytes) : PlainText (hexlify s) := by
  intro c hc
  unfold hexlify at hc
  obtain ⟨b, -, hb⟩ := List.mem_flatMap.1 hc
  have := b.toNat_lt
  simp only [List.mem_cons, List.not_mem_nil, or_false] at hb
  rcases hb with rfl | rfl
  · exact plain_hexDigit _ (by omega)
  · exact plain_hexDigit _ (by omega)

theorem dumpSecret_plain {ver : Aes.PyVer} {s pw t : Bytes} {e : Bool} (h : dumpSecret ver s pw = .ok (t, e)) :
    PlainText t := by
  unfold dumpSecret at h
  obtain ⟨-, -, h⟩ := bind_ok_iff.1 h
  simp only at h
  split at h
  · obtain ⟨x, -, h⟩ := bind_ok_iff.1 h
    cases h
    exact plain_hexlify _
  · cases h
    exact plain_hexlify _

theorem dump_plain {ver : Aes.PyVer} {w : AnyWallet} {pw : Bytes} {c : AnyCfg} (h : w.dump ver pw = .ok c) :
    c ≠ .other ∧ ∀ x ∈ cfgItems c, PlainItem x := by
  have hk : ∀ s ∈ [kType, kEncrypted, kChain, kVcn, kTestnet, kDepth, kParentfp, kChildnum, kPrvkey, kPubkey,
      tHD, tDefault], PlainText s := by
    unfold PlainText
    decide
  have key : ∀ o : Option Bytes, (∀ s, o = some s → PlainText s) → PlainVal (jOpt o) := by
    intro o ho
    cases o with
    | none => exact trivial
    | some s => exact ho s rfl
  unfold AnyWallet.dump at h
  cases w with
  | default a =>
    obtain ⟨c, h1, h⟩ := bind_ok_iff.1 h
    cases h
    refine ⟨by simp, ?_⟩
    have : (∀ s, c.prvkey = some s → PlainText s) ∧ ∀ s, c.pubkey = some s → PlainText s := by
      unfold Address.dump at h1
      split at h1
      · obtain ⟨⟨t, e⟩, h2, h1⟩ := bind_ok_iff.1 h1
        cases h1
        exact ⟨fun s hs => by cases hs; exact dumpSecret_plain h2, fun s hs => by cases hs⟩
      · cases h1
        exact ⟨fun s hs => by (cases hs), fun s hs => by cases hs; exact plain_hexlify _⟩
    intro x hx
    simp only [cfgItems, List.mem_cons, List.not_mem_nil, or_false] at hx
    rcases hx with rfl | rfl | rfl | rfl | rfl | rfl
    · exact ⟨hk _ (by simp), trivial⟩
    · exact ⟨hk _ (by simp), hk _ (by simp)⟩
    · exact ⟨hk _ (by simp), trivial⟩
    · exact ⟨hk _ (by simp), trivial⟩
    · exact ⟨hk _ (by simp), key _ this.1⟩
    · exact ⟨hk _ (by simp), key _ this.2⟩
  | hd w =>
    obtain ⟨c, h1, h⟩ := bind_ok_iff.1 h
    cases h
    refine ⟨by simp, ?_⟩
    have : (∀ s, c.prvkey = some s → PlainText s) ∧ (∀ s, c.pubkey = some s → PlainText s) ∧ PlainText c.chain ∧
        PlainText c.parentfp := by
      unfold HDWallet.dump at h1
      split at h1
      · obtain ⟨s, -, h1⟩ := bind_ok_iff.1 h1
        obtain ⟨⟨t, e⟩, h2, h1⟩ := bind_ok_iff.1 h1
        cases h1
        exact ⟨fun s hs => by cases hs; exact dumpSecret_plain h2, fun s hs => by (cases hs), plain_hexlify _,
          plain_hexlify _⟩
      · obtain ⟨s, -, h1⟩ := bind_ok_iff.1 h1
        cases h1
        exact ⟨fun s hs => by (cases hs), fun s hs => by cases hs; exact plain_hexlify _, plain_hexlify _,
          plain_hexlify _⟩
    obtain ⟨t1, t2, t3, t4⟩ := this
    intro x hx
    simp only [cfgItems, List.mem_cons, List.not_mem_nil, or_false] at hx
    rcases hx with rfl | rfl | rfl | rfl | rfl | rfl | rfl | rfl | rfl | rfl
    · exact ⟨hk _ (by simp), trivial⟩
    · exact ⟨hk _ (by simp), hk _ (by simp)⟩
    · exact ⟨hk _ (by simp), t3⟩
    · exact ⟨hk _ (by simp), trivial⟩
    · exact ⟨hk _ (by simp), trivial⟩
    · exact ⟨hk _ (by simp), trivial⟩
    · exact ⟨hk _ (by simp), t4⟩
    · exact ⟨hk _ (by simp), trivial⟩
    · exact ⟨hk _ (by simp), key _ t1⟩
    · exact ⟨hk _ (by simp), key _ t2⟩

end NBC.Wallet
