import Verif.Props.ShortIp

/-!
# Property C62: which accepted values can be written, exactly
-/

namespace NBC.Props
open NBC NBC.Spec NBC.Spec.Wire NBC.Proto

/-- Nothing stands before the first colon, behind the last one or between two of them. -/
def Elided (s : List Char) : Prop :=
  s.head? = some ':' ∨ s.getLast? = some ':' ∨ ∃ a b, s = a ++ ':' :: ':' :: b

theorem splitCh_ne (c : Char) (s : List Char) : splitCh c s ≠ [] := by
  cases s with
  | nil => simp [splitCh]
  | cons x xs =>
    rw [splitCh]
    split
    · simp
    · split <;> simp

theorem splitCh_cons {c x : Char} {xs : List Char} (h : x ≠ c) :
    ∃ p ps, splitCh c xs = p :: ps ∧ splitCh c (x :: xs) = (x :: p) :: ps := by
  rw [splitCh, if_neg h]
  cases hs : splitCh c xs with
  | nil => exact absurd hs (splitCh_ne c xs)
  | cons p ps => exact ⟨p, ps, rfl, rfl⟩

theorem splitCh_length (c : Char) (s : List Char) : (splitCh c s).length = s.count c + 1 := by
  induction s with
  | nil => rfl
  | cons x xs ih =>
    by_cases h : x = c
    · subst h
      rw [splitCh, if_pos rfl, List.length_cons, ih, List.count_cons_self]
    · obtain ⟨p, ps, h1, h2⟩ := splitCh_cons h
      rw [h1] at ih
      rw [h2, List.count_cons_of_ne h, ← ih]
      rfl

theorem splitCh_head (c : Char) (s : List Char) :
    (splitCh c s).head? = some [] ↔ s = [] ∨ s.head? = some c := by
  cases s with
  | nil => simp [splitCh]
  | cons x xs =>
    by_cases h : x = c
    · subst h
      simp [splitCh]
    · obtain ⟨p, ps, h1, h2⟩ := splitCh_cons h (xs := xs)
      simp [h2, h]

theorem splitCh_tail (c : Char) (s : List Char) :
    [] ∈ (splitCh c s).tail ↔ s.getLast? = some c ∨ ∃ a b, s = a ++ c :: c :: b := by
  induction s with
  | nil => simp [splitCh]
  | cons x xs ih =>
    by_cases h : x = c
    · subst h
      have hm : [] ∈ splitCh x xs ↔ (splitCh x xs).head? = some [] ∨ [] ∈ (splitCh x xs).tail := by
        cases hs : splitCh x xs with
        | nil => exact absurd hs (splitCh_ne x xs)
        | cons p ps => simp [eq_comm]
      rw [splitCh, if_pos rfl, List.tail_cons, hm, splitCh_head, ih]
      constructor
      · rintro ((rfl | h) | h | ⟨a, b, rfl⟩)
        · exact .inl rfl
        · right
          cases xs with
          | nil => cases h
          | cons y ys =>
            rw [List.head?_cons, Option.some.injEq] at h
            subst h
            exact ⟨[], ys, rfl⟩
        · left
          rw [List.getLast?_cons, h]
          rfl
        · exact .inr ⟨x :: a, b, rfl⟩
      · rintro (h | ⟨a, b, h⟩)
        · cases xs with
          | nil => exact .inl (.inl rfl)
          | cons y ys => exact .inr (.inl (by rwa [List.getLast?_cons_cons] at h))
        · cases a with
          | nil =>
            rw [List.nil_append, List.cons.injEq] at h
            exact .inl (.inr (by rw [h.2]; rfl))
          | cons y ys =>
            rw [List.cons_append, List.cons.injEq] at h
            exact .inr (.inr ⟨ys, b, h.2⟩)
    · obtain ⟨p, ps, h1, h2⟩ := splitCh_cons h (xs := xs)
      rw [h1, List.tail_cons] at ih
      rw [h2, List.tail_cons, ih]
      constructor
      · rintro (h' | ⟨a, b, rfl⟩)
        · left
          rw [List.getLast?_cons, h']
          rfl
        · exact .inr ⟨x :: a, b, rfl⟩
      · rintro (h' | ⟨a, b, h'⟩)
        · cases xs with
          | nil => simp [h] at h'
          | cons y ys => exact .inl (by rwa [List.getLast?_cons_cons] at h')
        · cases a with
          | nil =>
            rw [List.nil_append, List.cons.injEq] at h'
            exact absurd h'.1 h
          | cons y ys =>
            rw [List.cons_append, List.cons.injEq] at h'
            exact .inr ⟨ys, b, h'.2⟩

theorem empty_group {s : List Char} (hs : s ≠ []) : [] ∈ splitCh ':' s ↔ Elided s := by
  have hm : [] ∈ splitCh ':' s ↔ (splitCh ':' s).head? = some [] ∨ [] ∈ (splitCh ':' s).tail := by
    cases h : splitCh ':' s with
    | nil => exact absurd h (splitCh_ne ':' s)
    | cons p ps => simp [eq_comm]
  rw [hm, splitCh_head, splitCh_tail]
  simp [hs, Elided]

theorem trim_empty (objs : List (List Char)) : [] ∈ ipv6Trim objs ↔ [] ∈ objs := by
  unfold ipv6Trim
  split
  · simp
  · split
    · rename_i t h
      have : objs = ([] :: [] :: t).reverse := by rw [← h, List.reverse_reverse]
      rw [this]
      simp
    · rfl

theorem loop_length (n : Nat) (objs : List (List Char)) (g : List Int) (h : ipv6Loop n objs = .ok g) :
    g.length + objs.count [] = objs.length + objs.count [] * (9 - n) := by
  induction objs generalizing g with
  | nil => cases h; simp
  | cons o os ih =>
    rw [ipv6Loop] at h
    split at h
    · rename_i ho
      subst ho
      obtain ⟨r, hr, h⟩ := bind_ok_iff.1 h
      cases h
      have := ih r hr
      simp only [List.length_append, List.length_replicate, List.count_cons_self, List.length_cons, Nat.add_mul]
      omega
    · rename_i ho
      obtain ⟨v, -, h⟩ := bind_ok_iff.1 h
      obtain ⟨r, hr, h⟩ := bind_ok_iff.1 h
      cases h
      have := ih r hr
      rw [List.count_cons_of_ne ho, List.length_cons, List.length_cons]
      omega

theorem packAll_ok {f : Fmt} {n : Nat} {g : List Int} (hg : ∀ x ∈ g, inRange f x) :
    (∃ b, packAll f n g = .ok b) ↔ g.length = n := by
  unfold packAll
  by_cases h : g.length = n
  · rw [if_neg (not_not.2 h)]
    have hm : ∀ l : List Int, (∀ x ∈ l, inRange f x) → ∃ bs, l.mapM (pack f true) = .ok bs := by
      intro l
      induction l with
      | nil => exact fun _ => ⟨[], rfl⟩
      | cons x xs ih =>
        intro h
        obtain ⟨bs, hbs⟩ := ih (fun z hz => h z (by simp [hz]))
        exact ⟨_ :: bs, by rw [List.mapM_cons, pack_ok (h x (by simp)), ok_bind, hbs, ok_bind]; rfl⟩
    obtain ⟨bs, hbs⟩ := hm g hg
    exact ⟨fun _ => h, fun _ => ⟨bs.flatten, by rw [hbs]; rfl⟩⟩
  · rw [if_pos h]
    simp [h]

/-- A group with a colon is no number. -/
theorem digitsFrom_colon (s : List Char) (h : ':' ∈ s) (acc : Nat) : digitsFrom 10 s acc = none := by
  induction s generalizing acc with
  | nil => cases h
  | cons x xs ih =>
    rw [digitsFrom]
    rcases List.mem_cons.1 h with rfl | h
    · rfl
    · split
      · split
        · exact ih h _
        · rfl
      · rfl

theorem dropWhile_colon (s : List Char) (h : ':' ∈ s) : ':' ∈ s.dropWhile isSpace := by
  induction s with
  | nil => cases h
  | cons x xs ih =>
    rw [List.dropWhile_cons]
    split
    · rename_i hx
      rcases List.mem_cons.1 h with rfl | h
      · exact absurd hx (by decide)
      · exact ih h
    · exact h

theorem sign_colon (s : List Char) (h : ':' ∈ s) : ':' ∈ (splitSign s).2 := by
  unfold splitSign
  split
  · rcases List.mem_cons.1 h with h | h
    · exact absurd h (by decide)
    · exact h
  · rcases List.mem_cons.1 h with h | h
    · exact absurd h (by decide)
    · exact h
  · exact h

theorem parse_colon (s : List Char) (h : ':' ∈ s) : pyIntParse 10 s = .error .valueError := by
  have h1 : ':' ∈ ((s.dropWhile isSpace).reverse.dropWhile isSpace).reverse :=
    List.mem_reverse.2 (dropWhile_colon _ (List.mem_reverse.2 (dropWhile_colon _ h)))
  unfold pyIntParse
  simp only
  have h2 := sign_colon _ h1
  have h3 : dropPrefix 10 (splitSign ((s.dropWhile isSpace).reverse.dropWhile isSpace).reverse).2 =
    (splitSign ((s.dropWhile isSpace).reverse.dropWhile isSpace).reverse).2 := rfl
  rw [h3]
  unfold digitsValue
  rw [if_neg (List.ne_nil_of_mem h2), digitsFrom_colon _ h2]

theorem splitCh_mem {c x : Char} (hx : x ≠ c) (s : List Char) (h : x ∈ s) : ∃ q ∈ splitCh c s, x ∈ q := by
  induction s with
  | nil => cases h
  | cons y ys ih =>
    by_cases hy : y = c
    · subst hy
      obtain ⟨q, hq, hxq⟩ := ih ((List.mem_cons.1 h).resolve_left hx)
      rw [splitCh, if_pos rfl]
      exact ⟨q, List.mem_cons_of_mem _ hq, hxq⟩
    · obtain ⟨p, ps, h1, h2⟩ := splitCh_cons hy (xs := ys)
      rw [h2]
      rcases List.mem_cons.1 h with rfl | h
      · exact ⟨_, List.mem_cons_self, List.mem_cons_self⟩
      · obtain ⟨q, hq, hxq⟩ := ih h
        rw [h1] at hq
        rcases List.mem_cons.1 hq with rfl | hq
        · exact ⟨_, List.mem_cons_self, List.mem_cons_of_mem _ hxq⟩
        · exact ⟨q, List.mem_cons_of_mem _ hq, hxq⟩

theorem ipv4_colon {s : List Char} (h : ':' ∈ s) : ipv4Groups s = none := by
  obtain ⟨q, hq, hc⟩ := splitCh_mem (by decide) s h (c := '.')
  unfold ipv4Groups
  cases hm : (splitCh '.' s).mapM (pyIntParse 10) with
  | error e => rfl
  | ok g =>
    exfalso
    have : ∀ (l : List (List Char)) (g : List Int), l.mapM (pyIntParse 10) = .ok g → q ∉ l := by
      intro l
      induction l with
      | nil => intro _ _ h; cases h
      | cons a as ih =>
        intro g hg hm
        rw [List.mapM_cons] at hg
        obtain ⟨v, hv, hg⟩ := bind_ok_iff.1 hg
        obtain ⟨vs, hvs, -⟩ := bind_ok_iff.1 hg
        rcases List.mem_cons.1 hm with rfl | hm
        · rw [parse_colon _ hc] at hv; cases hv
        · exact ih vs hvs hm
    exact this _ _ hm hq

theorem varInt_ok (n : Int) : (∃ b, varIntBinary n = .ok b) ↔ 0 ≤ n ∧ n < 2 ^ 64 := by
  constructor
  · rintro ⟨b, h⟩
    unfold varIntBinary at h
    have key : ∀ {f : Fmt} {b : Bytes}, pack f false n = .ok b → inRange f n := fun h => (pack_ok_iff.1 h).1
    split at h
    · have := key h
      unfold inRange lo hi at this
      simp only [twos, bits, Bool.false_eq_true, if_false] at this
      omega
    · split at h
      · omega
      · split at h
        · omega
        · obtain ⟨b', hb, -⟩ := bind_ok_iff.1 h
          have := key hb
          unfold inRange lo hi at this
          simp only [twos, bits, Bool.false_eq_true, if_false] at this
          omega
  · rintro ⟨h0, h1⟩
    obtain ⟨m, rfl⟩ := Int.eq_ofNat_of_zero_le h0
    exact ⟨_, varIntBinary_eq m (by omega)⟩

/-- C62, exactly: of the values that `validate` accepts, the variable integers from 0 to `2^64 - 1`, the byte
strings and the Latin-1 texts shorter than `2^64`, and the addresses without colons, with seven of them or with an
empty group, are those that can be written.  Missing: the others. -/
theorem C62_exact_partial :
    (∀ n : Int, (∃ b, ftVarInteger.binary (.int n) = .ok b) ↔ 0 ≤ n ∧ n < 2 ^ 64) ∧
    (∀ s : Bytes, (∃ b, ftVarString.binary (.bytes s) = .ok b) ↔ s.length < 2 ^ 64) ∧
    (∀ s : List Char, (∃ b, ftVarString.binary (.str s) = .ok b) ↔
      (∀ c ∈ s, c.toNat < 256) ∧ s.length < 2 ^ 64) ∧
    (∀ s : List Char, ftIPAddress.validate (.str s) = .ok (.str s) →
      ((∃ b, ftIPAddress.binary (.str s) = .ok b) ↔ ':' ∉ s ∨ s.count ':' = 7 ∨ Elided s)) := by
  have hstr : ∀ s : Bytes, (∃ b, varStringBinary s = .ok b) ↔ s.length < 2 ^ 64 := by
    intro s
    have := varInt_ok (s.length : Int)
    unfold varStringBinary
    simp only [bind_ok_iff]
    constructor
    · rintro ⟨b, l, hl, -⟩
      have := this.1 ⟨l, hl⟩
      omega
    · intro h
      obtain ⟨l, hl⟩ := this.2 (by omega)
      exact ⟨_, l, hl, rfl⟩
  refine ⟨varInt_ok, hstr, fun s => ?_, fun s hv => ?_⟩
  · show (∃ b, (latin1Encode s >>= varStringBinary) = .ok b) ↔ _
    unfold latin1Encode
    split
    · rename_i h
      simp only [List.all_eq_true, decide_eq_true_eq] at h
      rw [ok_bind, hstr, List.length_map]
      exact ⟨fun h' => ⟨h, h'⟩, And.right⟩
    · rename_i h
      simp only [List.all_eq_true, decide_eq_true_eq] at h
      constructor
      · rintro ⟨b, hb⟩; cases hb
      · exact fun h' => absurd h'.1 h
  · have hval : ipValidate s = .ok true := by
      simp only [ftIPAddress] at hv
      obtain ⟨b, hb, hv⟩ := bind_ok_iff.1 hv
      cases b
      · cases hv
      · exact hb
    show (∃ b, ipBinary s = .ok b) ↔ _
    by_cases hc : ':' ∈ s
    · have h4 := ipv4_colon hc
      unfold ipValidate at hval
      rw [h4] at hval
      obtain ⟨g6, h6, hg6⟩ := bind_ok_iff.1 hval
      cases g6 with
      | none => cases hg6
      | some g =>
        have hb : ipBinary s = packAll .H 8 g := by
          unfold ipBinary
          rw [h4]
          simp only [h6, ok_bind]
        unfold ipv6Groups at h6
        simp only at h6
        have hcount : 0 < s.count ':' := List.count_pos_iff.2 hc
        have hlen := splitCh_length ':' s
        rw [if_neg (by omega)] at h6
        split at h6
        · cases h6
        · rename_i hle
          obtain ⟨g', hg', h6⟩ := bind_ok_iff.1 h6
          split at h6
          · rename_i hall
            cases h6
            have hr : ∀ x ∈ g, inRange .H x := by
              intro x hx
              have := List.all_eq_true.1 hall x hx
              simp only [decide_eq_true_eq] at this
              unfold inRange lo hi
              simp only [twos, bits, Bool.false_eq_true, if_false]
              omega
            rw [hb, packAll_ok hr]
            have hl := loop_length _ _ _ hg'
            have he := trim_empty (splitCh ':' s)
            rw [empty_group (List.ne_nil_of_mem hc)] at he
            by_cases hel : Elided s
            · have h1 : 0 < (ipv6Trim (splitCh ':' s)).count [] := List.count_pos_iff.2 (he.2 hel)
              have h2 : (ipv6Trim (splitCh ':' s)).count [] = 1 := by omega
              rw [h2] at hl
              have : g.length = 8 := by omega
              simp [this, hel]
            · have h0 : [] ∉ ipv6Trim (splitCh ':' s) := fun h => hel (he.1 h)
              rw [List.count_eq_zero_of_not_mem h0] at hl
              have hne : ∀ w ∈ splitCh ':' s, w ≠ [] := by
                rintro w hw rfl
                exact h0 ((trim_empty _).2 hw)
              rw [ipv6Trim_plain _ hne, hlen] at hl
              simp only [hc, not_true_eq_false, hel, or_false, false_or]
              omega
          · cases h6
    · have h6 : ipv6Groups s = .ok none := by
        unfold ipv6Groups
        simp only
        rw [if_pos (by rw [splitCh_length, List.count_eq_zero_of_not_mem hc]; decide)]
      have h4 : (ipv4Groups s).isSome := by
        unfold ipValidate at hval
        split at hval
        · rename_i h; rw [h]; rfl
        · rw [h6] at hval; cases hval
      exact ⟨fun _ => .inl hc, fun _ => C62_validated_partial.2.2.2.2.2.2 s h4⟩

/-- The short form and the full form of an address, and one that is accepted but cannot be written. -/
example : ftIPAddress.validate (.str "1::2".toList) = .ok (.str "1::2".toList) ∧ Elided "1::2".toList ∧
    ftIPAddress.validate (.str "1:2:3:4:5:6:7:8".toList) = .ok (.str "1:2:3:4:5:6:7:8".toList) ∧
    "1:2:3:4:5:6:7:8".toList.count ':' = 7 ∧
    ftIPAddress.validate (.str "1:2".toList) = .ok (.str "1:2".toList) :=
  ⟨rfl, .inr (.inr ⟨['1'], ['2'], rfl⟩), rfl, rfl, rfl⟩

end NBC.Props
