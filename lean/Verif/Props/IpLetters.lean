import Mathlib.Data.Char
import Verif.Props.ShortIp

/-!
C109: the letters of IP addresses.
-/

namespace NBC.Props

open NBC NBC.Proto NBC.Spec NBC.Spec.Wire

/-- The letters `a` to `f` as capitals. -/
def capital (c : Char) : Char := if c ∈ ['a', 'b', 'c', 'd', 'e', 'f'] then Char.ofNat (c.toNat - 32) else c

theorem forall_ascii {P : Char → Prop} (h1 : ∀ n < 128, P (Char.ofNat n)) (h2 : ∀ c : Char, 128 ≤ c.toNat → P c) (c : Char) :
    P c := by
  by_cases h : c.toNat < 128
  · rw [← Char.ofNat_toNat c]
    exact h1 _ h
  · exact h2 c (by omega)

theorem not_letter {c : Char} (h : 128 ≤ c.toNat) (l : List Char) (hl : ∀ x ∈ l, x.toNat < 128) : c ∉ l := fun hc => by
  have := hl c hc
  omega

theorem capital_high {c : Char} (h : 128 ≤ c.toNat) : capital c = c :=
  if_neg (not_letter h _ (by decide))

theorem digitVal_high {c : Char} (h : 128 ≤ c.toNat) : digitVal c = none := by
  have key : ∀ x : Char, x.toNat < 128 → ¬ c ≤ x := by
    intro x hx hc
    have : c.toNat ≤ x.toNat := hc
    omega
  unfold digitVal
  rw [if_neg fun h => key _ (by decide) h.2, if_neg fun h => key _ (by decide) h.2, if_neg fun h => key _ (by decide) h.2]

theorem digitVal_capital (c : Char) : digitVal (capital c) = digitVal c :=
  forall_ascii (P := fun c => digitVal (capital c) = digitVal c) (by decide +kernel)
    (fun c h => by rw [capital_high h]) c

theorem capital_same (x : Char) (hx : x ∈ [':', '.', '-', '+', 'x', 'X', '0']) (c : Char) : capital c = x ↔ c = x := by
  refine forall_ascii (P := fun c => capital c = x ↔ c = x) ?_ (fun c h => by rw [capital_high h]) c
  simp only [List.mem_cons, List.not_mem_nil, or_false] at hx
  rcases hx with rfl | rfl | rfl | rfl | rfl | rfl | rfl <;> decide +kernel

theorem isSpace_capital (c : Char) : isSpace (capital c) = isSpace c :=
  forall_ascii (P := fun c => isSpace (capital c) = isSpace c) (by decide +kernel)
    (fun c h => by rw [capital_high h]) c

theorem split_capital (x : Char) (hx : x ∈ [':', '.', '-', '+', 'x', 'X', '0']) (s : List Char) :
    splitCh x (s.map capital) = (splitCh x s).map (List.map capital) := by
  induction s with
  | nil => rfl
  | cons c s ih =>
    rw [List.map_cons, splitCh, splitCh, ih]
    by_cases h : c = x
    · rw [if_pos h, if_pos ((capital_same x hx c).2 h)]
      rfl
    · rw [if_neg h, if_neg (fun h' => h ((capital_same x hx c).1 h'))]
      cases splitCh x s <;> rfl

theorem strip_capital (s : List Char) : (((s.map capital).dropWhile isSpace).reverse.dropWhile isSpace).reverse =
    (((s.dropWhile isSpace).reverse.dropWhile isSpace).reverse).map capital := by
  have key : ∀ l : List Char, (l.map capital).dropWhile isSpace = (l.dropWhile isSpace).map capital := by
    intro l
    induction l with
    | nil => rfl
    | cons c l ih =>
      rw [List.map_cons, List.dropWhile_cons, List.dropWhile_cons, isSpace_capital, ih]
      split <;> rfl
  rw [key, ← List.map_reverse, key, List.map_reverse]

theorem sign_capital (s : List Char) : splitSign (s.map capital) = ((splitSign s).1, (splitSign s).2.map capital) := by
  cases s with
  | nil => rfl
  | cons c s =>
    by_cases h1 : c = '-'
    · subst h1; rfl
    by_cases h2 : c = '+'
    · subst h2; rfl
    have e : ∀ (d : Char) (t : List Char), d ≠ '-' → d ≠ '+' → splitSign (d :: t) = (false, d :: t) := by
      intro d t h1 h2
      unfold splitSign
      split
      · rename_i h; exact absurd (List.cons.inj h).1 h1
      · rename_i h; exact absurd (List.cons.inj h).1 h2
      · rfl
    rw [List.map_cons, e _ _ (fun h => h1 ((capital_same _ (by decide) c).1 h))
      (fun h => h2 ((capital_same _ (by decide) c).1 h)), e _ _ h1 h2]
    rfl

theorem dropPrefix_cases (base : Nat) (s : List Char) :
    (base = 16 ∧ ∃ t x, (x = 'x' ∨ x = 'X') ∧ s = '0' :: x :: t ∧ dropPrefix base s = t) ∨
    ((¬ (base = 16 ∧ ∃ t x, (x = 'x' ∨ x = 'X') ∧ s = '0' :: x :: t)) ∧ dropPrefix base s = s) := by
  unfold dropPrefix
  split
  · exact Or.inl ⟨rfl, _, _, Or.inl rfl, rfl, rfl⟩
  · exact Or.inl ⟨rfl, _, _, Or.inr rfl, rfl, rfl⟩
  · rename_i h1 h2
    refine Or.inr ⟨?_, rfl⟩
    rintro ⟨rfl, t, x, rfl | rfl, rfl⟩
    · exact h1 _ rfl rfl
    · exact h2 _ rfl rfl

theorem prefix_capital (base : Nat) (s : List Char) : dropPrefix base (s.map capital) = (dropPrefix base s).map capital := by
  rcases dropPrefix_cases base s with ⟨rfl, t, x, hx, rfl, e⟩ | ⟨hn, e⟩
  · rw [e]
    rcases hx with rfl | rfl <;> rfl
  · rw [e]
    rcases dropPrefix_cases base (s.map capital) with ⟨hb, t, x, hx, hs, -⟩ | ⟨-, e'⟩
    · exfalso
      refine hn ⟨hb, ?_⟩
      match s, hs with
      | [], hs => cases hs
      | [_], hs => simp at hs
      | a :: b :: s, hs =>
        simp only [List.map_cons, List.cons.injEq] at hs
        refine ⟨s, x, hx, ?_⟩
        have h0 := (capital_same '0' (by decide) a).1 hs.1
        have h1 : b = x := by
          rcases hx with rfl | rfl
          · exact (capital_same 'x' (by decide) b).1 hs.2.1
          · exact (capital_same 'X' (by decide) b).1 hs.2.1
        rw [h0, h1]
    · exact e'

theorem digits_capital (base : Nat) (s : List Char) (acc : Nat) : digitsFrom base (s.map capital) acc = digitsFrom base s acc := by
  induction s generalizing acc with
  | nil => rfl
  | cons c s ih =>
    rw [List.map_cons, digitsFrom, digitsFrom, digitVal_capital]
    cases digitVal c with
    | none => rfl
    | some d =>
      dsimp only
      rw [ih]

theorem int_capital (base : Nat) (s : List Char) : pyIntParse base (s.map capital) = pyIntParse base s := by
  unfold pyIntParse
  dsimp only
  rw [strip_capital, sign_capital]
  dsimp only
  rw [prefix_capital]
  unfold digitsValue
  rw [digits_capital]
  simp only [List.map_eq_nil_iff]

theorem mapM_capital (base : Nat) (l : List (List Char)) :
    (l.map (List.map capital)).mapM (pyIntParse base) = l.mapM (pyIntParse base) := by
  rw [List.mapM_map]
  congr 1
  funext s
  exact int_capital base s

theorem trim_capital (l : List (List Char)) : ipv6Trim (l.map (List.map capital)) = (ipv6Trim l).map (List.map capital) := by
  have two : ∀ (l : List (List Char)), (∃ t, l = [] :: [] :: t) ↔ ∃ t, l.map (List.map capital) = [] :: [] :: t := by
    intro l
    constructor
    · rintro ⟨t, rfl⟩
      exact ⟨_, rfl⟩
    · rintro ⟨t, h⟩
      match l, h with
      | [], h => cases h
      | [_], h => simp at h
      | a :: b :: l, h =>
        simp only [List.map_cons, List.cons.injEq, List.map_eq_nil_iff] at h
        exact ⟨l, by rw [h.1, h.2.1]⟩
  have e1 : ∀ t : List (List Char), ipv6Trim ([] :: [] :: t) = [] :: t := fun _ => rfl
  have e2 : ∀ l : List (List Char), (¬ ∃ t, l = [] :: [] :: t) → ∀ t, l.reverse = [] :: [] :: t →
      ipv6Trim l = ([] :: t).reverse := by
    intro l h t ht
    unfold ipv6Trim
    split
    · exact absurd ⟨_, rfl⟩ h
    · rw [ht]
  have e3 : ∀ l : List (List Char), (¬ ∃ t, l = [] :: [] :: t) → (¬ ∃ t, l.reverse = [] :: [] :: t) → ipv6Trim l = l := by
    intro l h h'
    unfold ipv6Trim
    split
    · exact absurd ⟨_, rfl⟩ h
    · split
      · rename_i hh
        exact absurd ⟨_, hh⟩ h'
      · rfl
  by_cases h1 : ∃ t, l = [] :: [] :: t
  · obtain ⟨t, rfl⟩ := h1
    rfl
  · have h1' : ¬ ∃ t, l.map (List.map capital) = [] :: [] :: t := fun h => h1 ((two l).2 h)
    by_cases h2 : ∃ t, l.reverse = [] :: [] :: t
    · obtain ⟨t, ht⟩ := h2
      rw [e2 l h1 t ht, e2 _ h1' (t.map (List.map capital)) (by rw [← List.map_reverse, ht]; rfl), List.map_reverse]
      rfl
    · rw [e3 l h1 h2, e3 _ h1' (fun h => h2 ((two _).2 (by rwa [← List.map_reverse] at h)))]

theorem loop_capital (n : Nat) (l : List (List Char)) : ipv6Loop n (l.map (List.map capital)) = ipv6Loop n l := by
  induction l with
  | nil => rfl
  | cons g l ih =>
    rw [List.map_cons, ipv6Loop, ipv6Loop, ih, int_capital]
    simp only [List.map_eq_nil_iff]

theorem v4_capital (s : List Char) : ipv4Groups (s.map capital) = ipv4Groups s := by
  unfold ipv4Groups
  rw [split_capital '.' (by decide), mapM_capital]

theorem v6_capital (s : List Char) : ipv6Groups (s.map capital) = ipv6Groups s := by
  have hc : ∀ l : List (List Char), (l.map (List.map capital)).count [] = l.count [] := by
    intro l
    induction l with
    | nil => rfl
    | cons g l ih =>
      rw [List.map_cons, List.count_cons, List.count_cons, ih]
      cases g <;> rfl
  unfold ipv6Groups
  dsimp only
  rw [split_capital ':' (by decide), List.length_map, trim_capital, List.length_map, hc, loop_capital]

/-- C109: "the hexadecimal letters" may be capitals: a text means the same with them, and is refused or accepted alike. -/
theorem C109_capitals (s : List Char) :
    ftIPAddress.binary (.str (s.map capital)) = ftIPAddress.binary (.str s) ∧
    (ftIPAddress.validate (.str (s.map capital)) = .ok .none ↔ ftIPAddress.validate (.str s) = .ok .none) ∧
    ∀ e, ftIPAddress.validate (.str (s.map capital)) = .error e ↔ ftIPAddress.validate (.str s) = .error e := by
  have hv : ipValidate (s.map capital) = ipValidate s := by
    unfold ipValidate
    rw [v4_capital, v6_capital]
  refine ⟨?_, ?_, ?_⟩
  · show ipBinary _ = ipBinary _
    unfold ipBinary
    rw [v4_capital, v6_capital]
  · simp only [ftIPAddress, hv]
    cases ipValidate s with
    | error e => rfl
    | ok b => cases b <;> simp [Bind.bind, Except.bind]
  · intro e
    simp only [ftIPAddress, hv]
    cases ipValidate s with
    | error e => rfl
    | ok b => cases b <;> simp [Bind.bind, Except.bind]

/-- The characters that can occur in a text accepted as an address: digits of either case and separators, and what `int`
lets pass: a sign, `0x` and white space. -/
def addressChars : List Char := "0123456789abcdefABCDEF.:+-xX \t\n\x0b\x0c\r".toList

theorem addressChars_high : ∀ x ∈ addressChars, x.toNat < 128 := by decide +kernel

theorem digit_letter (c : Char) (h : digitVal c ≠ none) : c ∈ addressChars :=
  forall_ascii (P := fun c => digitVal c ≠ none → c ∈ addressChars) (by decide +kernel)
    (fun c hc h => absurd (digitVal_high hc) h) c h

theorem space_letter (c : Char) (h : isSpace c = true) : c ∈ addressChars :=
  forall_ascii (P := fun c => isSpace c = true → c ∈ addressChars) (by decide +kernel)
    (fun c hc h => by
      simp only [isSpace, decide_eq_true_eq] at h
      rcases h with rfl | ⟨-, h⟩
      · exact absurd hc (by decide)
      · have : c.toNat ≤ '\r'.toNat := h
        have : '\r'.toNat = 13 := rfl
        omega) c h

theorem digits_letters {base : Nat} : ∀ {s : List Char} {acc v : Nat}, digitsFrom base s acc = some v → ∀ c ∈ s, c ∈ addressChars
  | [], _, _, _ => by simp
  | d :: s, acc, v, h => by
    rw [digitsFrom] at h
    cases hd : digitVal d with
    | none => rw [hd] at h; cases h
    | some x =>
      rw [hd] at h
      dsimp only at h
      split_ifs at h
      intro c hc
      rcases List.mem_cons.1 hc with rfl | hc
      · exact digit_letter c (by rw [hd]; simp)
      · exact digits_letters h c hc

theorem mem_strip {s : List Char} {c : Char} (h : c ∈ s) : isSpace c = true ∨
    c ∈ ((s.dropWhile isSpace).reverse.dropWhile isSpace).reverse := by
  have key : ∀ l : List Char, c ∈ l → isSpace c = true ∨ c ∈ l.dropWhile isSpace := by
    intro l hl
    induction l with
    | nil => cases hl
    | cons d l ih =>
      rw [List.dropWhile_cons]
      by_cases hd : isSpace d = true
      · rw [if_pos hd]
        rcases List.mem_cons.1 hl with rfl | hl
        · exact Or.inl hd
        · exact ih hl
      · rw [if_neg hd]
        exact Or.inr hl
  rcases key s h with h | h
  · exact Or.inl h
  · rcases key _ (List.mem_reverse.2 h) with h | h
    · exact Or.inl h
    · exact Or.inr (List.mem_reverse.2 h)

theorem int_letters {base : Nat} {s : List Char} {v : Int} (h : pyIntParse base s = .ok v) : ∀ c ∈ s, c ∈ addressChars := by
  intro c hc
  rcases mem_strip hc with h' | hc
  · exact space_letter c h'
  unfold pyIntParse at h
  dsimp only at h
  generalize ((s.dropWhile isSpace).reverse.dropWhile isSpace).reverse = t at *
  have hsign : c ∈ addressChars ∨ c ∈ (splitSign t).2 := by
    unfold splitSign
    split
    · rcases List.mem_cons.1 hc with rfl | hc
      · exact Or.inl (by decide)
      · exact Or.inr hc
    · rcases List.mem_cons.1 hc with rfl | hc
      · exact Or.inl (by decide)
      · exact Or.inr hc
    · exact Or.inr hc
  rcases hsign with hs | hs
  · exact hs
  generalize (splitSign t).2 = u at *
  have hpre : c ∈ addressChars ∨ c ∈ dropPrefix base u := by
    rcases dropPrefix_cases base u with ⟨-, w, x, hx, rfl, e⟩ | ⟨-, e⟩
    · rw [e]
      rcases List.mem_cons.1 hs with rfl | hs
      · exact Or.inl (by decide)
      rcases List.mem_cons.1 hs with rfl | hs
      · rcases hx with rfl | rfl <;> exact Or.inl (by decide)
      · exact Or.inr hs
    · rw [e]
      exact Or.inr hs
  rcases hpre with hp | hp
  · exact hp
  unfold digitsValue at h
  by_cases hn : dropPrefix base u = []
  · rw [hn] at hp
    cases hp
  · rw [if_neg hn] at h
    cases hd : digitsFrom base (dropPrefix base u) 0 with
    | none => rw [hd] at h; cases h
    | some v => exact digits_letters hd c hp

theorem mem_splitCh {x : Char} : ∀ {s : List Char} {c : Char}, c ∈ s → c = x ∨ ∃ g ∈ splitCh x s, c ∈ g
  | d :: s, c, h => by
    rw [splitCh]
    by_cases hd : d = x
    · rw [if_pos hd]
      rcases List.mem_cons.1 h with rfl | h
      · exact Or.inl hd
      · rcases mem_splitCh h with h | ⟨g, hg, h⟩
        · exact Or.inl h
        · exact Or.inr ⟨g, by simp [hg], h⟩
    · rw [if_neg hd]
      cases hs : splitCh x s with
      | nil =>
        rcases List.mem_cons.1 h with rfl | h
        · exact Or.inr ⟨[c], by simp⟩
        · rcases mem_splitCh (x := x) h with h | ⟨g, hg, h⟩
          · exact Or.inl h
          · rw [hs] at hg; cases hg
      | cons p ps =>
        rcases List.mem_cons.1 h with rfl | h
        · exact Or.inr ⟨c :: p, by simp⟩
        · rcases mem_splitCh (x := x) h with h | ⟨g, hg, h⟩
          · exact Or.inl h
          · rw [hs] at hg
            rcases List.mem_cons.1 hg with rfl | hg
            · exact Or.inr ⟨d :: g, by simp, by simp [h]⟩
            · exact Or.inr ⟨g, by simp [hg], h⟩

theorem mapM_letters {base : Nat} : ∀ {l : List (List Char)} {v : List Int}, l.mapM (pyIntParse base) = .ok v →
    ∀ g ∈ l, ∀ c ∈ g, c ∈ addressChars
  | [], _, _ => by simp
  | g :: l, v, h => by
    rw [List.mapM_cons] at h
    obtain ⟨a, ha, h⟩ := bind_ok_iff.1 h
    obtain ⟨b, hb, -⟩ := bind_ok_iff.1 h
    intro x hx
    rcases List.mem_cons.1 hx with rfl | hx
    · exact int_letters ha
    · exact mapM_letters hb x hx

theorem loop_letters {n : Nat} : ∀ {l : List (List Char)} {v : List Int}, ipv6Loop n l = .ok v →
    ∀ g ∈ l, ∀ c ∈ g, c ∈ addressChars
  | [], _, _ => by simp
  | g :: l, v, h => by
    rw [ipv6Loop] at h
    intro x hx
    by_cases hg : g = []
    · rw [if_pos hg] at h
      obtain ⟨r, hr, -⟩ := bind_ok_iff.1 h
      rcases List.mem_cons.1 hx with rfl | hx
      · rw [hg]; simp
      · exact loop_letters hr x hx
    · rw [if_neg hg] at h
      obtain ⟨a, ha, h⟩ := bind_ok_iff.1 h
      obtain ⟨r, hr, -⟩ := bind_ok_iff.1 h
      rcases List.mem_cons.1 hx with rfl | hx
      · exact int_letters ha
      · exact loop_letters hr x hx

theorem mem_trim {l : List (List Char)} {g : List Char} (h : g ∈ l) : g ∈ ipv6Trim l := by
  unfold ipv6Trim
  split
  · simpa using h
  · split
    · rename_i t heq
      have : g ∈ l.reverse := List.mem_reverse.2 h
      rw [heq] at this
      rw [List.mem_reverse]
      simpa using this
    · exact h

/-- C109: whatever is written as an address contains no other characters. -/
theorem C109_letters (s : List Char) (b : Bytes) (h : ftIPAddress.binary (.str s) = .ok b) : ∀ c ∈ s, c ∈ addressChars := by
  intro c hc
  replace h : ipBinary s = .ok b := h
  unfold ipBinary at h
  cases h4 : ipv4Groups s with
  | some groups =>
    unfold ipv4Groups at h4
    cases hm : (splitCh '.' s).mapM (pyIntParse 10) with
    | error e => rw [hm] at h4; cases h4
    | ok v =>
      rcases mem_splitCh (x := '.') hc with rfl | ⟨g, hg, hcg⟩
      · decide
      · exact mapM_letters hm g hg c hcg
  | none =>
    rw [h4] at h
    dsimp only at h
    obtain ⟨o, ho, -⟩ := bind_ok_iff.1 h
    cases o with
    | none =>
      rw [ho] at h
      cases h
    | some groups =>
      unfold ipv6Groups at ho
      dsimp only at ho
      split_ifs at ho with h1 h2
      · cases ho
      · cases ho
      obtain ⟨v, hv, -⟩ := bind_ok_iff.1 ho
      rcases mem_splitCh (x := ':') hc with rfl | ⟨g, hg, hcg⟩
      · decide
      · exact loop_letters hv g (mem_trim hg) c hcg

/-- `2001:DB8::FF` and `2001:db8::ff`; a letter `g` is refused. -/
example : "2001:db8::ff".toList.map capital = "2001:DB8::FF".toList ∧
    ftIPAddress.binary (.str "2001:DB8::FF".toList) = .ok [0x20, 1, 0xd, 0xb8, 0, 0, 0, 0, 0, 0, 0, 0, 0, 0, 0, 0xff] ∧
    ftIPAddress.binary (.str "2001:DB8::G".toList) = .error .valueError := by decide +kernel

/-! ### Signs -/

theorem int_signed (c : Char) (b : Bool) (hs : isSpace c = false) (hc : ∀ t, splitSign (c :: t) = (b, t)) (n : Nat) :
    pyIntParse 10 (c :: numeral 10 n) = .ok (if b then -(n : Int) else n) := by
  have hall : ∀ x ∈ c :: numeral 10 n, isSpace x = false := by
    intro x hx
    rcases List.mem_cons.1 hx with rfl | hx
    · exact hs
    · obtain ⟨d, hd, rfl⟩ := mem_numeral (by omega) n x hx
      exact (digitChar_facts d (by omega)).1
  unfold pyIntParse
  rw [strip_none _ hall]
  simp only [hc]
  have e : dropPrefix 10 (numeral 10 n) = numeral 10 n := rfl
  rw [e]
  unfold digitsValue
  rw [if_neg (numeral_ne_nil _ _), digitsFrom_numeral (by omega) (by omega)]

theorem numeral_no (c : Char) (hc : c = '.' ∨ c = ':') (n : Nat) : c ∉ numeral 10 n := by
  intro h
  obtain ⟨d, hd, e⟩ := mem_numeral (by omega) n _ h
  have : ∀ d < 10, Nat.digitChar d ≠ '.' ∧ Nat.digitChar d ≠ ':' := by decide
  have := this d hd
  rcases hc with rfl | rfl
  · exact this.1 e.symm
  · exact this.2 e.symm

/-- C109: a plus before the groups of a dotted quad changes nothing, whatever its groups. -/
theorem C109_plus (q : List Nat) (hq : q.length = 4) (h : ∀ x ∈ q, x < 256) :
    ftIPAddress.binary (.str (joined '.' (q.map fun n => '+' :: numeral 10 n))) = .ok (v4Prefix ++ q.map UInt8.ofNat) ∧
    ftIPAddress.binary (.str (joined '.' (q.map (numeral 10)))) = .ok (v4Prefix ++ q.map UInt8.ofNat) := by
  have hb : ∀ s, ipv4Groups s = some (q.map Int.ofNat) →
      ftIPAddress.binary (.str s) = .ok (v4Prefix ++ q.map UInt8.ofNat) := by
    intro s hs
    have := ipBinary_v4 hs hq h
    have e : ftIPAddress.binary (.str s) = ipBinary s := rfl
    rw [e, this.1]
    have hn : ∀ l : List Nat, (∀ x ∈ l, x < 256) →
        (l.map fun x => numBytes .B true ((x : Nat) : Int)).flatten = l.map UInt8.ofNat := by
      intro l hl
      induction l with
      | nil => rfl
      | cons a t ih =>
        have ha := hl a (by simp)
        have := ofNat_byte (UInt8.ofNat a)
        rw [UInt8.toNat_ofNat', Nat.mod_eq_of_lt ha] at this
        rw [List.map_cons, List.flatten_cons, this, ih (fun x hx => hl x (by simp [hx]))]
        rfl
    rw [hn q h]
    rfl
  refine ⟨hb _ ?_, hb _ (ipv4Groups_quad q hq h)⟩
  have hsplit : splitCh '.' (joined '.' (q.map fun n => '+' :: numeral 10 n)) = q.map fun n => '+' :: numeral 10 n := by
    rw [← joinCh_eq]
    match q, hq with
    | a :: t, _ =>
      rw [List.map_cons]
      refine splitCh_joinCh _ _ ?_
      intro x hx
      rw [← List.map_cons (f := fun n => '+' :: numeral 10 n), List.mem_map] at hx
      obtain ⟨n, _, rfl⟩ := hx
      intro hc
      rcases List.mem_cons.1 hc with hc | hc
      · exact absurd hc (by decide)
      · exact numeral_no _ (.inl rfl) n hc
  have hm : (q.map fun n => '+' :: numeral 10 n).mapM (pyIntParse 10) = .ok (q.map Int.ofNat) := by
    rw [List.mapM_map]
    exact mapM_ok q (fun x _ => int_signed '+' false (by decide) (fun _ => rfl) x)
  unfold ipv4Groups
  rw [hsplit, hm]
  simp only
  rw [if_neg (by simp [hq]), if_pos]
  rw [List.all_eq_true]
  intro g hg
  obtain ⟨x, hx, rfl⟩ := List.mem_map.1 hg
  have := h x hx
  simp only [decide_eq_true_eq, Int.ofNat_eq_natCast]
  omega

theorem mapM_mem {α β : Type} {f : α → Py β} : ∀ {l : List α} {v : List β}, l.mapM f = .ok v → ∀ x ∈ l, ∃ y ∈ v, f x = .ok y
  | [], _, _ => by simp
  | a :: l, v, h => by
    rw [List.mapM_cons] at h
    obtain ⟨y, hy, h⟩ := bind_ok_iff.1 h
    obtain ⟨ys, hys, h⟩ := bind_ok_iff.1 h
    cases h
    intro x hx
    rcases List.mem_cons.1 hx with rfl | hx
    · exact ⟨y, by simp, hy⟩
    · obtain ⟨z, hz, e⟩ := mapM_mem hys x hx
      exact ⟨z, by simp [hz], e⟩

/-- C109: a group below zero is refused, wherever it stands in a dotted text and whatever the other groups are. -/
theorem C109_minus (before behind : List (List Char)) (n : Nat) (hsep : ∀ w ∈ before ++ behind, '.' ∉ w ∧ ':' ∉ w) :
    ftIPAddress.binary (.str (joined '.' (before ++ ('-' :: numeral 10 (n + 1)) :: behind))) = .error .valueError := by
  have hdash : ∀ c, c = '.' ∨ c = ':' → c ∉ '-' :: numeral 10 (n + 1) := by
    intro c hc hm
    rcases List.mem_cons.1 hm with rfl | hm
    · revert hc; decide
    · exact numeral_no c hc _ hm
  generalize hw : ('-' :: numeral 10 (n + 1)) = w at *
  have hws : ∀ x ∈ before ++ w :: behind, '.' ∉ x ∧ ':' ∉ x := by
    intro x hx
    rcases List.mem_append.1 hx with hx | hx
    · exact hsep x (by simp [hx])
    · rcases List.mem_cons.1 hx with rfl | hx
      · exact ⟨hdash _ (.inl rfl), hdash _ (.inr rfl)⟩
      · exact hsep x (by simp [hx])
  have hmem : w ∈ before ++ w :: behind := by simp
  generalize before ++ w :: behind = ws at *
  have hsplit : splitCh '.' (joined '.' ws) = ws := by
    rw [← joinCh_eq]
    match ws, hmem with
    | a :: t, _ => exact splitCh_joinCh _ _ (fun x hx => (hws x hx).1)
  have hcolon : ':' ∉ joined '.' ws := by
    intro hc
    rcases mem_splitCh (x := '.') hc with e | ⟨g, hg, hcg⟩
    · exact absurd e (by decide)
    · rw [hsplit] at hg
      exact (hws g hg).2 hcg
  have h4 : ipv4Groups (joined '.' ws) = none := by
    unfold ipv4Groups
    rw [hsplit]
    cases hm : ws.mapM (pyIntParse 10) with
    | error e => rfl
    | ok v =>
      simp only
      split_ifs with h1 h2
      · rfl
      · obtain ⟨y, hy, e⟩ := mapM_mem hm w hmem
        rw [← hw, int_signed '-' true (by decide) (fun _ => rfl)] at e
        cases e
        have := List.all_eq_true.1 h2 _ hy
        simp only [if_true, decide_eq_true_eq] at this
        omega
      · rfl
  have h6 : ipv6Groups (joined '.' ws) = .ok none := by
    unfold ipv6Groups
    rw [splitCh_noSep hcolon]
    rfl
  show ipBinary _ = _
  unfold ipBinary
  rw [h4]
  simp only
  rw [h6]
  rfl

/-- `+127.+0.+0.+1` is `127.0.0.1`; `127.0.0.-1` is refused. -/
example : joined '.' ([127, 0, 0, 1].map fun n => '+' :: numeral 10 n) = "+127.+0.+0.+1".toList ∧
    joined '.' (["127".toList, "0".toList, "0".toList] ++ ('-' :: numeral 10 (0 + 1)) :: []) = "127.0.0.-1".toList ∧
    ftIPAddress.binary (.str "+127.+0.+0.+1".toList) = .ok [0, 0, 0, 0, 0, 0, 0, 0, 0, 0, 0xff, 0xff, 127, 0, 0, 1] := by
  decide +kernel

end NBC.Props
