import Verif.Props.Protocol

/-!
C109: shortened IPv6 addresses.
-/

namespace NBC.Props

open NBC NBC.Proto NBC.Spec NBC.Spec.Wire

/-- The text forms of RFC 4291, section 2.2 (2), with groups in hexadecimal without leading zeros: the
groups before `::` and the groups behind it. -/
def shortText (before behind : List Nat) : List Char :=
  joined ':' (before.map (numeral 16)) ++ [':', ':'] ++ joined ':' (behind.map (numeral 16))

/-- What it stands for: `::` is as many groups of zeros as make eight. -/
def shortGroups (before behind : List Nat) : List Nat :=
  before ++ List.replicate (8 - before.length - behind.length) 0 ++ behind

/-- A group as two bytes. -/
def groupBytes (x : Nat) : Bytes := [UInt8.ofNat (x / 256), UInt8.ofNat (x % 256)]

theorem numBytes_group {x : Nat} (h : x < 65536) : numBytes .H true (x : Int) = groupBytes x := by
  have := ofNat_pair (UInt8.ofNat (x / 256)) (UInt8.ofNat (x % 256))
  rw [UInt8.toNat_ofNat_of_lt' (show x / 256 < 256 by omega), UInt8.toNat_ofNat_of_lt' (show x % 256 < 256 by omega),
    show x / 256 * 256 + x % 256 = x by omega] at this
  exact this

theorem joinCh_cons {c : Char} (a : List Char) (A : List (List Char)) (hA : A ≠ []) :
    joinCh c (a :: A) = a ++ c :: joinCh c A := by
  cases A with
  | nil => exact absurd rfl hA
  | cons b A => rfl

theorem joinCh_append {c : Char} (A B : List (List Char)) (hA : A ≠ []) (hB : B ≠ []) :
    joinCh c (A ++ B) = joinCh c A ++ c :: joinCh c B := by
  induction A with
  | nil => exact absurd rfl hA
  | cons a A ih =>
    cases A with
    | nil => rw [List.singleton_append, joinCh_cons a B hB]; rfl
    | cons a' A =>
      rw [List.cons_append, joinCh_cons a _ (by simp), ih (by simp), joinCh_cons a (a' :: A) (by simp)]
      simp

theorem splitCh_joinCh' {c : Char} {ws : List (List Char)} (hne : ws ≠ []) (h : ∀ x ∈ ws, c ∉ x) :
    splitCh c (joinCh c ws) = ws := by
  cases ws with
  | nil => exact absurd rfl hne
  | cons w ws => exact splitCh_joinCh w ws h

theorem ipv6Trim_front (t : List (List Char)) : ipv6Trim ([] :: [] :: t) = [] :: t := rfl

theorem ipv6Trim_back (L : List (List Char)) (hne : L ≠ []) (hL : ∀ w ∈ L, w ≠ []) :
    ipv6Trim (L ++ [[], []]) = L ++ [[]] := by
  cases L with
  | nil => exact absurd rfl hne
  | cons a L =>
    have ha := hL a (by simp)
    unfold ipv6Trim
    split
    · rename_i t ht
      rw [List.cons_append, List.cons.injEq] at ht
      exact absurd ht.1 ha
    · rw [List.reverse_append]
      simp

theorem ipv6Trim_mid (L R : List (List Char)) (hl : L ≠ []) (hr : R ≠ []) (hL : ∀ w ∈ L, w ≠ [])
    (hR : ∀ w ∈ R, w ≠ []) : ipv6Trim (L ++ [] :: R) = L ++ [] :: R := by
  cases L with
  | nil => exact absurd rfl hl
  | cons a L =>
    have ha := hL a (by simp)
    unfold ipv6Trim
    split
    · rename_i t ht
      rw [List.cons_append, List.cons.injEq] at ht
      exact absurd ht.1 ha
    · split
      · rename_i t ht
        exfalso
        have hz : R.reverse ≠ [] := by simpa using hr
        obtain ⟨z, R', hR'⟩ := List.exists_cons_of_ne_nil hz
        rw [List.reverse_append, List.reverse_cons, hR', List.append_assoc, List.cons_append,
          List.cons.injEq] at ht
        exact hR z (List.mem_reverse.1 (by rw [hR']; simp)) ht.1
      · rfl

theorem numeral16_noSep (x : Nat) : ':' ∉ numeral 16 x ∧ '.' ∉ numeral 16 x := by
  constructor
  · intro hc
    obtain ⟨d, hd, e⟩ := mem_numeral (by omega) x _ hc
    exact (digitChar_facts d (by omega)).2.2.2.2.2.2 e.symm
  · intro hc
    obtain ⟨d, hd, e⟩ := mem_numeral (by omega) x _ hc
    exact (digitChar_facts d (by omega)).2.2.2.2.2.1 e.symm

theorem noDot_joined (q : List Nat) : '.' ∉ joined ':' (q.map (numeral 16)) := by
  rw [← joinCh_eq]
  induction q with
  | nil => simp [joinCh]
  | cons x q ih =>
    cases q with
    | nil => exact (numeral16_noSep x).2
    | cons y q =>
      rw [List.map_cons, List.map_cons, joinCh, List.mem_append, List.mem_cons]
      · rintro (hc | hc | hc)
        · exact (numeral16_noSep x).2 hc
        · exact absurd hc (by decide)
        · exact ih hc
      · simp

/-- The text, split at the colons, after the removal of one empty string at either end. -/
theorem short_split (l r : List Nat) (hne : l ≠ [] ∨ r ≠ []) :
    2 ≤ (splitCh ':' (shortText l r)).length ∧
    ipv6Trim (splitCh ':' (shortText l r)) = l.map (numeral 16) ++ [] :: r.map (numeral 16) := by
  have hno : ∀ q : List Nat, ∀ w ∈ q.map (numeral 16), w ≠ [] ∧ ':' ∉ w := by
    intro q w hw
    obtain ⟨x, _, rfl⟩ := List.mem_map.1 hw
    exact ⟨numeral_ne_nil _ _, (numeral16_noSep x).1⟩
  unfold shortText
  rw [← joinCh_eq, ← joinCh_eq]
  have hL := hno l
  have hR := hno r
  have hne' : l.map (numeral 16) ≠ [] ∨ r.map (numeral 16) ≠ [] := by simpa using hne
  generalize l.map (numeral 16) = L at *
  generalize r.map (numeral 16) = R at *
  by_cases hl : L = []
  · subst hl
    have hr : R ≠ [] := by simpa using hne'
    have e : joinCh ':' [] ++ [':', ':'] ++ joinCh ':' R = joinCh ':' ([] :: [] :: R) := by
      rw [joinCh_cons [] _ (by simp), joinCh_cons [] R hr]
      rfl
    rw [e, splitCh_joinCh' (by simp)]
    · exact ⟨by simp, ipv6Trim_front R⟩
    · intro x hx
      rcases List.mem_cons.1 hx with rfl | hx
      · simp
      rcases List.mem_cons.1 hx with rfl | hx
      · simp
      exact (hR x hx).2
  · by_cases hr : R = []
    · subst hr
      have e : joinCh ':' L ++ [':', ':'] ++ joinCh ':' [] = joinCh ':' (L ++ [[], []]) := by
        rw [joinCh_append L _ hl (by simp), List.append_assoc]
        rfl
      rw [e, splitCh_joinCh' (by simp)]
      · exact ⟨by simp, ipv6Trim_back L hl (fun w hw => (hL w hw).1)⟩
      · intro x hx
        rcases List.mem_append.1 hx with hx | hx
        · exact (hL x hx).2
        · simp only [List.mem_cons, List.not_mem_nil, or_false, or_self] at hx
          simp [hx]
    · have e : joinCh ':' L ++ [':', ':'] ++ joinCh ':' R = joinCh ':' (L ++ [] :: R) := by
        rw [joinCh_append L _ hl (by simp), joinCh_cons [] R hr, List.append_assoc]
        rfl
      rw [e, splitCh_joinCh' (by simp)]
      · refine ⟨?_, ipv6Trim_mid L R hl hr (fun w hw => (hL w hw).1) (fun w hw => (hR w hw).1)⟩
        have := List.length_pos_of_ne_nil hl
        rw [List.length_append, List.length_cons]
        omega
      · intro x hx
        rcases List.mem_append.1 hx with hx | hx
        · exact (hL x hx).2
        rcases List.mem_cons.1 hx with rfl | hx
        · simp
        · exact (hR x hx).2

theorem ipv6Loop_append (n : Nat) (l : List Nat) (ws : List (List Char)) (r : List Int)
    (h : ipv6Loop n ws = .ok r) : ipv6Loop n (l.map (numeral 16) ++ ws) = .ok (l.map Int.ofNat ++ r) := by
  induction l with
  | nil => exact h
  | cons x l ih =>
    rw [List.map_cons, List.cons_append, ipv6Loop, if_neg (numeral_ne_nil _ _),
      pyIntParse_numeral (by omega) (by omega), ok_bind, ih, ok_bind]
    rfl

theorem short_v6 (l r : List Nat) (hlen : l.length + r.length ≤ 7) (hne : l ≠ [] ∨ r ≠ [])
    (hl : ∀ x ∈ l, x < 65536) (hr : ∀ x ∈ r, x < 65536) :
    ipv4Groups (shortText l r) = none ∧
    ipv6Groups (shortText l r) = .ok (some ((shortGroups l r).map Int.ofNat)) := by
  constructor
  · have hdot : '.' ∉ shortText l r := by
      unfold shortText
      rw [List.mem_append, List.mem_append]
      rintro ((hc | hc) | hc)
      · exact noDot_joined l hc
      · simp at hc
      · exact noDot_joined r hc
    unfold ipv4Groups
    rw [splitCh_noSep hdot]
    have : ∀ w, [w].mapM (pyIntParse 10) = (pyIntParse 10 w).map (fun v => [v]) := by
      intro w
      simp only [List.mapM_cons, List.mapM_nil]
      cases pyIntParse 10 w <;> rfl
    rw [this]
    cases pyIntParse 10 (shortText l r) <;> rfl
  · obtain ⟨h2, ht⟩ := short_split l r hne
    have hz : ∀ q : List Nat, (q.map (numeral 16)).count [] = 0 := by
      intro q
      rw [List.count_eq_zero]
      intro hc
      obtain ⟨x, _, hx⟩ := List.mem_map.1 hc
      exact numeral_ne_nil 16 x hx
    unfold ipv6Groups
    rw [if_neg (by omega), ht]
    simp only []
    rw [if_neg]
    · have hlp := ipv6Loop_append (l.map (numeral 16) ++ [] :: r.map (numeral 16)).length l
        ([] :: r.map (numeral 16)) (List.replicate (8 - l.length - r.length) 0 ++ r.map Int.ofNat) (by
          rw [ipv6Loop, if_pos rfl, ipv6Loop_plain, ok_bind]
          simp only [List.length_append, List.length_cons, List.length_map]
          rw [show 9 - (l.length + (r.length + 1)) = 8 - l.length - r.length by omega])
      rw [hlp, ok_bind, if_pos]
      · unfold shortGroups
        simp
      · rw [List.all_eq_true]
        intro g hg
        simp only [decide_eq_true_eq]
        rcases List.mem_append.1 hg with hg | hg
        · obtain ⟨x, hx, rfl⟩ := List.mem_map.1 hg
          have := hl x hx
          show (0 : Int) ≤ (x : Int) ∧ (x : Int) ≤ 0xffff
          omega
        rcases List.mem_append.1 hg with hg | hg
        · rw [(List.mem_replicate.1 hg).2]
          omega
        · obtain ⟨x, hx, rfl⟩ := List.mem_map.1 hg
          have := hr x hx
          show (0 : Int) ≤ (x : Int) ∧ (x : Int) ≤ 0xffff
          omega
    · rw [List.count_append, List.count_cons, hz, hz]
      simp only [List.length_append, List.length_cons, List.length_map]
      simp
      omega

/-- C109, for shortened addresses with a group on some side of `::`: the text is accepted and written as the
groups it stands for.  Missing: `::` alone and addresses that end in a dotted quad (`C109_short_false`). -/
theorem C109_short_partial (before behind : List Nat) (hlen : before.length + behind.length ≤ 7)
    (hne : before ≠ [] ∨ behind ≠ []) (h1 : ∀ x ∈ before, x < 2 ^ 16) (h2 : ∀ x ∈ behind, x < 2 ^ 16) :
    ftIPAddress.validate (.str (shortText before behind)) = .ok (.str (shortText before behind)) ∧
    ftIPAddress.binary (.str (shortText before behind)) =
      .ok ((shortGroups before behind).map groupBytes).flatten := by
  obtain ⟨h4, h6⟩ := short_v6 before behind hlen hne h1 h2
  have hlt : ∀ x ∈ shortGroups before behind, x < 65536 := by
    intro x hx
    unfold shortGroups at hx
    rcases List.mem_append.1 hx with hx | hx
    · rcases List.mem_append.1 hx with hx | hx
      · exact h1 x hx
      · rw [(List.mem_replicate.1 hx).2]; omega
    · exact h2 x hx
  have hl8 : (shortGroups before behind).length = 8 := by
    unfold shortGroups
    rw [List.length_append, List.length_append, List.length_replicate]
    omega
  obtain ⟨hb, hv⟩ := ipBinary_v6 h4 h6 hl8 hlt
  constructor
  · simp only [ftIPAddress, hv]
    rfl
  · simp only [ftIPAddress, hb]
    congr 2
    exact List.map_congr_left (fun x hx => numBytes_group (hlt x hx))

/-- C109 fails: `::` is refused, an address that ends in a dotted quad raises `ValueError`, and `:1`, which
is no address, is taken for `::1`. -/
theorem C109_short_false :
    ftIPAddress.validate (.str (shortText [] [])) = .ok .none ∧
    ftIPAddress.validate (.str "::ffff:1.2.3.4".toList) = .error .valueError ∧
    ftIPAddress.binary (.str ":1".toList) = ftIPAddress.binary (.str (shortText [] [1])) ∧
    ftIPAddress.validate (.str ":1".toList) = .ok (.str ":1".toList) := by
  refine ⟨rfl, rfl, by decide, rfl⟩

/-- `2001:db8::ff00:42` has four groups of zeros. -/
example : shortText [0x2001, 0xdb8] [0xff00, 0x42] = "2001:db8::ff00:42".toList ∧
    shortGroups [0x2001, 0xdb8] [0xff00, 0x42] = [0x2001, 0xdb8, 0, 0, 0, 0, 0xff00, 0x42] := by decide

end NBC.Props
