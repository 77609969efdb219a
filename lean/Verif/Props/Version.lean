import Verif.Model.Version
import Verif.Props.Passphrase
import Verif.Proofs.IpText
import Mathlib.Data.Char

/-!
# C175: the version the ECDSA library reports
-/

namespace NBC.Props
open NBC NBC.Proto NBC.Wallet NBC.Version

/-! ### Specification -/

/-- `s` is `t` or stands before it in the alphabet: `t` continues `s`, or they differ first in a smaller character. -/
def Earlier (s t : List Char) : Prop :=
  (∃ w, t = s ++ w) ∨ ∃ p c d u v, s = p ++ c :: u ∧ t = p ++ d :: v ∧ c < d

/-- A name as git writes it: not empty, no comma in it, and no blank or parenthesis at its ends. -/
structure Name (r : List Char) : Prop where
  ne : r ≠ []
  comma : ',' ∉ r
  first : ∀ c, r.head? = some c → isWhite c = false ∧ isParen c = false
  last : ∀ c, r.getLast? = some c → isWhite c = false ∧ isParen c = false

/-- The names after the first, with their commas. -/
def others : List (List Char) → List Char
  | [] => []
  | r :: rs => ", ".toList ++ r ++ others rs

/-- The text that git puts in for the names. -/
def refText (r : List Char) (rs : List (List Char)) : List Char := " (".toList ++ (r ++ others rs) ++ ")".toList

/-- The tags among names: those marked as tags, and if there are none, the names with a digit. -/
def IsTag (refs : List (List Char)) (t : List Char) : Prop :=
  "tag: ".toList ++ t ∈ refs ∨
  ((∀ u, "tag: ".toList ++ u ∉ refs) ∧ t ∈ refs ∧ ∃ c ∈ t, '0' ≤ c ∧ c ≤ '9')

/-! ### The order -/

theorem leText_iff (s t : List Char) : leText s t = true ↔ Earlier s t := by
  induction s generalizing t with
  | nil => exact ⟨fun _ => .inl ⟨t, rfl⟩, fun _ => rfl⟩
  | cons a s ih =>
    cases t with
    | nil =>
      refine ⟨fun h => by simp [leText] at h, ?_⟩
      rintro (⟨w, h⟩ | ⟨p, c, d, u, v, -, h, -⟩)
      · simp at h
      · simp at h
    | cons b t =>
      simp only [leText, Bool.or_eq_true, decide_eq_true_eq, Bool.and_eq_true, ih]
      constructor
      · rintro (h | ⟨rfl, ⟨w, rfl⟩ | ⟨p, c, d, u, v, rfl, rfl, h⟩⟩)
        · exact .inr ⟨[], a, b, s, t, rfl, rfl, h⟩
        · exact .inl ⟨w, rfl⟩
        · exact .inr ⟨a :: p, c, d, u, v, rfl, rfl, h⟩
      · rintro (⟨w, h⟩ | ⟨p, c, d, u, v, h1, h2, h⟩)
        · obtain ⟨rfl, rfl⟩ := List.cons.inj h
          exact .inr ⟨rfl, .inl ⟨w, rfl⟩⟩
        · cases p with
          | nil =>
            obtain ⟨rfl, rfl⟩ := List.cons.inj h1
            obtain ⟨rfl, rfl⟩ := List.cons.inj h2
            exact .inl h
          | cons x p =>
            obtain ⟨rfl, rfl⟩ := List.cons.inj h1
            obtain ⟨rfl, rfl⟩ := List.cons.inj h2
            exact .inr ⟨rfl, .inr ⟨p, c, d, u, v, rfl, rfl, h⟩⟩

theorem leText_total (s t : List Char) : (leText s t || leText t s) = true := by
  induction s generalizing t with
  | nil => simp [leText]
  | cons a s ih =>
    cases t with
    | nil => simp [leText]
    | cons b t =>
      have := ih t
      rcases lt_trichotomy a b with h | h | h <;> simp_all [leText]

theorem leText_trans (s t u : List Char) (h1 : leText s t = true) (h2 : leText t u = true) : leText s u = true := by
  induction s generalizing t u with
  | nil => rfl
  | cons a s ih =>
    cases t with
    | nil => simp [leText] at h1
    | cons b t =>
      cases u with
      | nil => simp [leText] at h2
      | cons c u =>
        simp only [leText, Bool.or_eq_true, decide_eq_true_eq, Bool.and_eq_true] at h1 h2 ⊢
        rcases h1 with h1 | ⟨rfl, h1⟩
        · rcases h2 with h2 | ⟨rfl, h2⟩
          · exact .inl (lt_trans h1 h2)
          · exact .inl h1
        · rcases h2 with h2 | ⟨rfl, h2⟩
          · exact .inl h2
          · exact .inr ⟨rfl, ih t u h1 h2⟩

theorem leText_antisymm (s t : List Char) (h1 : leText s t = true) (h2 : leText t s = true) : s = t := by
  induction s generalizing t with
  | nil =>
    cases t with
    | nil => rfl
    | cons b t => simp [leText] at h2
  | cons a s ih =>
    cases t with
    | nil => simp [leText] at h1
    | cons b t =>
      simp only [leText, Bool.or_eq_true, decide_eq_true_eq, Bool.and_eq_true] at h1 h2
      rcases h1 with h1 | ⟨rfl, h1⟩
      · rcases h2 with h2 | ⟨rfl, h2⟩
        · exact absurd (lt_trans h1 h2) (lt_irrefl _)
        · exact absurd h1 (lt_irrefl _)
      · rcases h2 with h2 | ⟨-, h2⟩
        · exact absurd h2 (lt_irrefl _)
        · rw [ih t h1 h2]

theorem leText_prefix (p s t : List Char) : leText (p ++ s) (p ++ t) = leText s t := by
  induction p with
  | nil => rfl
  | cons a p ih => simp [leText, ih]

theorem mem_insertText (x t : List Char) (l : List (List Char)) : t ∈ insertText x l ↔ t = x ∨ t ∈ l := by
  induction l with
  | nil => simp [insertText]
  | cons y l ih =>
    rw [insertText]
    split
    · simp
    · simp only [List.mem_cons, ih]
      tauto

theorem mem_sortTexts (l : List (List Char)) (t : List Char) : t ∈ sortTexts l ↔ t ∈ l := by
  induction l with
  | nil => simp [sortTexts]
  | cons x l ih =>
    have : sortTexts (x :: l) = insertText x (sortTexts l) := rfl
    rw [this, mem_insertText, ih, List.mem_cons]

theorem sorted_sortTexts (l : List (List Char)) : (sortTexts l).Pairwise (fun a b => leText a b = true) := by
  induction l with
  | nil => exact List.Pairwise.nil
  | cons x l ih =>
    have : sortTexts (x :: l) = insertText x (sortTexts l) := rfl
    rw [this]
    generalize sortTexts l = k at ih
    induction k with
    | nil => simp [insertText]
    | cons y k ih' =>
      rw [insertText]
      rw [List.pairwise_cons] at ih
      split
      · rename_i h
        refine List.pairwise_cons.2 ⟨fun z hz => ?_, List.pairwise_cons.2 ih⟩
        rcases List.mem_cons.1 hz with rfl | hz
        · exact h
        · exact leText_trans _ _ _ h (ih.1 z hz)
      · rename_i h
        refine List.pairwise_cons.2 ⟨fun z hz => ?_, ih' ih.2⟩
        rcases (mem_insertText _ _ _).1 hz with rfl | hz
        · have := leText_total z y
          simpa [h] using this
        · exact ih.1 z hz

/-- The first of a sorted list with a property is before all with it. -/
theorem find_sorted (l : List (List Char)) (q : List Char → Bool) (r : List Char)
    (h : (sortTexts l).find? q = some r) : r ∈ l ∧ q r = true ∧ ∀ t ∈ l, q t = true → leText r t = true := by
  have hs := sorted_sortTexts l
  have hm : ∀ t, t ∈ sortTexts l ↔ t ∈ l := fun t => mem_sortTexts l t
  generalize sortTexts l = k at h hs hm
  have : r ∈ k ∧ q r = true ∧ ∀ t ∈ k, q t = true → leText r t = true := by
    clear hm
    induction k with
    | nil => cases h
    | cons x k ih =>
      rw [List.find?_cons] at h
      rw [List.pairwise_cons] at hs
      cases hx : q x with
      | true =>
        rw [hx] at h
        cases h
        refine ⟨List.mem_cons_self, hx, fun t ht _ => ?_⟩
        rcases List.mem_cons.1 ht with rfl | ht
        · have := leText_total t t
          simpa using this
        · exact hs.1 t ht
      | false =>
        rw [hx] at h
        obtain ⟨h1, h2, h3⟩ := ih h hs.2
        refine ⟨List.mem_cons_of_mem _ h1, h2, fun t ht hq => ?_⟩
        rcases List.mem_cons.1 ht with rfl | ht
        · rw [hx] at hq; cases hq
        · exact h3 t ht hq
  exact ⟨(hm r).1 this.1, this.2.1, fun t ht => this.2.2 t ((hm t).2 ht)⟩

/-! ### The names -/

theorem split_others (w : List Char) (hw : ',' ∉ w) (rs : List (List Char)) (h : ∀ r ∈ rs, ',' ∉ r) :
    splitCh ',' (w ++ others rs) = w :: rs.map (' ' :: ·) := by
  induction rs generalizing w with
  | nil => rw [others, List.append_nil, splitCh_noSep hw]; rfl
  | cons r rs ih =>
    have e : w ++ others (r :: rs) = w ++ ',' :: ((' ' :: r) ++ others rs) := by simp [others]
    rw [e, splitCh_append hw, ih (' ' :: r) (by simpa using h r List.mem_cons_self)
      (fun x hx => h x (List.mem_cons_of_mem _ hx))]
    rfl

theorem last_others (r : List Char) (rs : List (List Char)) (hr : Name r) (h : ∀ x ∈ rs, Name x) (c : Char)
    (hc : (r ++ others rs).getLast? = some c) : isParen c = false := by
  induction rs generalizing r with
  | nil =>
    rw [others, List.append_nil] at hc
    exact (hr.last c hc).2
  | cons x rs ih =>
    refine ih x (h x List.mem_cons_self) (fun y hy => h y (List.mem_cons_of_mem _ hy)) ?_
    have e : r ++ others (x :: rs) = (r ++ ", ".toList) ++ (x ++ others rs) := by simp [others]
    rw [e, List.getLast?_append_of_ne_nil] at hc
    · exact hc
    · simp [(h x List.mem_cons_self).ne]

theorem refsOf_text (r : List Char) (rs : List (List Char)) (hr : Name r) (h : ∀ x ∈ rs, Name x) :
    refsOf (refText r rs) = r :: rs ∧ stripWith isWhite (refText r rs) = '(' :: ((r ++ others rs) ++ [')']) := by
  have h1 : stripWith isWhite (refText r rs) = '(' :: ((r ++ others rs) ++ [')']) := by
    have e : refText r rs = [' '] ++ ('(' :: ((r ++ others rs) ++ [')'])) ++ [] := by simp [refText]
    rw [e, stripWith_pad isWhite [' '] _ [] (by simp [isWhite]) (by simp) ⟨'(', by simp, by decide⟩]
    refine stripWith_id _ _ (fun c hc => ?_) (fun c hc => ?_)
    · cases hc
      decide
    · rw [← List.cons_append, List.getLast?_concat] at hc
      cases hc
      decide
  refine ⟨?_, h1⟩
  have hd : (r ++ others rs).head? = r.head? := by
    cases r with
    | nil => exact absurd rfl hr.ne
    | cons a r => rfl
  have hh : ∃ c ∈ r ++ others rs, isParen c = false := by
    cases r with
    | nil => exact absurd rfl hr.ne
    | cons a r => exact ⟨a, by simp, (hr.first a rfl).2⟩
  have h2 : stripWith isParen ('(' :: ((r ++ others rs) ++ [')'])) = r ++ others rs := by
    have e : '(' :: ((r ++ others rs) ++ [')']) = ['('] ++ (r ++ others rs) ++ [')'] := by simp
    rw [e, stripWith_pad isParen ['('] _ [')'] (by simp [isParen]) (by simp [isParen]) hh]
    exact stripWith_id _ _ (fun c hc => (hr.first c (hd ▸ hc)).2) (fun c hc => last_others r rs hr h c hc)
  unfold refsOf
  rw [h1, h2, split_others r hr.comma rs (fun x hx => (h x hx).comma), List.map_cons, List.map_map]
  have hid : ∀ x, Name x → stripWith isWhite x = x := fun x hx =>
    stripWith_id _ _ (fun c hc => (hx.first c hc).1) (fun c hc => (hx.last c hc).1)
  rw [hid r hr]
  congr 1
  conv_rhs => rw [← List.map_id rs]
  refine List.map_congr_left (fun x hx => ?_)
  show stripWith isWhite (' ' :: x) = x
  have e : ' ' :: x = [' '] ++ x ++ [] := by simp
  rw [e, stripWith_pad isWhite [' '] x [] (by simp [isWhite]) (by simp), hid x (h x hx)]
  cases x with
  | nil => exact absurd rfl (h _ hx).ne
  | cons a x => exact ⟨a, by simp, ((h _ hx).first a rfl).1⟩

theorem mem_tagsOf (refs : List (List Char)) (t : List Char) : t ∈ tagsOf refs ↔ IsTag refs t := by
  have hm : ∀ u, u ∈ (refs.filter ("tag: ".toList.isPrefixOf ·)).map (·.drop 5) ↔ "tag: ".toList ++ u ∈ refs := by
    intro u
    simp only [List.mem_map, List.mem_filter, List.isPrefixOf_iff_prefix]
    constructor
    · rintro ⟨x, ⟨hx, w, rfl⟩, rfl⟩
      exact hx
    · intro hu
      exact ⟨_, ⟨hu, u, rfl⟩, rfl⟩
  unfold tagsOf IsTag
  simp only
  split
  · rename_i h0
    have hn : ∀ u, "tag: ".toList ++ u ∉ refs := fun u hu => by
      have := (hm u).2 hu
      rw [h0] at this
      cases this
    simp only [hn t, false_or, List.mem_filter, hasDigit, List.any_eq_true, decide_eq_true_eq]
    exact ⟨fun h => ⟨hn, h⟩, fun h => h.2⟩
  · rename_i h0
    rw [hm]
    obtain ⟨u, hu⟩ := List.exists_mem_of_ne_nil _ h0
    have := (hm u).1 hu
    exact ⟨.inl, fun h => h.resolve_right (fun h => h.1 u this)⟩

/-! ### C175 -/

/-- C175: the version is what follows the prefix in the alphabetically first tag that begins with it, and without such a tag
it is the id of the commit. -/
theorem C175_tagged (r : List Char) (rs : List (List Char)) (hr : Name r) (h : ∀ x ∈ rs, Name x) (full tagPrefix : List Char)
    (hf : ∀ c ∈ full, isWhite c = false) :
    (∃ v, fromExpanded (refText r rs) full tagPrefix = some ⟨v, full⟩ ∧ IsTag (r :: rs) (tagPrefix ++ v) ∧
      ∀ w, IsTag (r :: rs) (tagPrefix ++ w) → Earlier v w) ∨
    ((∀ w, ¬IsTag (r :: rs) (tagPrefix ++ w)) ∧ fromExpanded (refText r rs) full tagPrefix = some ⟨full, full⟩) := by
  obtain ⟨h1, h2⟩ := refsOf_text r rs hr h
  have h3 : stripWith isWhite full = full := stripWith_id _ _
    (fun c hc => hf c (List.mem_of_mem_head? hc)) (fun c hc => hf c (List.mem_of_mem_getLast? hc))
  unfold fromExpanded
  rw [h2, h1, h3, if_neg (by simp [List.isPrefixOf])]
  cases hx : (sortTexts (tagsOf (r :: rs))).find? (tagPrefix.isPrefixOf ·) with
  | some t =>
    left
    obtain ⟨hm, hp, hmin⟩ := find_sorted _ _ _ hx
    obtain ⟨v, rfl⟩ := List.isPrefixOf_iff_prefix.1 hp
    refine ⟨v, by simp, (mem_tagsOf _ _).1 hm, fun w hw => ?_⟩
    have := hmin _ ((mem_tagsOf _ _).2 hw) (List.isPrefixOf_iff_prefix.2 ⟨w, rfl⟩)
    rw [leText_prefix] at this
    exact (leText_iff _ _).1 this
  | none =>
    right
    refine ⟨fun w hw => ?_, rfl⟩
    have := List.find?_eq_none.1 hx _ ((mem_sortTexts _ _).2 ((mem_tagsOf _ _).2 hw))
    exact this (List.isPrefixOf_iff_prefix.2 ⟨w, rfl⟩)

/-- C175: a release is preferred to its candidates: a version is not reported if there is a tag for a beginning of it. -/
theorem C175_release (r : List Char) (rs : List (List Char)) (hr : Name r) (h : ∀ x ∈ rs, Name x) (full tagPrefix : List Char)
    (hf : ∀ c ∈ full, isWhite c = false) (v s : List Char) (hs : s ≠ []) (hv : IsTag (r :: rs) (tagPrefix ++ v)) :
    ∃ u, fromExpanded (refText r rs) full tagPrefix = some ⟨u, full⟩ ∧ u ≠ v ++ s := by
  rcases C175_tagged r rs hr h full tagPrefix hf with ⟨u, h1, -, h3⟩ | ⟨h1, -⟩
  · refine ⟨u, h1, ?_⟩
    rintro rfl
    have h4 := (leText_iff _ _).2 (h3 v hv)
    have h5 : leText v (v ++ s) = true := (leText_iff _ _).2 (.inl ⟨s, rfl⟩)
    have := leText_antisymm _ _ h4 h5
    simp [hs] at this
  · exact absurd hv (h1 v)

/-- C175: the order in which git lists the names does not matter. -/
theorem C175_order (r r' : List Char) (rs rs' : List (List Char)) (hr : Name r) (h : ∀ x ∈ rs, Name x) (hr' : Name r')
    (h' : ∀ x ∈ rs', Name x) (hm : ∀ x, x ∈ r :: rs ↔ x ∈ r' :: rs') (full tagPrefix : List Char)
    (hf : ∀ c ∈ full, isWhite c = false) :
    fromExpanded (refText r rs) full tagPrefix = fromExpanded (refText r' rs') full tagPrefix := by
  have ht : ∀ t, IsTag (r :: rs) t ↔ IsTag (r' :: rs') t := fun t => by unfold IsTag; simp only [hm]
  rcases C175_tagged r rs hr h full tagPrefix hf with ⟨v, h1, h2, h3⟩ | ⟨h1, h2⟩ <;>
    rcases C175_tagged r' rs' hr' h' full tagPrefix hf with ⟨v', h1', h2', h3'⟩ | ⟨h1', h2'⟩
  · have := leText_antisymm v v' ((leText_iff _ _).2 (h3 v' ((ht _).2 h2'))) ((leText_iff _ _).2 (h3' v ((ht _).1 h2)))
    rw [h1, h1', this]
  · exact absurd ((ht _).1 h2) (h1' v)
  · exact absurd ((ht _).2 h2') (h1 v')
  · rw [h2, h2']

/-- C175: the library as it is shipped reports the id of the commit it was taken from, wherever it lies. -/
theorem C175_shipped (place : Option Place) : libVersion place = "78eed00dbf36c701919087e3e189a2824c6f3fff".toList := by
  have hn : ∀ x ∈ ["HEAD".toList, "master".toList], Name x := by
    intro x hx
    simp only [List.mem_cons, List.not_mem_nil, or_false] at hx
    rcases hx with rfl | rfl <;>
      exact ⟨by decide, by decide, fun c hc => by cases hc; decide, fun c hc => by
        have := Option.some.inj hc
        subst this
        decide⟩
  have e : gitRefnames = refText "HEAD".toList ["master".toList] := by decide
  unfold libVersion getVersions
  rw [e]
  rcases C175_tagged "HEAD".toList ["master".toList] (hn _ (by simp)) (fun x hx => hn x (by simp at hx; simp [hx])) gitFull
      "python-ecdsa-".toList (by decide) with ⟨v, -, h2, -⟩ | ⟨-, h2⟩
  · exfalso
    rcases h2 with h2 | ⟨-, h2, -⟩ <;>
    · simp only [List.mem_cons, List.not_mem_nil, or_false] at h2
      rcases h2 with h2 | h2 <;> · have := congrArg List.head? h2; simp at this
  · rw [h2]
    rfl

/-- C175: if git did not fill in the names, a working copy reports what `git describe` says after the prefix, and an id
that tells if it was changed. -/
theorem C175_working_copy (refnames full : List Char) (hr : "$Format".toList <+: stripWith isWhite refnames) (dflt : Versions)
    (p : Place) (hg : p.git = true) (v id : List Char)
    (hd : runCommand p.describe = some ("python-ecdsa-".toList ++ v)) (hi : runCommand p.revParse = some id) :
    (getVersions refnames full dflt (some p)).version = v ∧
    ((∃ u, v = u ++ "-dirty".toList) → (getVersions refnames full dflt (some p)).full = stripWith isWhite id ++ "-dirty".toList) ∧
    ((¬∃ u, v = u ++ "-dirty".toList) → (getVersions refnames full dflt (some p)).full = stripWith isWhite id) := by
  have hv : fromVcs "python-ecdsa-".toList p.git p.describe p.revParse = some ⟨v,
      if endsWith v "-dirty".toList then stripWith isWhite id ++ "-dirty".toList else stripWith isWhite id⟩ := by
    unfold fromVcs
    rw [if_neg (by simp [hg]), hd]
    simp only
    rw [if_neg (by rw [not_not]; exact List.isPrefixOf_iff_prefix.2 ⟨v, rfl⟩), hi]
    simp
  have hw : endsWith v "-dirty".toList = true ↔ ∃ u, v = u ++ "-dirty".toList := by
    unfold endsWith
    rw [List.isPrefixOf_iff_prefix]
    constructor
    · rintro ⟨w, hw⟩
      refine ⟨w.reverse, ?_⟩
      rw [← List.reverse_reverse v, ← hw]
      simp
    · rintro ⟨u, rfl⟩
      exact ⟨u.reverse, by simp⟩
  have he : getVersions refnames full dflt (some p) = ⟨v,
      if endsWith v "-dirty".toList then stripWith isWhite id ++ "-dirty".toList else stripWith isWhite id⟩ := by
    unfold getVersions fromExpanded
    rw [if_pos (List.isPrefixOf_iff_prefix.2 hr)]
    simp only
    rw [hv]
  rw [he]
  exact ⟨rfl, fun h => by simp only [hw.2 h, if_true], fun h => by
    simp only [(show endsWith v "-dirty".toList = false by rw [← Bool.not_eq_true, hw]; exact h), Bool.false_eq_true, if_false]⟩

/-- C175: and otherwise the name of the directory is asked, and at last the default given. -/
theorem C175_unpacked (refnames full : List Char) (hr : "$Format".toList <+: stripWith isWhite refnames) (dflt : Versions)
    (p : Place) (hg : p.git = false ∨ runCommand p.describe = none ∨ runCommand p.revParse = none ∨
      ∃ out, runCommand p.describe = some out ∧ ¬"python-ecdsa-".toList <+: out) :
    (∀ v, p.dirname = "ecdsa-".toList ++ v → getVersions refnames full dflt (some p) = ⟨v, []⟩) ∧
    ((¬∃ v, p.dirname = "ecdsa-".toList ++ v) → getVersions refnames full dflt (some p) = dflt) ∧
    getVersions refnames full dflt none = dflt := by
  have hv : fromVcs "python-ecdsa-".toList p.git p.describe p.revParse = none := by
    unfold fromVcs
    rcases hg with h | h | h | ⟨out, h, hn⟩
    · rw [if_pos (by simp [h])]
    · split
      · rfl
      · rw [h]
    · split
      · rfl
      · split
        · rfl
        · split
          · rfl
          · simp [h]
    · split
      · rfl
      · rw [h]
        simp only
        rw [if_pos (fun h' => hn (List.isPrefixOf_iff_prefix.1 h'))]
  have he : fromExpanded refnames full "python-ecdsa-".toList = none := by
    unfold fromExpanded
    rw [if_pos (List.isPrefixOf_iff_prefix.2 hr)]
  unfold getVersions
  rw [he]
  simp only [hv]
  refine ⟨fun v h => ?_, fun h => ?_, trivial⟩
  · rw [h]
    unfold fromParentdir
    rw [if_neg (by rw [not_not]; exact List.isPrefixOf_iff_prefix.2 ⟨v, rfl⟩)]
    simp
  · unfold fromParentdir
    rw [if_pos]
    intro hp
    obtain ⟨v, hv⟩ := List.isPrefixOf_iff_prefix.1 hp
    exact h ⟨v, hv.symm⟩

/-- `run_command` gives the output of the first command that exists, if it succeeds. -/
theorem C175_commands (names : Nat) (out : List Char) (code : Int) (rest : List Started) :
    runCommand (List.replicate names .absent ++ .ran out code :: rest) = (if code = 0 then some (stripWith isWhite out) else none) ∧
    runCommand (List.replicate names .absent ++ .denied :: rest) = none ∧ runCommand (List.replicate names .absent) = none := by
  induction names with
  | zero => simp [runCommand]
  | succ k ih => simpa [List.replicate_succ, runCommand] using ih

/-- A release, a candidate for it and a branch at one commit; names without a tag; a working copy that was changed. -/
example :
    fromExpanded " (HEAD, tag: python-ecdsa-0.11rc1, tag: python-ecdsa-0.11, master)".toList "ab12".toList "python-ecdsa-".toList =
      some ⟨"0.11".toList, "ab12".toList⟩ ∧
    fromExpanded " (HEAD, python-ecdsa-0.9, release)".toList "ab12".toList "python-ecdsa-".toList =
      some ⟨"0.9".toList, "ab12".toList⟩ ∧
    getVersions "$Format:%d$".toList "$Format:%H$".toList ⟨"unknown".toList, []⟩ (some ⟨"src".toList, true,
      [.absent, .ran "python-ecdsa-0.11-2-gab12-dirty\n".toList 0], [.ran "ab12\n".toList 0]⟩) =
      ⟨"0.11-2-gab12-dirty".toList, "ab12-dirty".toList⟩ ∧
    getVersions "$Format:%d$".toList "$Format:%H$".toList ⟨"unknown".toList, []⟩ (some ⟨"ecdsa-0.11".toList, false, [], []⟩) =
      ⟨"0.11".toList, []⟩ := by
  decide +kernel

/-- Names as `C175_tagged`, `C175_release` and `C175_order` ask for, with a tag for a release and one for its candidate, in two
orders. -/
example : (∀ x ∈ ["HEAD".toList, "tag: python-ecdsa-0.11rc1".toList, "tag: python-ecdsa-0.11".toList], Name x) ∧
    IsTag ["HEAD".toList, "tag: python-ecdsa-0.11rc1".toList, "tag: python-ecdsa-0.11".toList] ("python-ecdsa-".toList ++ "0.11".toList) ∧
    fromExpanded (refText "HEAD".toList ["tag: python-ecdsa-0.11rc1".toList, "tag: python-ecdsa-0.11".toList]) "ab12".toList
      "python-ecdsa-".toList = some ⟨"0.11".toList, "ab12".toList⟩ ∧
    fromExpanded (refText "tag: python-ecdsa-0.11".toList ["tag: python-ecdsa-0.11rc1".toList, "HEAD".toList]) "ab12".toList
      "python-ecdsa-".toList = some ⟨"0.11".toList, "ab12".toList⟩ := by
  refine ⟨?_, .inl (by decide +kernel), by decide +kernel, by decide +kernel⟩
  intro x hx
  simp only [List.mem_cons, List.not_mem_nil, or_false] at hx
  rcases hx with rfl | rfl | rfl <;>
    exact ⟨by decide, by decide, fun c hc => by cases hc; decide, fun c hc => by
      have := Option.some.inj hc
      subst this
      decide⟩

end NBC.Props
