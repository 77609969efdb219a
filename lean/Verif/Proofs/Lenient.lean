import Verif.Proofs.Reading
import Verif.Proofs.IpText
import Verif.Spec.Lenient

/-!
# Reading texts that may be cut off at the end
-/

namespace NBC.Proto
open NBC.Spec NBC.Spec.Wire NBC.Spec.Reading NBC.Spec.Lenient

/-- The type `T` reads the texts of `L` and nothing else. -/
structure Exact (T : FType) (L : LType) : Prop where
  reads : Reads T L.full
  pos : ∀ b v, L.full b v → b ≠ []
  cuts : ∀ b v, L.cut b v → ∃ l, b.length ≤ l ∧ T.parse b = .ok (l, v)
  only : ∀ data l v, T.parse data = .ok (l, v) → Front L.full data l v ∨ (L.cut data v ∧ data.length ≤ l)

/-- From nothing only what is cut off can be read. -/
theorem Exact.nothing {T : FType} {L : LType} (h : Exact T L) {l : Nat} {v : Val}
    (hp : T.parse [] = .ok (l, v)) : L.cut [] v := by
  rcases h.only _ _ _ hp with ⟨b, rest, hd, -, hv⟩ | ⟨hc, -⟩
  · exact absurd (List.append_eq_nil_iff.1 hd.symm).1 (h.pos _ _ hv)
  · exact hc

theorem exact_whole {T : FType} {R : RType} (h1 : Reads T R) (h2 : Sound T R) (h3 : ∀ b v, R b v → b ≠ []) :
    Exact T (whole R) :=
  ⟨h1, h3, fun _ _ h => h.elim, fun _ _ _ h => .inl (h2 _ _ _ h)⟩

theorem rNumber_pos (f : Fmt) (big : Bool) {b : Bytes} {v : Val} (h : rNumber f big b v) : b ≠ [] := by
  obtain ⟨i, -, rfl, -⟩ := h
  intro h0
  have := congrArg List.length h0
  rw [numBytes_length] at this
  cases f <;> simp [Fmt.size] at this

theorem number_exact (f : Fmt) (big af : Bool) : Exact (ftNumber f big af) (lNumber f big) :=
  exact_whole (number_reads f big af) (number_sound f big af) (fun _ _ => rNumber_pos f big)

theorem readSize_pos {n : Nat} {b : Bytes} (h : readSize n b) : b ≠ [] := by
  rcases h with ⟨-, -, -, rfl⟩ | ⟨-, rfl⟩ | ⟨-, rfl⟩ <;> simp

theorem size_exact : Exact ftVarInteger (lSize readSize) :=
  exact_whole (size_reads readSize_ok) size_sound (by rintro b v ⟨n, hn, -⟩; exact readSize_pos hn)

theorem bytes_exact (n : Nat) (hn : 0 < n) : Exact (ftBytes n) (lBytes n) where
  reads := bytes_reads n
  pos := by rintro b v ⟨hb, -⟩ rfl; simp at hb; omega
  cuts := by
    rintro b v ⟨hb, rfl⟩
    refine ⟨n, hb.le, ?_⟩
    simp only [ftBytes]
    rw [List.take_of_length_le hb.le]
  only := by
    intro data l v h
    simp only [ftBytes, Except.ok.injEq, Prod.mk.injEq] at h
    obtain ⟨rfl, rfl⟩ := h
    by_cases hl : data.length < n
    · exact .inr ⟨⟨hl, by rw [List.take_of_length_le hl.le]⟩, hl.le⟩
    · have ht : (data.take n).length = n := by rw [List.length_take]; omega
      exact .inl ⟨data.take n, data.drop n, (List.take_append_drop _ _).symm, ht.symm, ht, rfl⟩

theorem string_exact : Exact ftVarString (lString readSize) where
  reads := string_reads readSize_ok
  pos := by
    rintro b v ⟨p, s, hs, rfl, -⟩ h
    exact readSize_pos hs (List.append_eq_nil_iff.1 h).1
  cuts := by
    rintro b v ⟨n, p, s, hn, hs, rfl, rfl⟩
    refine ⟨(p ++ s).length, le_refl _, ?_⟩
    simp only [ftVarString, varStringParse]
    rw [readSize_ok _ _ hn, ok_bind]
    simp only [Int.toNat_natCast]
    rw [List.drop_left' rfl, List.take_of_length_le hs.le, List.length_append, ok_bind]
  only := by
    intro data l v h
    simp only [ftVarString, varStringParse, bind_ok_iff] at h
    obtain ⟨⟨l', s⟩, ⟨⟨pl, i⟩, h1, h2⟩, h⟩ := h
    simp only [Except.ok.injEq, Prod.mk.injEq] at h h2
    obtain ⟨rfl, rfl⟩ := h
    obtain ⟨rfl, rfl⟩ := h2
    obtain ⟨n, p, rest, rfl, rfl, rfl, hs⟩ := varIntParse_sound h1
    rw [List.drop_left' rfl, Int.toNat_natCast]
    by_cases hl : rest.length < n
    · rw [List.take_of_length_le hl.le]
      exact .inr ⟨⟨n, p, rest, hs, hl, rfl, rfl⟩, by rw [List.length_append]⟩
    · have ht : (rest.take n).length = n := by rw [List.length_take]; omega
      exact .inl ⟨p ++ rest.take n, rest.drop n, by rw [List.append_assoc, List.take_append_drop],
        by rw [List.length_append], p, rest.take n, by rw [ht]; exact hs, rfl, rfl⟩

theorem flag_exact : Exact (ftOptional (ftNumber .B) (.int 1)) lFlag where
  reads := by
    intro b v h rest
    simp only [ftOptional, number_reads .B false false b v h rest]
  pos := fun _ _ => rNumber_pos .B false
  cuts := by
    rintro b v ⟨rfl, rfl⟩
    exact ⟨0, le_refl _, rfl⟩
  only := by
    intro data l v h
    cases hp : (ftNumber .B).parse data with
    | ok r =>
      simp only [ftOptional, hp, Except.ok.injEq] at h
      subst h
      exact .inl (number_sound .B false false _ _ _ hp)
    | error e =>
      simp only [ftOptional, hp, Except.ok.injEq, Prod.mk.injEq] at h
      obtain ⟨rfl, rfl⟩ := h
      cases data with
      | nil => exact .inr ⟨⟨rfl, rfl⟩, le_refl _⟩
      | cons x t =>
        exfalso
        obtain ⟨i, hi', -⟩ := unpack_inRange (f := .B) (big := false) (d := (x :: t).take 1) rfl
        simp only [ftNumber, Fmt.size, hi', ok_bind] at hp
        cases hp

/-! ### Arrays -/

/-- Past the end all items are what is read from nothing. -/
theorem loop_nothing {T : FType} {L : LType} (hT : Exact T L) {data : Bytes} {n off o : Nat} {vs : List Val}
    (ho : data.length ≤ off) (h : varSetLoop T data n off = .ok (o, vs)) :
    vs.length = n ∧ ∀ m ∈ vs, L.cut [] m := by
  induction n generalizing off o vs with
  | zero =>
    simp only [varSetLoop, Except.ok.injEq, Prod.mk.injEq] at h
    obtain ⟨rfl, rfl⟩ := h
    exact ⟨rfl, by simp⟩
  | succ n ih =>
    simp only [varSetLoop, bind_ok_iff] at h
    obtain ⟨⟨l, v⟩, h1, ⟨o', vs'⟩, h2, h⟩ := h
    simp only [Except.ok.injEq, Prod.mk.injEq] at h
    obtain ⟨rfl, rfl⟩ := h
    rw [List.drop_eq_nil_of_le ho] at h1
    obtain ⟨ih1, ih2⟩ := ih (by simp only; omega) h2
    refine ⟨by simp [ih1], ?_⟩
    intro m hm
    rcases List.mem_cons.1 hm with rfl | hm
    · exact hT.nothing h1
    · exact ih2 m hm

theorem loop_missing {T : FType} {L : LType} (hT : Exact T L) {data : Bytes} {off : Nat} (ms : List Val)
    (ho : data.length ≤ off) (h : ∀ m ∈ ms, L.cut [] m) :
    ∃ o, off ≤ o ∧ varSetLoop T data ms.length off = .ok (o, ms) := by
  induction ms generalizing off with
  | nil => exact ⟨off, le_refl _, rfl⟩
  | cons m ms ih =>
    obtain ⟨l, -, hl⟩ := hT.cuts _ _ (h m (by simp))
    obtain ⟨o, ho', h2⟩ := ih (off := off + l) (by omega) (fun x hx => h x (by simp [hx]))
    refine ⟨o, by omega, ?_⟩
    simp only [List.length_cons, varSetLoop]
    rw [List.drop_eq_nil_of_le ho, hl, ok_bind]
    simp only
    rw [h2, ok_bind]

theorem loop_cut {T : FType} {L : LType} (hT : Exact T L) (items : List (Bytes × Val)) (c : Bytes) (w : Val)
    (ms : List Val) (h : ∀ t ∈ items, L.full t.1 t.2) (hc : L.cut c w) (hm : ∀ m ∈ ms, L.cut [] m) (pre : Bytes) :
    ∃ o, (pre ++ ((items.map (·.1)).flatten ++ c)).length ≤ o ∧
      varSetLoop T (pre ++ ((items.map (·.1)).flatten ++ c)) (items.length + 1 + ms.length) pre.length =
        .ok (o, items.map (·.2) ++ w :: ms) := by
  induction items generalizing pre with
  | nil =>
    obtain ⟨l, hl, hp⟩ := hT.cuts _ _ hc
    obtain ⟨o, ho, h2⟩ := loop_missing hT (data := pre ++ c) (off := pre.length + l) ms (by
      rw [List.length_append]; omega) hm
    refine ⟨o, by simp only [List.map_nil, List.flatten_nil, List.nil_append, List.length_append]; omega, ?_⟩
    simp only [List.map_nil, List.flatten_nil, List.nil_append, List.length_nil, Nat.zero_add]
    rw [Nat.add_comm, varSetLoop, List.drop_left' rfl, hp, ok_bind]
    simp only
    rw [h2, ok_bind]
  | cons t ts ih =>
    obtain ⟨o, ho, h2⟩ := ih (fun x hx => h x (by simp [hx])) (pre ++ t.1)
    simp only [List.append_assoc] at ho h2
    refine ⟨o, by simpa only [List.map_cons, List.flatten_cons, List.append_assoc] using ho, ?_⟩
    have e : (t :: ts).length + 1 + ms.length = (ts.length + 1 + ms.length) + 1 := by
      rw [List.length_cons]; omega
    rw [e]
    simp only [varSetLoop, List.map_cons, List.flatten_cons]
    rw [List.drop_left' rfl, List.append_assoc, hT.reads _ _ (h t (by simp)), ok_bind]
    simp only
    rw [List.length_append] at h2
    rw [h2, ok_bind]
    rfl

theorem loop_exact {T : FType} {L : LType} (hT : Exact T L) (n : Nat) (pre d : Bytes) {o : Nat}
    {vs : List Val} (h : varSetLoop T (pre ++ d) n pre.length = .ok (o, vs)) :
    (∃ items : List (Bytes × Val), ∃ rest, items.length = n ∧ (∀ t ∈ items, L.full t.1 t.2) ∧
      d = (items.map (·.1)).flatten ++ rest ∧ o = pre.length + (items.map (·.1)).flatten.length ∧
      vs = items.map (·.2)) ∨
    (∃ (items : List (Bytes × Val)) (c : Bytes) (w : Val) (ms : List Val),
      n = items.length + 1 + ms.length ∧ (∀ t ∈ items, L.full t.1 t.2) ∧ L.cut c w ∧ (∀ m ∈ ms, L.cut [] m) ∧
      d = (items.map (·.1)).flatten ++ c ∧ vs = items.map (·.2) ++ w :: ms ∧ (pre ++ d).length ≤ o) := by
  induction n generalizing pre d o vs with
  | zero =>
    simp only [varSetLoop, Except.ok.injEq, Prod.mk.injEq] at h
    obtain ⟨rfl, rfl⟩ := h
    exact .inl ⟨[], d, rfl, by simp, by simp, by simp, rfl⟩
  | succ n ih =>
    simp only [varSetLoop, bind_ok_iff] at h
    obtain ⟨⟨l, v⟩, h1, ⟨o', vs'⟩, h2, h⟩ := h
    simp only [Except.ok.injEq, Prod.mk.injEq] at h
    obtain ⟨rfl, rfl⟩ := h
    rw [List.drop_left' rfl] at h1
    rcases hT.only _ _ _ h1 with ⟨b, rest, rfl, rfl, hr⟩ | ⟨hc, hl⟩
    · simp only at h2
      rw [← List.append_assoc, ← List.length_append] at h2
      have mem : ∀ {items : List (Bytes × Val)}, (∀ t ∈ items, L.full t.1 t.2) →
          ∀ t ∈ (b, v) :: items, L.full t.1 t.2 := by
        intro items hi' t ht
        rcases List.mem_cons.1 ht with rfl | ht
        · exact hr
        · exact hi' t ht
      rcases ih (pre ++ b) rest h2 with ⟨items, rest', hn, hi', rfl, ho, rfl⟩ |
        ⟨items, c, w, ms, hn, hi', hc, hm, rfl, rfl, ho⟩
      · exact .inl ⟨(b, v) :: items, rest', by simp [hn], mem hi', by simp, by rw [ho]; simp [Nat.add_assoc], rfl⟩
      · exact .inr ⟨(b, v) :: items, c, w, ms, by rw [hn, List.length_cons]; omega, mem hi', hc, hm, by simp,
          rfl, by simpa only [List.append_assoc] using ho⟩
    · have hle : (pre ++ d).length ≤ pre.length + l := by rw [List.length_append]; omega
      obtain ⟨h3, h4⟩ := loop_nothing hT hle h2
      refine .inr ⟨[], d, v, vs', by simp [h3, Nat.add_comm], by simp, hc, h4, by simp, rfl, ?_⟩
      exact hle.trans (loop_ge h2)

theorem array_exact {T : FType} {L : LType} (hT : Exact T L) (a c : Option Nat) :
    Exact (ftArray T a c) (lArray readSize L) where
  reads := array_reads readSize_ok hT.reads a c
  pos := by
    rintro b v ⟨p, items, hs, -, rfl, -⟩ h
    exact readSize_pos hs (List.append_eq_nil_iff.1 h).1
  cuts := by
    rintro b v ⟨p, items, c', w, ms, hs, hi', hc, hm, rfl, rfl⟩
    obtain ⟨o, ho, h⟩ := loop_cut hT items c' w ms hi' hc hm p
    refine ⟨o, ho, ?_⟩
    simp only [ftArray, parseVarSet]
    rw [readSize_ok _ _ hs, ok_bind]
    simp only [Int.toNat_natCast]
    rw [h, ok_bind]
  only := by
    intro data l v h
    obtain ⟨n, p, rest, vs, rfl, hs, rfl, hl⟩ := array_inv h
    rcases loop_exact hT n p rest hl with ⟨items, rest', rfl, hi', rfl, ho, rfl⟩ |
      ⟨items, c', w, ms, rfl, hi', hc, hm, rfl, rfl, ho⟩
    · exact .inl ⟨p ++ (items.map (·.1)).flatten, rest', by simp, by rw [ho, List.length_append], p, items, hs,
        hi', rfl, rfl⟩
    · exact .inr ⟨⟨p, items, c', w, ms, hs, hi', hc, hm, rfl, rfl⟩, ho⟩

/-! ### Fields -/

inductive ExactAll : Props → List (String × LType) → Prop
  | nil : ExactAll [] []
  | cons {k : String} {T : FType} {L : LType} {ps : Props} {ls : List (String × LType)} :
      Exact T L → ExactAll ps ls → ExactAll ((k, T) :: ps) ((k, L) :: ls)

theorem ExactAll.reads {ps : Props} {ls : List (String × LType)} (h : ExactAll ps ls) : ReadAll ps (fulls ls) := by
  induction h with
  | nil => exact .nil
  | cons hT _ ih => exact .cons hT.reads ih

theorem fields_nothing {ps : Props} {ls : List (String × LType)} (hr : ExactAll ps ls) {data : Bytes} {off o : Nat}
    {vs : List (String × Val)} (ho : data.length ≤ off) (h : parseFields data ps off = .ok (o, vs)) :
    nothing ls vs := by
  induction hr generalizing off o vs with
  | nil =>
    simp only [parseFields, Except.ok.injEq, Prod.mk.injEq] at h
    exact h.2.symm
  | cons hT _ ih =>
    obtain ⟨l, v, ts, h1, h2, rfl⟩ := parseFields_step h
    rw [List.drop_eq_nil_of_le ho] at h1
    exact ⟨v, ts, hT.nothing h1, ih (by omega) h2, rfl⟩

theorem fields_missing {ps : Props} {ls : List (String × LType)} (hr : ExactAll ps ls) {data : Bytes} {off : Nat}
    {vs : List (String × Val)} (ho : data.length ≤ off) (h : nothing ls vs) :
    ∃ o, off ≤ o ∧ parseFields data ps off = .ok (o, vs) := by
  induction hr generalizing off vs with
  | nil => cases h; exact ⟨off, le_refl _, rfl⟩
  | cons hT _ ih =>
    obtain ⟨v, ts, hv, hn, rfl⟩ := h
    obtain ⟨l, -, hl⟩ := hT.cuts _ _ hv
    obtain ⟨o, ho', h2⟩ := ih (off := off + l) (by omega) hn
    refine ⟨o, by omega, ?_⟩
    simp only [parseFields]
    rw [List.drop_eq_nil_of_le ho, hl]
    simp only
    rw [h2, ok_bind]

theorem fields_cut {ps : Props} {ls : List (String × LType)} (hr : ExactAll ps ls) {b : Bytes}
    {vs : List (String × Val)} (h : cutFields ls b vs) (pre : Bytes) :
    ∃ o, (pre ++ b).length ≤ o ∧ parseFields (pre ++ b) ps pre.length = .ok (o, vs) := by
  induction hr generalizing b vs pre with
  | nil => exact h.elim
  | cons hT hr ih =>
    rcases h with ⟨b₁, v, b₂, ts, h1, h2, rfl, rfl⟩ | ⟨v, ts, h1, h2, rfl⟩
    · obtain ⟨o, ho, h3⟩ := ih h2 (pre ++ b₁)
      rw [List.append_assoc] at ho h3
      refine ⟨o, ho, ?_⟩
      simp only [parseFields]
      rw [List.drop_left' rfl, hT.reads _ _ h1]
      simp only
      rw [List.length_append] at h3
      rw [h3, ok_bind]
    · obtain ⟨l, hl, hp⟩ := hT.cuts _ _ h1
      obtain ⟨o, ho, h3⟩ := fields_missing hr (data := pre ++ b) (off := pre.length + l) (by
        rw [List.length_append]; omega) h2
      refine ⟨o, by rw [List.length_append]; omega, ?_⟩
      simp only [parseFields]
      rw [List.drop_left' rfl, hp]
      simp only
      rw [h3, ok_bind]

theorem fields_exact {ps : Props} {ls : List (String × LType)} (hr : ExactAll ps ls) (pre d : Bytes) {o : Nat}
    {vs : List (String × Val)} (h : parseFields (pre ++ d) ps pre.length = .ok (o, vs)) :
    (∃ b rest, d = b ++ rest ∧ o = pre.length + b.length ∧ rFields (fulls ls) b vs) ∨
      (cutFields ls d vs ∧ (pre ++ d).length ≤ o) := by
  induction hr generalizing pre d o vs with
  | nil =>
    simp only [parseFields, Except.ok.injEq, Prod.mk.injEq] at h
    obtain ⟨rfl, rfl⟩ := h
    exact .inl ⟨[], d, rfl, rfl, rfl, rfl⟩
  | cons hT hr ih =>
    obtain ⟨l, v, ts, h1, h2, rfl⟩ := parseFields_step h
    rw [List.drop_left' rfl] at h1
    rcases hT.only _ _ _ h1 with ⟨b, rest, rfl, rfl, hv⟩ | ⟨hc, hl⟩
    · rw [← List.append_assoc, ← List.length_append] at h2
      rcases ih (pre ++ b) rest h2 with ⟨b', rest', rfl, ho, hf⟩ | ⟨hc, hl⟩
      · exact .inl ⟨b ++ b', rest', by simp, by rw [ho]; simp [Nat.add_assoc], b, v, b', ts, hv, hf, rfl, rfl⟩
      · exact .inr ⟨.inl ⟨b, v, rest, ts, hv, hc, rfl, rfl⟩, by rwa [List.append_assoc] at hl⟩
    · have hle : (pre ++ d).length ≤ pre.length + l := by rw [List.length_append]; omega
      exact .inr ⟨.inr ⟨v, ts, hc, fields_nothing hr hle h2, rfl⟩, hle.trans (parseFields_ge h2)⟩

theorem fields_pos {ps : Props} {ls : List (String × LType)} (h : ExactAll ps ls) (hne : ls ≠ []) {b : Bytes}
    {vs : List (String × Val)} (hf : rFields (fulls ls) b vs) : b ≠ [] := by
  rintro rfl
  cases h with
  | nil => exact hne rfl
  | cons hT _ =>
    obtain ⟨b₁, v, b₂, ts, h1, -, hb, -⟩ := hf
    exact hT.pos _ _ h1 (List.append_eq_nil_iff.1 hb.symm).1

theorem object_exact {c : Cls} {ls : List (String × LType)} (h : ExactAll c.props ls) (hne : ls ≠ []) :
    Exact (ftCompound c) (lObject c.name ls) where
  reads := object_reads h.reads
  pos := by
    rintro b v ⟨vs, hf, -⟩
    exact fields_pos h hne hf
  cuts := by
    rintro b v ⟨vs, hf, rfl⟩
    obtain ⟨o, ho, h2⟩ := fields_cut h hf []
    refine ⟨o, by simpa using ho, ?_⟩
    simp only [List.nil_append, List.length_nil] at h2
    simp only [ftCompound, Cls.parse, h2, ok_bind]
  only := by
    intro data l v hp
    obtain ⟨vs, h1, rfl⟩ := object_inv hp
    rcases fields_exact h [] data h1 with ⟨b, rest, hd, ho, hf⟩ | ⟨hc, hl⟩
    · exact .inl ⟨b, rest, hd, by simpa using ho, vs, hf, rfl⟩
    · exact .inr ⟨⟨vs, hc, rfl⟩, by simpa using hl⟩

/-! ### Addresses -/

theorem ip_reads : Reads ftIPAddress rIp := by
  rintro b v ⟨hb, rfl⟩ rest
  simp only [ftIPAddress, ipParse_text hb, ok_bind, hb]

theorem ip_sound : Sound ftIPAddress rIp := by
  intro data l v h
  simp only [ftIPAddress, bind_ok_iff] at h
  obtain ⟨⟨n, s⟩, h1, h⟩ := h
  simp only [Except.ok.injEq, Prod.mk.injEq] at h
  obtain ⟨rfl, rfl⟩ := h
  have hl : 16 ≤ data.length := by
    unfold ipParse at h1
    split at h1
    · simp only at h1
      split at h1
      · cases h1
      · rename_i h4
        simp only [List.length_take, List.length_drop] at h4
        omega
    · simp only at h1
      split at h1
      · cases h1
      · rename_i h4
        simp only [List.length_take] at h4
        omega
  have h16 : (data.take 16).length = 16 := by rw [List.length_take]; omega
  have := ipParse_text h16 (data.drop 16)
  rw [List.take_append_drop, h1] at this
  simp only [Except.ok.injEq, Prod.mk.injEq] at this
  obtain ⟨rfl, rfl⟩ := this
  exact ⟨data.take 16, data.drop 16, (List.take_append_drop _ _).symm, h16.symm, h16, rfl⟩

theorem rIp_pos {b : Bytes} {v : Val} (h : rIp b v) : b ≠ [] := by
  rintro rfl
  simp [rIp] at h

theorem address_sound : Sound ftNetworkAddress (rObject "NetworkAddress" (fulls (("timestamp", lU32) :: endpoint))) :=
  object_sound (c := networkAddress) (.cons (number_sound .I false true) (.cons (number_sound .Q false false)
    (.cons ip_sound (.cons (number_sound .H true false) .nil))))

theorem address_reads : Reads ftNetworkAddress (rObject "NetworkAddress" (fulls (("timestamp", lU32) :: endpoint))) :=
  object_reads (c := networkAddress) (.cons (number_reads .I false true) (.cons (number_reads .Q false false)
    (.cons ip_reads (.cons (number_reads .H true false) .nil))))

theorem address_exact : Exact ftNetworkAddress lAddress :=
  object_exact (c := networkAddress) (.cons (number_exact .I false true) (.cons (number_exact .Q false false)
    (.cons (exact_whole ip_reads ip_sound (fun _ _ => rIp_pos)) (.cons (number_exact .H true false) .nil))))
    (by simp)

theorem endpoint_exact : Exact ftNetworkAddressNoTimestamp lEndpoint := by
  refine exact_whole ?_ ?_ ?_
  · rintro b v ⟨vs, hf, rfl⟩ rest
    have h := address_reads ([0, 0, 0, 0] ++ b) (.obj "NetworkAddress" (("timestamp", .int 0) :: vs))
      ⟨_, ⟨[0, 0, 0, 0], .int 0, b, vs, ⟨0, by unfold inRange lo hi; decide, by decide, rfl⟩, hf, rfl, rfl⟩, rfl⟩ rest
    rw [List.append_assoc] at h
    simp only [ftNetworkAddressNoTimestamp, h, ok_bind, List.length_append, List.length_cons, List.length_nil]
    simp
  · intro data l v h
    simp only [ftNetworkAddressNoTimestamp, bind_ok_iff] at h
    obtain ⟨⟨vl, obj⟩, h1, h⟩ := h
    simp only [Except.ok.injEq, Prod.mk.injEq] at h
    obtain ⟨rfl, rfl⟩ := h
    obtain ⟨b, rest, hd, rfl, vs, ⟨b₁, w, b₂, ts, ⟨i, hi', rfl, rfl⟩, hf, rfl, rfl⟩, rfl⟩ :=
      address_sound _ _ _ h1
    rw [List.append_assoc] at hd
    have hlen : ([0, 0, 0, 0] : Bytes).length = (numBytes .I false i).length := by rw [numBytes_length]; rfl
    obtain ⟨h4, rfl⟩ := List.append_inj hd hlen
    have h0 := unpack_numBytes_take (f := .I) (big := false) hi' []
    rw [← h4] at h0
    have h0' : unpack .I false (([0, 0, 0, 0] ++ [] : Bytes).take (Fmt.size .I)) = .ok 0 := by decide +kernel
    rw [h0'] at h0
    injection h0 with h0
    subst h0
    refine ⟨b₂, rest, rfl, ?_, ts, hf, rfl⟩
    simp only [List.length_append, numBytes_length]
    simp [Fmt.size]
  · rintro b v ⟨vs, ⟨b₁, w, b₂, ts, h1, -, rfl, -⟩, -⟩ h
    exact rNumber_pos .Q false h1 (List.append_eq_nil_iff.1 h).1

/-! ### Messages -/

theorem inventory_exact : ExactAll invProps (lInventory readSize) :=
  .cons (array_exact (object_exact (c := inventoryVector) (.cons (number_exact .I false false)
    (.cons (bytes_exact 32 (by decide)) .nil)) (by simp)) _ _) .nil

theorem locator_exact : ExactAll getBlocksProps (lLocator readSize) :=
  .cons (number_exact .I false false) (.cons (array_exact (bytes_exact 32 (by decide)) _ _)
    (.cons (bytes_exact 32 (by decide)) .nil))

theorem txnIn_exact : Exact (ftCompound txnIn) (lTxnIn readSize) :=
  object_exact (c := txnIn) (.cons (object_exact (c := outPoint) (.cons (bytes_exact 32 (by decide))
    (.cons (number_exact .I false false) .nil)) (by simp))
    (.cons string_exact (.cons (number_exact .I false false) .nil))) (by simp)

theorem txnOut_exact : Exact (ftCompound txnOut) (lTxnOut readSize) :=
  object_exact (c := txnOut) (.cons (number_exact .q false false) (.cons string_exact .nil)) (by simp)

theorem txn_exact : ExactAll txn.props (lTx readSize) :=
  .cons (number_exact .I false false) (.cons (array_exact txnIn_exact _ _) (.cons (array_exact txnOut_exact _ _)
    (.cons (number_exact .I false false) .nil)))

theorem header_exact {ps : Props} {ls : List (String × LType)} (h : ExactAll ps ls) :
    ExactAll (("version", ftNumber .I) :: ("prev_block", ftBytes 32) :: ("merkle_root", ftBytes 32) ::
      ("timestamp", ftNumber .I (allowFloat := true)) :: ("bits", ftNumber .I) :: ("nonce", ftNumber .I) :: ps)
      (lHeader ++ ls) :=
  .cons (number_exact .I false false) (.cons (bytes_exact 32 (by decide)) (.cons (bytes_exact 32 (by decide))
    (.cons (number_exact .I false true) (.cons (number_exact .I false false)
      (.cons (number_exact .I false false) h)))))

/-- Every message type of the registry with its language. -/
theorem registry_exact :
    List.Forall₂ (fun t e => t.command = e.1 ∧ ExactAll t.props e.2) registry (languages readSize) := by
  refine .cons ⟨rfl, ?_⟩ (.cons ⟨rfl, .nil⟩ (.cons ⟨rfl, .cons (array_exact address_exact _ _) .nil⟩
    (.cons ⟨rfl, inventory_exact⟩ (.cons ⟨rfl, inventory_exact⟩ (.cons ⟨rfl, inventory_exact⟩
    (.cons ⟨rfl, locator_exact⟩ (.cons ⟨rfl, locator_exact⟩ (.cons ⟨rfl, txn_exact⟩ (.cons ⟨rfl, ?_⟩
    (.cons ⟨rfl, ?_⟩ (.cons ⟨rfl, .nil⟩ (.cons ⟨rfl, .nil⟩ (.cons ⟨rfl, ?_⟩ (.cons ⟨rfl, ?_⟩ (.cons ⟨rfl, ?_⟩
    (.cons ⟨rfl, ?_⟩ (.cons ⟨rfl, .cons string_exact .nil⟩ (.cons ⟨rfl, .nil⟩ (.cons ⟨rfl, ?_⟩
    (.cons ⟨rfl, .cons string_exact (.cons string_exact .nil)⟩ .nil))))))))))))))))))))
  · exact .cons (number_exact .i false false) (.cons (number_exact .Q false false)
      (.cons (number_exact .q false true) (.cons endpoint_exact (.cons endpoint_exact
        (.cons (bytes_exact 8 (by decide)) (.cons string_exact (.cons (number_exact .i false false)
          (.cons flag_exact .nil))))))))
  · exact header_exact (.cons (array_exact (object_exact (c := txn) txn_exact (by simp [lTx])) _ _) .nil)
  · exact .cons (array_exact (object_exact (c := blockHeader) (header_exact (.cons size_exact .nil))
      (by simp [lHeader])) _ _) .nil
  · exact .cons (bytes_exact 8 (by decide)) .nil
  · exact .cons (bytes_exact 8 (by decide)) .nil
  · exact .cons string_exact (.cons (number_exact .B false false) (.cons string_exact .nil))
  · exact .cons (array_exact (number_exact .B false false) _ _) (.cons (number_exact .I false false)
      (.cons (number_exact .I false false) (.cons (number_exact .B false false) .nil)))
  · exact header_exact (.cons (number_exact .I false false) (.cons (array_exact (bytes_exact 32 (by decide)) _ _)
      (.cons (array_exact (number_exact .b false false) _ _) .nil)))

theorem headerPart_reads {ps : Props} {ls : List (String × LType)} (h : ReadAll ps (fulls ls)) :
    ReadAll (("version", ftNumber .I) :: ("prev_block", ftBytes 32) :: ("merkle_root", ftBytes 32) ::
      ("timestamp", ftNumber .I (allowFloat := true)) :: ("bits", ftNumber .I) :: ("nonce", ftNumber .I) :: ps)
      (fulls (lHeader ++ ls)) :=
  .cons (number_reads .I false false) (.cons (bytes_reads 32) (.cons (bytes_reads 32)
    (.cons (number_reads .I false true) (.cons (number_reads .I false false)
      (.cons (number_reads .I false false) h)))))

/-- The complete texts are read with any size texts that are read. -/
theorem registry_reads {S : Sizes} (hS : SizesOk S) :
    List.Forall₂ (fun t e => t.command = e.1 ∧ ReadAll t.props (fulls e.2)) registry (languages S) := by
  have hinv : ReadAll invProps (fulls (lInventory S)) :=
    .cons (array_reads hS (object_reads (c := inventoryVector) (.cons (number_reads .I false false)
      (.cons (bytes_reads 32) .nil))) _ _) .nil
  have hloc : ReadAll getBlocksProps (fulls (lLocator S)) :=
    .cons (number_reads .I false false) (.cons (array_reads hS (bytes_reads 32) _ _)
      (.cons (bytes_reads 32) .nil))
  refine .cons ⟨rfl, ?_⟩ (.cons ⟨rfl, .nil⟩ (.cons ⟨rfl, .cons (array_reads hS address_reads _ _) .nil⟩
    (.cons ⟨rfl, hinv⟩ (.cons ⟨rfl, hinv⟩ (.cons ⟨rfl, hinv⟩
    (.cons ⟨rfl, hloc⟩ (.cons ⟨rfl, hloc⟩ (.cons ⟨rfl, txn_reads hS⟩ (.cons ⟨rfl, ?_⟩
    (.cons ⟨rfl, ?_⟩ (.cons ⟨rfl, .nil⟩ (.cons ⟨rfl, .nil⟩ (.cons ⟨rfl, ?_⟩ (.cons ⟨rfl, ?_⟩ (.cons ⟨rfl, ?_⟩
    (.cons ⟨rfl, ?_⟩ (.cons ⟨rfl, .cons (string_reads hS) .nil⟩ (.cons ⟨rfl, .nil⟩ (.cons ⟨rfl, ?_⟩
    (.cons ⟨rfl, .cons (string_reads hS) (.cons (string_reads hS) .nil)⟩ .nil))))))))))))))))))))
  · exact .cons (number_reads .i false false) (.cons (number_reads .Q false false)
      (.cons (number_reads .q false true) (.cons endpoint_exact.reads (.cons endpoint_exact.reads
        (.cons (bytes_reads 8) (.cons (string_reads hS) (.cons (number_reads .i false false)
          (.cons flag_exact.reads .nil))))))))
  · exact headerPart_reads (.cons (array_reads hS (object_reads (c := txn) (txn_reads hS)) _ _) .nil)
  · exact .cons (array_reads hS (object_reads (c := blockHeader) (headerPart_reads (ls := [("txn_count", lSize S)])
      (.cons (size_reads hS) .nil))) _ _) .nil
  · exact .cons (bytes_reads 8) .nil
  · exact .cons (bytes_reads 8) .nil
  · exact .cons (string_reads hS) (.cons (number_reads .B false false) (.cons (string_reads hS) .nil))
  · exact .cons (array_reads hS (number_reads .B false false) _ _) (.cons (number_reads .I false false)
      (.cons (number_reads .I false false) (.cons (number_reads .B false false) .nil)))
  · exact headerPart_reads (.cons (number_reads .I false false) (.cons (array_reads hS (bytes_reads 32) _ _)
      (.cons (array_reads hS (number_reads .b false false) _ _) .nil)))

end NBC.Proto
