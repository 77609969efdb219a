import Verif.Proofs.Wire

/-!
# Truncated payloads
-/

namespace NBC.Proto
open NBC.Spec NBC.Spec.Wire

/-- Parsing a strict prefix of an encoding raises. -/
def Strict (T : FType) (W : WType) : Prop :=
  ∀ v b v', W v b v' → ∀ q s, q ++ s = b → s ≠ [] → ∃ e, T.parse q = .error e

/-- Parsing a strict prefix of an encoding raises or leaves nothing. -/
def Drain (T : FType) (W : WType) : Prop :=
  ∀ v b v', W v b v' → ∀ q s, q ++ s = b → s ≠ [] →
    (∃ e, T.parse q = .error e) ∨ ∃ n u, T.parse q = .ok (n, u) ∧ q.length ≤ n

/-- Parsing nothing raises. -/
def Needs (T : FType) : Prop := ∃ e, T.parse [] = .error e

theorem Strict.drain {T : FType} {W : WType} (h : Strict T W) : Drain T W :=
  fun v b v' hw q s hq hs => .inl (h v b v' hw q s hq hs)

theorem length_lt_of_prefix {q s b : Bytes} (h : q ++ s = b) (hs : s ≠ []) : q.length < b.length := by
  rw [← h, List.length_append]
  have := List.length_pos_iff.2 hs
  omega

theorem unpack_short {f : Fmt} {big : Bool} {d : Bytes} (h : d.length ≠ f.size) :
    ∃ e, unpack f big d = .error e := by
  cases hu : unpack f big d with
  | error e => exact ⟨e, rfl⟩
  | ok v => exact absurd (unpack_ok_length hu) h

theorem ftNumber_short {f : Fmt} {big af : Bool} {d : Bytes} (h : d.length < f.size) :
    ∃ e, (ftNumber f big af).parse d = .error e := by
  obtain ⟨e, he⟩ := unpack_short (f := f) (big := big) (d := d.take f.size) (by
    rw [List.length_take]; omega)
  exact ⟨e, by simp only [ftNumber, he, error_bind]⟩

theorem fmt_size_pos (f : Fmt) : 0 < f.size := by cases f <;> decide

theorem ftNumber_strict (f : Fmt) (big af : Bool) : Strict (ftNumber f big af) (wNumber f big af) := by
  intro v b v' hw q s hq hs
  have h1 := length_lt_of_prefix hq hs
  rw [wNumber_length hw] at h1
  exact ftNumber_short h1

theorem ftNumber_needs (f : Fmt) (big af : Bool) : Needs (ftNumber f big af) :=
  ftNumber_short (fmt_size_pos f)

theorem ftBytes_drain (n : Nat) : Drain (ftBytes n) (wBytes n) := by
  rintro v b v' ⟨hb, -, -⟩ q s hq hs
  have h1 := length_lt_of_prefix hq hs
  exact .inr ⟨n, _, rfl, by omega⟩

theorem varIntParse_short {n : Nat} {q s : Bytes} (hq : q ++ s = varSize n) (hs : s ≠ [])
    (hn : n < varLimit) : ∃ e, varIntParse q = .error e := by
  have hl := length_lt_of_prefix hq hs
  cases q with
  | nil => exact ⟨_, rfl⟩
  | cons x t =>
    have hx : ∃ w, varSize n = x :: w := ⟨t ++ s, by rw [← hq]; rfl⟩
    obtain ⟨w, hw⟩ := hx
    unfold varSize at hw hl
    split_ifs at hw hl with h1 h2 h3
    · simp only [List.length_cons, List.length_nil] at hl
      omega
    · injection hw with hx _
      subst hx
      simp only [List.length_cons, List.length_reverse, beBytes_length] at hl
      obtain ⟨e, he⟩ := unpack_short (f := .H) (big := false) (d := t.take 2) (by
        rw [List.length_take]; simp only [Fmt.size]; omega)
      refine ⟨e, ?_⟩
      simp only [varIntParse, List.drop_succ_cons, List.drop_zero]
      rw [if_pos (by decide), he, error_bind]
    · injection hw with hx _
      subst hx
      simp only [List.length_cons, List.length_reverse, beBytes_length] at hl
      obtain ⟨e, he⟩ := unpack_short (f := .I) (big := false) (d := t.take 4) (by
        rw [List.length_take]; simp only [Fmt.size]; omega)
      refine ⟨e, ?_⟩
      simp only [varIntParse, List.drop_succ_cons, List.drop_zero]
      rw [if_neg (by decide), if_pos (by decide), he, error_bind]
    · exact absurd hn h3

theorem ftVarInteger_strict : Strict ftVarInteger wVarInteger := by
  rintro v b v' ⟨n, hn, -, rfl, -⟩ q s hq hs
  obtain ⟨e, he⟩ := varIntParse_short hq hs hn
  exact ⟨e, by simp only [ftVarInteger, he, error_bind]⟩

/-- A strict prefix of `a ++ b` is a strict prefix of `a`, or `a` and a strict prefix of `b`. -/
theorem prefix_append_cases {a b q s : Bytes} (h : q ++ s = a ++ b) (hs : s ≠ []) :
    (∃ s', q ++ s' = a ∧ s' ≠ []) ∨ (∃ q', q = a ++ q' ∧ q' ++ s = b) := by
  rcases List.append_eq_append_iff.1 h with ⟨m, h1, h2⟩ | ⟨m, h1, h2⟩
  · by_cases hm : m = []
    · subst hm
      exact .inr ⟨[], by simpa using h1.symm, by simpa using h2⟩
    · exact .inl ⟨m, h1.symm, hm⟩
  · exact .inr ⟨m, h1, h2.symm⟩

theorem ftVarString_drain : Drain ftVarString wVarString := by
  rintro v b v' ⟨w, hw, -, rfl, -⟩ q s hq hs
  rcases prefix_append_cases hq hs with ⟨s', h1, h2⟩ | ⟨q', rfl, h2⟩
  · obtain ⟨e, he⟩ := varIntParse_short h1 h2 hw
    exact .inl ⟨e, by simp only [ftVarString, varStringParse, he, error_bind]⟩
  · refine .inr ⟨_, _, by
      simp only [ftVarString, varStringParse, varIntParse_size _ hw, ok_bind]; rfl, ?_⟩
    have := length_lt_of_prefix h2 hs
    simp only [List.length_append, Int.toNat_natCast]
    rw [List.drop_left' rfl, List.take_of_length_le (by omega)]

theorem ftVarString_needs : Needs ftVarString := ⟨_, rfl⟩

theorem ftIPAddress_strict : Strict ftIPAddress wIPAddress := by
  rintro v b v' ⟨hb, -, -⟩ q s hq hs
  have h1 := length_lt_of_prefix hq hs
  have : ∃ e, ipParse q = .error e := by
    unfold ipParse
    split
    · rw [if_pos (by rw [List.length_take, List.length_drop]; omega)]
      exact ⟨_, rfl⟩
    · rw [if_pos (by rw [List.length_take]; omega)]
      exact ⟨_, rfl⟩
  obtain ⟨e, he⟩ := this
  exact ⟨e, by simp only [ftIPAddress, he, error_bind]⟩

/-! ### Arrays -/

theorem ftArray_needs (T : FType) (lo hi : Option Nat) : Needs (ftArray T lo hi) := ⟨_, rfl⟩

theorem varSetLoop_prefix {T : FType} {W : WType} (hT : Refines T W)
    (items : List (Val × Bytes × Val)) (h : ∀ t ∈ items, W t.1 t.2.1 t.2.2) (todo : Nat)
    (pre rest : Bytes) :
    varSetLoop T (pre ++ ((items.map (·.2.1)).flatten ++ rest)) (items.length + todo) pre.length =
      (do
        let (o, l) ← varSetLoop T (pre ++ ((items.map (·.2.1)).flatten ++ rest)) todo
          (pre.length + (items.map (·.2.1)).flatten.length)
        .ok (o, items.map (·.2.2) ++ l)) := by
  induction items generalizing pre with
  | nil =>
    simp only [List.length_nil, Nat.zero_add, List.map_nil, List.flatten_nil, List.nil_append,
      Nat.add_zero]
    cases varSetLoop T (pre ++ rest) todo pre.length <;> rfl
  | cons t ts ih =>
    rw [List.length_cons, show ts.length + 1 + todo = (ts.length + todo) + 1 by omega]
    simp only [varSetLoop, List.map_cons, List.flatten_cons]
    rw [List.drop_left' rfl, List.append_assoc, hT.parse _ _ _ (h t (by simp)), ok_bind]
    simp only
    have := ih (fun x hx => h x (by simp [hx])) (pre ++ t.2.1)
    rw [List.append_assoc, List.length_append] at this
    rw [this, List.length_append, Nat.add_assoc]
    generalize varSetLoop T _ todo _ = r
    cases r <;> rfl

/-- The cut falls inside some item. -/
theorem items_cut (items : List (Val × Bytes × Val)) {q s : Bytes}
    (h : q ++ s = (items.map (·.2.1)).flatten) (hs : s ≠ []) :
    ∃ (l₁ : List (Val × Bytes × Val)) (t : Val × Bytes × Val) (l₂ : List (Val × Bytes × Val))
      (q' s' : Bytes), items = l₁ ++ t :: l₂ ∧ q = (l₁.map (·.2.1)).flatten ++ q' ∧
        q' ++ s' = t.2.1 ∧ s' ≠ [] := by
  induction items generalizing q with
  | nil => simp at h; exact absurd h.2 hs
  | cons t ts ih =>
    rw [List.map_cons, List.flatten_cons] at h
    rcases prefix_append_cases h hs with ⟨s', h1, h2⟩ | ⟨q', rfl, h2⟩
    · exact ⟨[], t, ts, q, s', rfl, by simp, h1, h2⟩
    · obtain ⟨l₁, u, l₂, q'', s', rfl, rfl, h3, h4⟩ := ih h2
      exact ⟨t :: l₁, u, l₂, q'', s', rfl, by simp, h3, h4⟩

theorem ftArray_cut {T : FType} {W : WType} (hT : Refines T W) (lo hi : Option Nat)
    {v : Val} {b : Bytes} {v' : Val} (hw : wArray W (lo.getD 0) hi v b v') {q s : Bytes}
    (hq : q ++ s = b) (hs : s ≠ []) :
    (∃ e, (ftArray T lo hi).parse q = .error e) ∨
    ∃ (pre q' : Bytes) (l : List Val) (todo : Nat) (w : Val) (c s' : Bytes) (w' : Val),
      W w c w' ∧ q' ++ s' = c ∧ s' ≠ [] ∧ q = pre ++ q' ∧
      (ftArray T lo hi).parse q = (do
        let (o, l') ← varSetLoop T q (todo + 1) pre.length
        .ok (o, .tuple (l ++ l'))) := by
  obtain ⟨items, h, h1, h2, h3, rfl, rfl, -⟩ := hw
  rcases prefix_append_cases hq hs with ⟨s', h4, h5⟩ | ⟨q', rfl, h5⟩
  · obtain ⟨e, he⟩ := varIntParse_short h4 h5 h3
    exact .inl ⟨e, by simp only [ftArray, parseVarSet, he, error_bind]⟩
  · obtain ⟨l₁, t, l₂, q'', s', rfl, rfl, h6, h7⟩ := items_cut items h5 hs
    refine .inr ⟨varSize (l₁ ++ t :: l₂).length ++ (l₁.map (·.2.1)).flatten, q'',
      l₁.map (·.2.2), l₂.length, t.1, t.2.1, s', t.2.2, h t (by simp), h6, h7,
      by simp [List.append_assoc], ?_⟩
    simp only [ftArray, parseVarSet]
    rw [varIntParse_size _ h3, ok_bind]
    simp only [Int.toNat_natCast]
    have hp := varSetLoop_prefix hT l₁ (fun x hx => h x (by simp [hx])) (l₂.length + 1)
      (varSize (l₁ ++ t :: l₂).length) q''
    rw [show l₁.length + (l₂.length + 1) = (l₁ ++ t :: l₂).length by simp] at hp
    rw [hp, List.length_append (as := varSize _)]
    generalize varSetLoop T _ (l₂.length + 1) _ = r
    cases r <;> rfl

theorem ftArray_strict {T : FType} {W : WType} (hT : Refines T W) (hS : Strict T W)
    (lo hi : Option Nat) : Strict (ftArray T lo hi) (wArray W (lo.getD 0) hi) := by
  intro v b v' hw q s hq hs
  rcases ftArray_cut hT lo hi hw hq hs with h | ⟨pre, q', l, todo, w, c, s', w', h1, h2, h3, h4, h5⟩
  · exact h
  · obtain ⟨e, he⟩ := hS _ _ _ h1 q' s' h2 h3
    refine ⟨e, ?_⟩
    rw [h5, h4]
    simp only [varSetLoop]
    rw [List.drop_left' rfl, he]
    rfl

theorem varSetLoop_offset {T : FType} {data : Bytes} {k off o : Nat} {l : List Val}
    (h : varSetLoop T data k off = .ok (o, l)) : off ≤ o := by
  induction k generalizing off o l with
  | zero =>
    simp only [varSetLoop, Except.ok.injEq, Prod.mk.injEq] at h
    omega
  | succ k ih =>
    simp only [varSetLoop] at h
    obtain ⟨⟨n, x⟩, h1, h⟩ := bind_ok_iff.1 h
    obtain ⟨⟨o', l'⟩, h2, h⟩ := bind_ok_iff.1 h
    simp only [Except.ok.injEq, Prod.mk.injEq] at h
    have := ih h2
    omega

theorem ftArray_drain {T : FType} {W : WType} (hT : Refines T W) (hS : Drain T W)
    (lo hi : Option Nat) : Drain (ftArray T lo hi) (wArray W (lo.getD 0) hi) := by
  intro v b v' hw q s hq hs
  rcases ftArray_cut hT lo hi hw hq hs with h | ⟨pre, q', l, todo, w, c, s', w', h1, h2, h3, h4, h5⟩
  · exact .inl h
  · rw [h5, h4]
    simp only [varSetLoop]
    rw [List.drop_left' rfl]
    rcases hS _ _ _ h1 q' s' h2 h3 with ⟨e, he⟩ | ⟨n, u, hu, hn⟩
    · exact .inl ⟨e, by rw [he]; rfl⟩
    · rw [hu, ok_bind]
      cases hr : varSetLoop T (pre ++ q') todo (pre.length + n) with
      | error e => exact .inl ⟨e, rfl⟩
      | ok r =>
        obtain ⟨o, l'⟩ := r
        refine .inr ⟨o, _, rfl, ?_⟩
        have := varSetLoop_offset hr
        rw [List.length_append]
        omega

/-! ### Fields -/

/-- Some field raises when nothing is left. -/
def EmptyFails (ps : Props) : Prop :=
  ∀ data off, data.length ≤ off → ∃ e, parseFields data ps off = .error e

theorem emptyFails_of_mem {ps : Props} {p : String × FType} (hp : p ∈ ps) (hN : Needs p.2) :
    EmptyFails ps := by
  intro data off h
  induction ps generalizing off with
  | nil => simp at hp
  | cons r rs ih =>
    obtain ⟨k, T⟩ := r
    simp only [parseFields]
    rw [List.drop_of_length_le h]
    rcases List.mem_cons.1 hp with rfl | hp
    · obtain ⟨e, he⟩ := hN
      simp only at he
      exact ⟨_, by rw [he]⟩
    · cases T.parse [] with
      | error e => exact ⟨_, rfl⟩
      | ok r =>
        obtain ⟨n, u⟩ := r
        obtain ⟨e, he⟩ := ih hp (off + n) (by omega)
        exact ⟨e, by simp only [he, error_bind]⟩

/-- Parsing a strict prefix of the encoded fields raises. -/
def StrictFields (ps : Props) (ws : List (String × WType)) : Prop :=
  ∀ vs b vs', wFields ws vs b vs' → ∀ pre q s, q ++ s = b → s ≠ [] →
    ∃ e, parseFields (pre ++ q) ps pre.length = .error e

theorem strictFields_nil : StrictFields [] [] := by
  rintro vs b vs' ⟨-, rfl, -⟩ pre q s hq hs
  exact absurd (List.append_eq_nil_iff.1 hq).2 hs

theorem strictFields_cons {k : String} {T : FType} {W : WType} {ps : Props}
    {ws : List (String × WType)} (hT : Refines T W)
    (hd : Strict T W ∨ (Drain T W ∧ EmptyFails ps)) (hs : StrictFields ps ws) :
    StrictFields ((k, T) :: ps) ((k, W) :: ws) := by
  rintro vs b vs' ⟨v, b₁, v', ts, b₂, ts', h1, h2, rfl, rfl, rfl⟩ pre q s hq hne
  simp only [parseFields]
  rw [List.drop_left' rfl]
  rcases prefix_append_cases hq hne with ⟨s', h3, h4⟩ | ⟨q', rfl, h3⟩
  · rcases hd with hd | ⟨hd, he⟩
    · obtain ⟨e, he⟩ := hd _ _ _ h1 _ _ h3 h4
      exact ⟨_, by rw [he]⟩
    · rcases hd _ _ _ h1 _ _ h3 h4 with ⟨e, he⟩ | ⟨n, u, hu, hn⟩
      · exact ⟨_, by rw [he]⟩
      · obtain ⟨e, he⟩ := he (pre ++ q) (pre.length + n) (by rw [List.length_append]; omega)
        exact ⟨e, by simp only [hu, he, error_bind]⟩
  · rw [hT.parse _ _ _ h1]
    obtain ⟨e, he⟩ := hs _ _ _ h2 (pre ++ b₁) q' s h3 hne
    rw [List.append_assoc, List.length_append] at he
    exact ⟨e, by simp only [he, error_bind]⟩

theorem strictFields_zero {ps : Props} {ws : List (String × WType)} (h : StrictFields ps ws)
    {vs : List (String × Val)} {b : Bytes} {vs' : List (String × Val)} (hw : wFields ws vs b vs')
    {q s : Bytes} (hq : q ++ s = b) (hs : s ≠ []) : ∃ e, parseFields q ps 0 = .error e :=
  h vs b vs' hw [] q s hq hs

/-- Parsing a strict prefix of the encoded fields raises or leaves nothing. -/
def DrainFields (ps : Props) (ws : List (String × WType)) : Prop :=
  ∀ vs b vs', wFields ws vs b vs' → ∀ pre q s, q ++ s = b → s ≠ [] →
    (∃ e, parseFields (pre ++ q) ps pre.length = .error e) ∨
    ∃ o l, parseFields (pre ++ q) ps pre.length = .ok (o, l) ∧ (pre ++ q).length ≤ o

theorem parseFields_offset {data : Bytes} {ps : Props} {off o : Nat} {l : List (String × Val)}
    (h : parseFields data ps off = .ok (o, l)) : off ≤ o := by
  induction ps generalizing off o l with
  | nil =>
    simp only [parseFields, Except.ok.injEq, Prod.mk.injEq] at h
    omega
  | cons p ps ih =>
    obtain ⟨k, T⟩ := p
    simp only [parseFields] at h
    split at h
    · cases h
    · obtain ⟨⟨o', l'⟩, h2, h⟩ := bind_ok_iff.1 h
      simp only [Except.ok.injEq, Prod.mk.injEq] at h
      have := ih h2
      omega

theorem drainFields_nil : DrainFields [] [] := by
  rintro vs b vs' ⟨-, rfl, -⟩ pre q s hq hs
  exact absurd (List.append_eq_nil_iff.1 hq).2 hs

theorem drainFields_cons {k : String} {T : FType} {W : WType} {ps : Props}
    {ws : List (String × WType)} (hT : Refines T W) (hd : Drain T W) (hs : DrainFields ps ws) :
    DrainFields ((k, T) :: ps) ((k, W) :: ws) := by
  rintro vs b vs' ⟨v, b₁, v', ts, b₂, ts', h1, h2, rfl, rfl, rfl⟩ pre q s hq hne
  simp only [parseFields]
  rw [List.drop_left' rfl]
  rcases prefix_append_cases hq hne with ⟨s', h3, h4⟩ | ⟨q', rfl, h3⟩
  · rcases hd _ _ _ h1 _ _ h3 h4 with ⟨e, he⟩ | ⟨n, u, hu, hn⟩
    · exact .inl ⟨_, by rw [he]⟩
    · simp only [hu]
      cases hr : parseFields (pre ++ q) ps (pre.length + n) with
      | error e => exact .inl ⟨e, rfl⟩
      | ok r =>
        obtain ⟨o, l⟩ := r
        refine .inr ⟨o, _, rfl, ?_⟩
        have := parseFields_offset hr
        rw [List.length_append]
        omega
  · rw [hT.parse _ _ _ h1]
    have he := hs _ _ _ h2 (pre ++ b₁) q' s h3 hne
    rw [List.append_assoc, List.length_append] at he
    simp only
    rcases he with ⟨e, he⟩ | ⟨o, l, he, ho⟩
    · exact .inl ⟨e, by rw [he, error_bind]⟩
    · exact .inr ⟨o, _, by rw [he, ok_bind], ho⟩

theorem ftCompound_strict {c : Cls} {ws : List (String × WType)} (h : StrictFields c.props ws) :
    Strict (ftCompound c) (wObject c.name ws) := by
  rintro v b v' ⟨vs, vs', hw, -, -⟩ q s hq hs
  obtain ⟨e, he⟩ := strictFields_zero h hw hq hs
  exact ⟨e, by simp only [ftCompound, Cls.parse, he, error_bind]⟩

theorem ftCompound_drain {c : Cls} {ws : List (String × WType)} (h : DrainFields c.props ws) :
    Drain (ftCompound c) (wObject c.name ws) := by
  rintro v b v' ⟨vs, vs', hw, -, -⟩ q s hq hs
  have h' := h vs b vs' hw [] q s hq hs
  simp only [List.nil_append, List.length_nil] at h'
  rcases h' with ⟨e, he⟩ | ⟨o, l, he, ho⟩
  · exact .inl ⟨e, by simp only [ftCompound, Cls.parse, he, error_bind]⟩
  · exact .inr ⟨o, _, by simp only [ftCompound, Cls.parse, he, ok_bind]; rfl, ho⟩

/-! ### The classes and messages whose last field is strict -/

theorem number_fields (f : Fmt) (big af : Bool) {k : String} {ps : Props}
    {ws : List (String × WType)} (h : StrictFields ps ws) :
    StrictFields ((k, ftNumber f big af) :: ps) ((k, wNumber f big af) :: ws) :=
  strictFields_cons (ftNumber_refines ..) (.inl (ftNumber_strict _ _ _)) h

theorem bytes_fields (n : Nat) {k : String} {ps : Props} {ws : List (String × WType)}
    (h : StrictFields ps ws) (he : EmptyFails ps) :
    StrictFields ((k, ftBytes n) :: ps) ((k, wBytes n) :: ws) :=
  strictFields_cons (ftBytes_refines n) (.inr ⟨ftBytes_drain n, he⟩) h

theorem ftNetworkAddress_strict : Strict ftNetworkAddress wNetworkAddress :=
  ftCompound_strict (c := networkAddress) (number_fields _ _ _ (number_fields _ _ _
    (strictFields_cons ftIPAddress_refines (.inl ftIPAddress_strict)
      (number_fields _ _ _ strictFields_nil))))

theorem ftOutPoint_strict : Strict (ftCompound outPoint) wOutPoint :=
  ftCompound_strict (c := outPoint) (bytes_fields 32 (number_fields _ _ _ strictFields_nil)
    (emptyFails_of_mem (p := ("index", ftNumber .I)) (by simp) (ftNumber_needs ..)))

theorem ftTxnIn_strict : Strict (ftCompound txnIn) wTxnIn :=
  ftCompound_strict (c := txnIn) (strictFields_cons ftOutPoint_refines (.inl ftOutPoint_strict)
    (strictFields_cons ftVarString_refines (.inr ⟨ftVarString_drain,
      emptyFails_of_mem (p := ("sequence", ftNumber .I)) (by simp) (ftNumber_needs ..)⟩)
      (number_fields _ _ _ strictFields_nil)))

theorem ftTxnOut_drain : Drain (ftCompound txnOut) wTxnOut :=
  ftCompound_drain (c := txnOut) (drainFields_cons (ftNumber_refines ..) (ftNumber_strict _ _ _).drain
    (drainFields_cons ftVarString_refines ftVarString_drain drainFields_nil))

theorem tx_strict : StrictFields txn.props txFields :=
  number_fields _ _ _ (strictFields_cons (ftArray_refines ftTxnIn_refines (some 1) none (by simp))
    (.inl (ftArray_strict ftTxnIn_refines ftTxnIn_strict (some 1) none))
    (strictFields_cons (ftArray_refines ftTxnOut_refines (some 1) none (by simp))
      (.inr ⟨ftArray_drain ftTxnOut_refines ftTxnOut_drain (some 1) none,
        emptyFails_of_mem (p := ("lock_time", ftNumber .I)) (by simp) (ftNumber_needs ..)⟩)
      (number_fields _ _ _ strictFields_nil)))

theorem ftTxn_strict : Strict (ftCompound txn) wTxn := ftCompound_strict (c := txn) tx_strict

theorem header_strict {ps : Props} {ws : List (String × WType)} (h : StrictFields ps ws) :
    StrictFields ([("version", ftNumber .I), ("prev_block", ftBytes 32), ("merkle_root", ftBytes 32),
      ("timestamp", ftNumber .I (allowFloat := true)), ("bits", ftNumber .I),
      ("nonce", ftNumber .I)] ++ ps) (headerFields ++ ws) :=
  number_fields _ _ _ (bytes_fields 32 (bytes_fields 32 (number_fields _ _ _ (number_fields _ _ _
    (number_fields _ _ _ h))) (emptyFails_of_mem (p := ("bits", ftNumber .I)) (by simp)
      (ftNumber_needs ..))) (emptyFails_of_mem (p := ("bits", ftNumber .I)) (by simp)
      (ftNumber_needs ..)))

theorem ftBlockHeader_strict : Strict (ftCompound blockHeader) wBlockHeader :=
  ftCompound_strict (c := blockHeader) (header_strict (strictFields_cons ftVarInteger_refines
    (.inl ftVarInteger_strict) strictFields_nil))

theorem addr_strict : StrictFields msgAddr.props [("addr_list", wArray wNetworkAddress 0 (some 1000))] :=
  strictFields_cons (ftArray_refines ftNetworkAddress_refines none (some 1000) (by simp))
    (.inl (ftArray_strict ftNetworkAddress_refines ftNetworkAddress_strict none (some 1000)))
    strictFields_nil

theorem block_strict : StrictFields msgBlock.props (headerFields ++ [("txns", wArray wTxn 0 none)]) :=
  header_strict (strictFields_cons (ftArray_refines ftTxn_refines none none (by simp))
    (.inl (ftArray_strict ftTxn_refines ftTxn_strict none none)) strictFields_nil)

theorem headers_strict : StrictFields msgHeaders.props [("headers", wArray wBlockHeader 0 none)] :=
  strictFields_cons (ftArray_refines ftBlockHeader_refines none none (by simp))
    (.inl (ftArray_strict ftBlockHeader_refines ftBlockHeader_strict none none)) strictFields_nil

theorem filterload_strict : StrictFields msgFilterload.props
    [("filter", wArray (wNumber .B false false) 0 none), ("n_hashes_func", wU32), ("n_tweak", wU32),
      ("n_flags", wNumber .B false false)] :=
  strictFields_cons (ftArray_refines (ftNumber_refines ..) none none (by simp))
    (.inl (ftArray_strict (ftNumber_refines ..) (ftNumber_strict _ _ _) none none))
    (number_fields _ _ _ (number_fields _ _ _ (number_fields _ _ _ strictFields_nil)))

theorem merkleblock_strict : StrictFields msgMerkleblock.props
    (headerFields ++ [("total_transactions", wU32), ("hashes", wArray wHash 0 none),
      ("flags", wArray (wNumber .b false false) 0 none)]) :=
  header_strict (number_fields _ _ _ (strictFields_cons
    (ftArray_refines (ftBytes_refines 32) none none (by simp))
    (.inr ⟨ftArray_drain (ftBytes_refines 32) (ftBytes_drain 32) none none,
      emptyFails_of_mem (p := ("flags", ftArray (ftNumber .b) none none)) (by simp)
        (ftArray_needs ..)⟩)
    (strictFields_cons (ftArray_refines (ftNumber_refines ..) none none (by simp))
      (.inl (ftArray_strict (ftNumber_refines ..) (ftNumber_strict _ _ _) none none))
      strictFields_nil)))

end NBC.Proto
