import Verif.Proofs.WireTrunc
import Verif.Spec.Reading

/-!
# Reading texts: what is accepted, and only that
-/

namespace NBC.Proto
open NBC.Spec NBC.Spec.Wire NBC.Spec.Reading

/-- Every text of the language is read, whatever follows it. -/
def Reads (T : FType) (R : RType) : Prop :=
  ∀ b v, R b v → ∀ rest, T.parse (b ++ rest) = .ok (b.length, v)

/-- The text in front of `data` that `R` gives the value `v`. -/
def Front (R : RType) (data : Bytes) (l : Nat) (v : Val) : Prop :=
  ∃ b rest, data = b ++ rest ∧ l = b.length ∧ R b v

/-- Only texts of the language are read. -/
def Sound (T : FType) (R : RType) : Prop :=
  ∀ data l v, T.parse data = .ok (l, v) → Front R data l v

/-- Only texts of the language are read, except at the end of the data. -/
def Near (T : FType) (R : RType) : Prop :=
  ∀ data l v, T.parse data = .ok (l, v) → Front R data l v ∨ data.length ≤ l

/-- The value is written as the text. -/
def Writes (T : FType) (R : RType) : Prop := ∀ b v, R b v → T.binary v = .ok b

theorem Sound.near {T : FType} {R : RType} (h : Sound T R) : Near T R :=
  fun d l v hp => .inl (h d l v hp)

/-! ### Numbers -/

theorem number_reads (f : Fmt) (big af : Bool) : Reads (ftNumber f big af) (rNumber f big) := by
  rintro b v ⟨i, hi', rfl, rfl⟩ rest
  simp only [ftNumber, unpack_numBytes_take hi', ok_bind, numBytes_length]

theorem number_sound (f : Fmt) (big af : Bool) : Sound (ftNumber f big af) (rNumber f big) := by
  intro data l v h
  simp only [ftNumber, bind_ok_iff] at h
  obtain ⟨i, hi', h⟩ := h
  simp only [Except.ok.injEq, Prod.mk.injEq] at h
  obtain ⟨rfl, rfl⟩ := h
  have hl := unpack_ok_length hi'
  obtain ⟨j, hj, hr, hb⟩ := unpack_inRange (big := big) hl
  rw [hi', Except.ok.injEq] at hj
  subst hj
  exact ⟨data.take f.size, data.drop f.size, (List.take_append_drop _ _).symm, hl.symm, i, hr, hb.symm, rfl⟩

theorem number_writes (f : Fmt) (big af : Bool) : Writes (ftNumber f big af) (rNumber f big) := by
  rintro b v ⟨i, hi', rfl, rfl⟩
  simp only [ftNumber, toInt, ok_bind, pack_ok hi']

/-! ### Sizes -/

/-- The size texts `S` are read. -/
def SizesOk (S : Sizes) : Prop :=
  ∀ n b, S n b → ∀ rest, varIntParse (b ++ rest) = .ok (b.length, (n : Int))

theorem readSize_ok : SizesOk readSize := by
  rintro n b (⟨h1, h2, h3, rfl⟩ | ⟨h1, rfl⟩ | ⟨h1, rfl⟩) rest
  · have : (UInt8.ofNat n).toNat = n := by rw [UInt8.toNat_ofNat']; omega
    simp only [List.cons_append, List.nil_append, varIntParse, this, List.length_singleton]
    rw [if_neg h2, if_neg h3, if_neg h2]
  · have e := unpack_numBytes_take (f := .H) (big := false) (v := n) (inRange_H (by omega)) rest
    rw [numBytes_nat .H n (by simp [bits]; omega)] at e
    simp only [List.cons_append, varIntParse, List.drop_succ_cons, List.drop_zero]
    rw [if_pos (by decide)]
    have e' : unpack .H false (((beBytes 2 n).reverse ++ rest).take 2) = .ok (n : Int) := e
    rw [e', ok_bind]
    simp
  · have e := unpack_numBytes_take (f := .I) (big := false) (v := n) (by
          unfold inRange lo hi; simp only [twos, bits, Bool.false_eq_true, if_false]; omega) rest
    rw [numBytes_nat .I n (by simp [bits]; omega)] at e
    simp only [List.cons_append, varIntParse, List.drop_succ_cons, List.drop_zero]
    rw [if_neg (by decide), if_pos (by decide)]
    have e' : unpack .I false (((beBytes 4 n).reverse ++ rest).take 4) = .ok (n : Int) := e
    rw [e', ok_bind]
    simp

theorem compactSize_read {n : Nat} {b : Bytes} (h : compactSize n b) : readSize n b := by
  obtain ⟨h, rfl⟩ := h
  unfold compact
  split_ifs with h1 h2 h3
  · exact .inl ⟨by omega, by omega, by omega, rfl⟩
  · exact .inr (.inl ⟨by omega, rfl⟩)
  · exact .inr (.inr ⟨h, rfl⟩)
  · omega

theorem compactSize_ok : SizesOk compactSize := fun n b h => readSize_ok n b (compactSize_read h)

theorem sentSize_ok : SizesOk sentSize := by
  rintro n b ⟨h, rfl⟩ rest
  exact varIntParse_size n h rest

theorem varIntParse_sound {data : Bytes} {l : Nat} {i : Int} (h : varIntParse data = .ok (l, i)) :
    ∃ n b rest, data = b ++ rest ∧ l = b.length ∧ i = ((n : Nat) : Int) ∧ readSize n b := by
  cases data with
  | nil => cases h
  | cons x t =>
    have long : ∀ (f : Fmt), twos f = false → ∀ i, unpack f false (t.take f.size) = .ok i →
        ∃ n : Nat, i = (n : Int) ∧ n < 2 ^ bits f ∧ t.take f.size = (beBytes (bits f / 8) n).reverse ∧
          f.size ≤ t.length := by
      intro f hf i hu
      have hl := unpack_ok_length hu
      obtain ⟨j, hj, hr, hb⟩ := unpack_inRange (big := false) hl
      rw [hu, Except.ok.injEq] at hj
      subst hj
      unfold inRange lo hi at hr
      simp only [hf, Bool.false_eq_true, if_false] at hr
      have hlt : i.toNat < 2 ^ bits f := by
        have := hr.2
        zify
        rw [Int.toNat_of_nonneg hr.1]
        exact this
      refine ⟨i.toNat, by omega, hlt, ?_, ?_⟩
      · rw [← hb, ← numBytes_nat f _ hlt, Int.toNat_of_nonneg hr.1]
      · rw [List.length_take] at hl; omega
    simp only [varIntParse, List.drop_succ_cons, List.drop_zero] at h
    by_cases h1 : x.toNat = 0xfd
    · rw [if_pos h1, bind_ok_iff] at h
      obtain ⟨j, hj, h⟩ := h
      simp only [Except.ok.injEq, Prod.mk.injEq] at h
      obtain ⟨rfl, rfl⟩ := h
      obtain ⟨n, rfl, hn, ht, hlen⟩ := long .H rfl _ hj
      refine ⟨n, x :: t.take 2, t.drop 2, by simp, ?_, rfl, .inr (.inl ⟨hn, ?_⟩)⟩
      · simp only [Fmt.size] at hlen
        simp; omega
      · have hx : x = 0xfd := UInt8.toNat_inj.1 h1
        rw [hx]
        exact congrArg _ ht
    · rw [if_neg h1] at h
      by_cases h2 : x.toNat = 0xfe
      · rw [if_pos h2, bind_ok_iff] at h
        obtain ⟨j, hj, h⟩ := h
        simp only [Except.ok.injEq, Prod.mk.injEq] at h
        obtain ⟨rfl, rfl⟩ := h
        obtain ⟨n, rfl, hn, ht, hlen⟩ := long .I rfl _ hj
        refine ⟨n, x :: t.take 4, t.drop 4, by simp, ?_, rfl, .inr (.inr ⟨hn, ?_⟩)⟩
        · simp only [Fmt.size] at hlen
          simp; omega
        · have hx : x = 0xfe := UInt8.toNat_inj.1 h2
          rw [hx]
          exact congrArg _ ht
      · rw [if_neg h2, if_neg h1] at h
        simp only [Except.ok.injEq, Prod.mk.injEq] at h
        obtain ⟨rfl, rfl⟩ := h
        exact ⟨x.toNat, [x], t, rfl, rfl, rfl, .inl ⟨x.toNat_lt, h1, h2, by simp⟩⟩

theorem size_reads {S : Sizes} (hS : SizesOk S) : Reads ftVarInteger (rSize S) := by
  rintro b v ⟨n, hn, rfl⟩ rest
  simp only [ftVarInteger, hS n b hn rest, ok_bind]

theorem size_sound : Sound ftVarInteger (rSize readSize) := by
  intro data l v h
  simp only [ftVarInteger, bind_ok_iff] at h
  obtain ⟨⟨l', i⟩, h1, h⟩ := h
  simp only [Except.ok.injEq, Prod.mk.injEq] at h
  obtain ⟨rfl, rfl⟩ := h
  obtain ⟨n, b, rest, hd, hl, rfl, hs⟩ := varIntParse_sound h1
  exact ⟨b, rest, hd, hl, n, hs, rfl⟩

theorem size_writes : Writes ftVarInteger (rSize sentSize) := by
  rintro b v ⟨n, ⟨hn, rfl⟩, rfl⟩
  have h64 : n < 2 ^ 64 := lt_of_lt_of_le hn (by decide)
  simp only [ftVarInteger, varIntBinary_eq n h64]

/-! ### Bytes -/

theorem bytes_reads (n : Nat) : Reads (ftBytes n) (rBytes n) := by
  rintro b v ⟨hb, rfl⟩ rest
  simp only [ftBytes]
  rw [List.take_left' hb, hb]

theorem bytes_near (n : Nat) : Near (ftBytes n) (rBytes n) := by
  intro data l v h
  simp only [ftBytes, Except.ok.injEq, Prod.mk.injEq] at h
  obtain ⟨rfl, rfl⟩ := h
  by_cases hl : data.length ≤ n
  · exact .inr hl
  · have ht : (data.take n).length = n := by rw [List.length_take]; omega
    exact .inl ⟨data.take n, data.drop n, (List.take_append_drop _ _).symm, ht.symm, ht, rfl⟩

theorem bytes_writes (n : Nat) : Writes (ftBytes n) (rBytes n) := by
  rintro b v ⟨-, rfl⟩
  rfl

theorem string_reads {S : Sizes} (hS : SizesOk S) : Reads ftVarString (rString S) := by
  rintro b v ⟨p, s, hs, rfl, rfl⟩ rest
  simp only [ftVarString, varStringParse]
  rw [List.append_assoc, hS _ _ hs, ok_bind]
  simp only [Int.toNat_natCast]
  rw [List.drop_left' rfl, List.take_left' rfl, List.length_append, ok_bind]

theorem string_near : Near ftVarString (rString readSize) := by
  intro data l v h
  simp only [ftVarString, varStringParse, bind_ok_iff] at h
  obtain ⟨⟨l', s⟩, ⟨⟨pl, i⟩, h1, h2⟩, h⟩ := h
  simp only [Except.ok.injEq, Prod.mk.injEq] at h h2
  obtain ⟨rfl, rfl⟩ := h
  obtain ⟨rfl, rfl⟩ := h2
  obtain ⟨n, p, rest, rfl, rfl, rfl, hs⟩ := varIntParse_sound h1
  rw [List.drop_left' rfl, Int.toNat_natCast]
  by_cases hl : rest.length < n
  · refine .inr ?_
    rw [List.length_append, List.take_of_length_le (by omega)]
  · have ht : (rest.take n).length = n := by rw [List.length_take]; omega
    exact .inl ⟨p ++ rest.take n, rest.drop n, by rw [List.append_assoc, List.take_append_drop],
      by rw [List.length_append], p, rest.take n, by rw [ht]; exact hs, rfl, rfl⟩

theorem string_writes : Writes ftVarString (rString sentSize) := by
  rintro b v ⟨p, s, ⟨hs, rfl⟩, rfl, rfl⟩
  exact varStringBinary_eq s (by unfold varLimit at hs; omega)

/-! ### Arrays -/

theorem loop_reads {T : FType} {R : RType} (hT : Reads T R) (items : List (Bytes × Val))
    (h : ∀ t ∈ items, R t.1 t.2) (pre rest : Bytes) :
    varSetLoop T (pre ++ ((items.map (·.1)).flatten ++ rest)) items.length pre.length =
      .ok (pre.length + (items.map (·.1)).flatten.length, items.map (·.2)) := by
  induction items generalizing pre with
  | nil => simp [varSetLoop]
  | cons t ts ih =>
    simp only [List.length_cons, varSetLoop, List.map_cons, List.flatten_cons]
    rw [List.drop_left' rfl, List.append_assoc, hT _ _ (h t (by simp)), ok_bind]
    simp only
    have := ih (fun x hx => h x (by simp [hx])) (pre ++ t.1)
    rw [List.append_assoc, List.length_append] at this
    rw [this, ok_bind, List.length_append]
    simp only [Nat.add_assoc]

theorem array_reads {S : Sizes} (hS : SizesOk S) {T : FType} {R : RType} (hT : Reads T R)
    (a c : Option Nat) : Reads (ftArray T a c) (rArray S R) := by
  rintro b v ⟨p, items, hp, h, rfl, rfl⟩ rest
  simp only [ftArray, parseVarSet]
  rw [List.append_assoc, hS _ _ hp, ok_bind]
  simp only [Int.toNat_natCast]
  rw [loop_reads hT items h, ok_bind, List.length_append]

theorem loop_ge {T : FType} {data : Bytes} {n off o : Nat} {vs : List Val}
    (h : varSetLoop T data n off = .ok (o, vs)) : off ≤ o := by
  induction n generalizing off o vs with
  | zero => simp only [varSetLoop, Except.ok.injEq, Prod.mk.injEq] at h; omega
  | succ n ih =>
    simp only [varSetLoop, bind_ok_iff] at h
    obtain ⟨⟨l, v⟩, -, ⟨o', vs'⟩, h2, h⟩ := h
    simp only [Except.ok.injEq, Prod.mk.injEq] at h
    have := ih h2
    omega

theorem loop_near {T : FType} {R : RType} (hT : Near T R) (n : Nat) (pre d : Bytes) {o : Nat}
    {vs : List Val} (h : varSetLoop T (pre ++ d) n pre.length = .ok (o, vs)) :
    (∃ items : List (Bytes × Val), ∃ rest, items.length = n ∧ (∀ t ∈ items, R t.1 t.2) ∧
      d = (items.map (·.1)).flatten ++ rest ∧ o = pre.length + (items.map (·.1)).flatten.length ∧
      vs = items.map (·.2)) ∨ (pre ++ d).length ≤ o := by
  induction n generalizing pre d o vs with
  | zero =>
    simp only [varSetLoop, Except.ok.injEq, Prod.mk.injEq] at h
    obtain ⟨rfl, rfl⟩ := h
    exact .inl ⟨[], d, rfl, by simp, by simp, by simp, rfl⟩
  | succ n ih =>
    simp only [varSetLoop, bind_ok_iff] at h
    obtain ⟨⟨l, v⟩, h1, ⟨o', vs'⟩, h2, h⟩ := h
    simp only [Except.ok.injEq, Prod.mk.injEq] at h
    obtain ⟨rfl, rfl⟩ := h
    rw [List.drop_left' rfl] at h1
    rcases hT _ _ _ h1 with ⟨b, rest, rfl, rfl, hr⟩ | hl
    · simp only at h2
      rw [← List.append_assoc, ← List.length_append] at h2
      rcases ih (pre ++ b) rest h2 with ⟨items, rest', hn, hi', rfl, ho, rfl⟩ | hl
      · refine .inl ⟨(b, v) :: items, rest', by simp [hn], ?_, by simp, ?_, rfl⟩
        · intro t ht
          rcases List.mem_cons.1 ht with rfl | ht
          · exact hr
          · exact hi' t ht
        · rw [ho]; simp [Nat.add_assoc]
      · exact .inr (by rwa [List.append_assoc] at hl)
    · refine .inr ?_
      have := loop_ge h2
      simp only at this
      rw [List.length_append]
      omega

theorem loop_sound {T : FType} {R : RType} (hT : Sound T R) (n : Nat) (pre d : Bytes) {o : Nat}
    {vs : List Val} (h : varSetLoop T (pre ++ d) n pre.length = .ok (o, vs)) :
    ∃ items : List (Bytes × Val), ∃ rest, items.length = n ∧ (∀ t ∈ items, R t.1 t.2) ∧
      d = (items.map (·.1)).flatten ++ rest ∧ o = pre.length + (items.map (·.1)).flatten.length ∧
      vs = items.map (·.2) := by
  induction n generalizing pre d o vs with
  | zero =>
    simp only [varSetLoop, Except.ok.injEq, Prod.mk.injEq] at h
    obtain ⟨rfl, rfl⟩ := h
    exact ⟨[], d, rfl, by simp, by simp, by simp, rfl⟩
  | succ n ih =>
    simp only [varSetLoop, bind_ok_iff] at h
    obtain ⟨⟨l, v⟩, h1, ⟨o', vs'⟩, h2, h⟩ := h
    simp only [Except.ok.injEq, Prod.mk.injEq] at h
    obtain ⟨rfl, rfl⟩ := h
    rw [List.drop_left' rfl] at h1
    obtain ⟨b, rest, rfl, rfl, hr⟩ := hT _ _ _ h1
    simp only at h2
    rw [← List.append_assoc, ← List.length_append] at h2
    obtain ⟨items, rest', hn, hi', rfl, ho, rfl⟩ := ih (pre ++ b) rest h2
    refine ⟨(b, v) :: items, rest', by simp [hn], ?_, by simp, ?_, rfl⟩
    · intro t ht
      rcases List.mem_cons.1 ht with rfl | ht
      · exact hr
      · exact hi' t ht
    · rw [ho]; simp [Nat.add_assoc]

theorem array_inv {T : FType} {a c : Option Nat} {data : Bytes} {l : Nat} {v : Val}
    (h : (ftArray T a c).parse data = .ok (l, v)) :
    ∃ n p rest vs, data = p ++ rest ∧ readSize n p ∧ v = .tuple vs ∧
      varSetLoop T (p ++ rest) n p.length = .ok (l, vs) := by
  simp only [ftArray, parseVarSet, bind_ok_iff] at h
  obtain ⟨⟨l', vs⟩, ⟨⟨pl, i⟩, h1, h2⟩, h⟩ := h
  simp only [Except.ok.injEq, Prod.mk.injEq] at h
  obtain ⟨rfl, rfl⟩ := h
  obtain ⟨n, p, rest, rfl, rfl, rfl, hs⟩ := varIntParse_sound h1
  exact ⟨n, p, rest, vs, rfl, hs, rfl, by simpa using h2⟩

theorem array_near {T : FType} {R : RType} (hT : Near T R) (a c : Option Nat) :
    Near (ftArray T a c) (rArray readSize R) := by
  intro data l v h
  obtain ⟨n, p, rest, vs, rfl, hs, rfl, hl⟩ := array_inv h
  rcases loop_near hT n p rest hl with ⟨items, rest', rfl, hi', rfl, ho, rfl⟩ | h
  · exact .inl ⟨p ++ (items.map (·.1)).flatten, rest', by simp, by rw [ho, List.length_append], p, items, hs,
      hi', rfl, rfl⟩
  · exact .inr h

theorem array_sound {T : FType} {R : RType} (hT : Sound T R) (a c : Option Nat) :
    Sound (ftArray T a c) (rArray readSize R) := by
  intro data l v h
  obtain ⟨n, p, rest, vs, rfl, hs, rfl, hl⟩ := array_inv h
  obtain ⟨items, rest', rfl, hi', rfl, ho, rfl⟩ := loop_sound hT n p rest hl
  exact ⟨p ++ (items.map (·.1)).flatten, rest', by simp, by rw [ho, List.length_append], p, items, hs,
      hi', rfl, rfl⟩

theorem array_writes {T : FType} {R : RType} (hT : Writes T R) (a c : Option Nat) :
    Writes (ftArray T a c) (rArray sentSize R) := by
  rintro b v ⟨p, items, ⟨hn, rfl⟩, h, rfl, rfl⟩
  simp only [ftArray]
  rw [List.length_map, varIntBinary_eq _ (by unfold varLimit at hn; omega), ok_bind,
    mapM_items (q := (·.1)) items (fun t ht => hT _ _ (h t ht)), ok_bind]

theorem array_needs (T : FType) (a c : Option Nat) : Needs (ftArray T a c) := ⟨_, rfl⟩

/-! ### Fields -/

/-- All fields are read. -/
inductive ReadAll : Props → List (String × RType) → Prop
  | nil : ReadAll [] []
  | cons {k : String} {T : FType} {R : RType} {ps : Props} {rs : List (String × RType)} :
      Reads T R → ReadAll ps rs → ReadAll ((k, T) :: ps) ((k, R) :: rs)

inductive NearAll : Props → List (String × RType) → Prop
  | nil : NearAll [] []
  | cons {k : String} {T : FType} {R : RType} {ps : Props} {rs : List (String × RType)} :
      Near T R → NearAll ps rs → NearAll ((k, T) :: ps) ((k, R) :: rs)

inductive WriteAll : Props → List (String × RType) → Prop
  | nil : WriteAll [] []
  | cons {k : String} {T : FType} {R : RType} {ps : Props} {rs : List (String × RType)} :
      Writes T R → WriteAll ps rs → WriteAll ((k, T) :: ps) ((k, R) :: rs)

/-- Some field cannot be read from nothing. -/
def NeedsAny (ps : Props) : Prop := ∃ p ∈ ps, Needs p.2

inductive SoundAll : Props → List (String × RType) → Prop
  | nil : SoundAll [] []
  | cons {k : String} {T : FType} {R : RType} {ps : Props} {rs : List (String × RType)} :
      Sound T R → SoundAll ps rs → SoundAll ((k, T) :: ps) ((k, R) :: rs)
  | near {k : String} {T : FType} {R : RType} {ps : Props} {rs : List (String × RType)} :
      Near T R → NeedsAny ps → SoundAll ps rs → SoundAll ((k, T) :: ps) ((k, R) :: rs)

theorem fields_reads {ps : Props} {rs : List (String × RType)} (hr : ReadAll ps rs) {b : Bytes}
    {vs : List (String × Val)} (h : rFields rs b vs) (pre rest : Bytes) :
    parseFields (pre ++ (b ++ rest)) ps pre.length = .ok (pre.length + b.length, vs) := by
  induction hr generalizing b vs pre with
  | nil => obtain ⟨rfl, rfl⟩ := h; simp [parseFields]
  | @cons k T R ps rs hT hr ih =>
    obtain ⟨b₁, v, b₂, ts, h1, h2, rfl, rfl⟩ := h
    simp only [parseFields]
    rw [List.drop_left' rfl, List.append_assoc, hT _ _ h1]
    simp only
    have := ih h2 (pre ++ b₁)
    rw [List.append_assoc, List.length_append] at this
    rw [this, ok_bind, List.length_append, Nat.add_assoc]

theorem parseFields_step {data : Bytes} {k : String} {T : FType} {ps : Props} {off o : Nat}
    {vs : List (String × Val)} (h : parseFields data ((k, T) :: ps) off = .ok (o, vs)) :
    ∃ l v ts, T.parse (data.drop off) = .ok (l, v) ∧ parseFields data ps (off + l) = .ok (o, ts) ∧
      vs = (k, v) :: ts := by
  simp only [parseFields] at h
  cases hp : T.parse (data.drop off) with
  | error e => rw [hp] at h; cases h
  | ok r =>
    obtain ⟨l, v⟩ := r
    rw [hp] at h
    simp only [bind_ok_iff] at h
    obtain ⟨⟨o', ts⟩, h2, h⟩ := h
    simp only [Except.ok.injEq, Prod.mk.injEq] at h
    obtain ⟨rfl, rfl⟩ := h
    exact ⟨l, v, ts, rfl, h2, rfl⟩

theorem parseFields_ge {data : Bytes} {ps : Props} {off o : Nat} {vs : List (String × Val)}
    (h : parseFields data ps off = .ok (o, vs)) : off ≤ o := by
  induction ps generalizing off o vs with
  | nil => simp only [parseFields, Except.ok.injEq, Prod.mk.injEq] at h; omega
  | cons p ps ih =>
    obtain ⟨l, v, ts, -, h2, -⟩ := parseFields_step h
    have := ih h2
    omega

theorem parseFields_past {data : Bytes} {ps : Props} (hn : NeedsAny ps) {off : Nat}
    (ho : data.length ≤ off) : ∃ e, parseFields data ps off = .error e := by
  cases h : parseFields data ps off with
  | error e => exact ⟨e, rfl⟩
  | ok r =>
    exfalso
    obtain ⟨o, vs⟩ := r
    induction ps generalizing off o vs with
    | nil => obtain ⟨p, hp, -⟩ := hn; cases hp
    | cons p ps ih =>
      obtain ⟨l, v, ts, h1, h2, -⟩ := parseFields_step h
      obtain ⟨q, hq, e, hd⟩ := hn
      rcases List.mem_cons.1 hq with rfl | hq
      · rw [List.drop_eq_nil_of_le ho] at h1
        rw [hd] at h1
        cases h1
      · exact ih ⟨q, hq, e, hd⟩ (by omega) _ _ h2

theorem fields_near {ps : Props} {rs : List (String × RType)} (hr : NearAll ps rs) (pre d : Bytes) {o : Nat}
    {vs : List (String × Val)} (h : parseFields (pre ++ d) ps pre.length = .ok (o, vs)) :
    (∃ b rest, d = b ++ rest ∧ o = pre.length + b.length ∧ rFields rs b vs) ∨ (pre ++ d).length ≤ o := by
  induction hr generalizing pre d o vs with
  | nil =>
    simp only [parseFields, Except.ok.injEq, Prod.mk.injEq] at h
    obtain ⟨rfl, rfl⟩ := h
    exact .inl ⟨[], d, rfl, rfl, rfl, rfl⟩
  | @cons k T R ps rs hT hr ih =>
    obtain ⟨l, v, ts, h1, h2, rfl⟩ := parseFields_step h
    rw [List.drop_left' rfl] at h1
    rcases hT _ _ _ h1 with ⟨b, rest, rfl, rfl, hv⟩ | hl
    · rw [← List.append_assoc, ← List.length_append] at h2
      rcases ih (pre ++ b) rest h2 with ⟨b', rest', rfl, ho, hf⟩ | hl
      · exact .inl ⟨b ++ b', rest', by simp, by rw [ho]; simp [Nat.add_assoc], b, v, b', ts, hv, hf, rfl, rfl⟩
      · exact .inr (by rwa [List.append_assoc] at hl)
    · refine .inr ?_
      have := parseFields_ge h2
      rw [List.length_append]
      omega

theorem fields_sound {ps : Props} {rs : List (String × RType)} (hr : SoundAll ps rs) (pre d : Bytes) {o : Nat}
    {vs : List (String × Val)} (h : parseFields (pre ++ d) ps pre.length = .ok (o, vs)) :
    ∃ b rest, d = b ++ rest ∧ o = pre.length + b.length ∧ rFields rs b vs := by
  have step : ∀ {k : String} {T : FType} {R : RType} {ps : Props} {rs : List (String × RType)}
      (ih : ∀ (pre d : Bytes) {o : Nat} {vs : List (String × Val)},
        parseFields (pre ++ d) ps pre.length = .ok (o, vs) →
        ∃ b rest, d = b ++ rest ∧ o = pre.length + b.length ∧ rFields rs b vs)
      {pre d : Bytes} {o l : Nat} {v : Val} {ts : List (String × Val)} (hv : Front R d l v)
      (h2 : parseFields (pre ++ d) ps (pre.length + l) = .ok (o, ts)),
      ∃ b rest, d = b ++ rest ∧ o = pre.length + b.length ∧ rFields ((k, R) :: rs) b ((k, v) :: ts) := by
    intro k T R ps rs ih pre d o l v ts hv h2
    obtain ⟨b, rest, rfl, rfl, hv⟩ := hv
    rw [← List.append_assoc, ← List.length_append] at h2
    obtain ⟨b', rest', rfl, ho, hf⟩ := ih (pre ++ b) rest h2
    exact ⟨b ++ b', rest', by simp, by rw [ho]; simp [Nat.add_assoc], b, v, b', ts, hv, hf, rfl, rfl⟩
  induction hr generalizing pre d o vs with
  | nil =>
    simp only [parseFields, Except.ok.injEq, Prod.mk.injEq] at h
    obtain ⟨rfl, rfl⟩ := h
    exact ⟨[], d, rfl, rfl, rfl, rfl⟩
  | @cons k T R ps rs hT hr ih =>
    obtain ⟨l, v, ts, h1, h2, rfl⟩ := parseFields_step h
    rw [List.drop_left' rfl] at h1
    exact step (T := T) (fun pre d {o vs} hh => ih pre d hh) (hT _ _ _ h1) h2
  | @near k T R ps rs hT hn hr ih =>
    obtain ⟨l, v, ts, h1, h2, rfl⟩ := parseFields_step h
    rw [List.drop_left' rfl] at h1
    rcases hT _ _ _ h1 with hv | hl
    · exact step (T := T) (fun pre d {o vs} hh => ih pre d hh) hv h2
    · obtain ⟨e, he⟩ := parseFields_past hn (data := pre ++ d) (off := pre.length + l) (by
        rw [List.length_append]; omega)
      rw [he] at h2
      cases h2

theorem fields_writes {ps : Props} {rs : List (String × RType)} (hr : WriteAll ps rs)
    (hn : (ps.map (·.1)).Nodup) {b : Bytes} {vs : List (String × Val)} (h : rFields rs b vs) :
    compBinary ps vs = .ok b := by
  induction hr generalizing b vs with
  | nil => obtain ⟨rfl, rfl⟩ := h; rfl
  | @cons k T R ps rs hT hr ih =>
    obtain ⟨b₁, v, b₂, ts, h1, h2, rfl, rfl⟩ := h
    rw [List.map_cons, List.nodup_cons] at hn
    have ih' := ih hn.2 h2
    unfold compBinary at ih' ⊢
    rw [bind_ok_iff] at ih'
    obtain ⟨bs, hbs, hb⟩ := ih'
    have hcong : ps.mapM (fun p => do let x ← getField ((k, v) :: ts) p.1; p.2.binary x) =
        ps.mapM (fun p => do let x ← getField ts p.1; p.2.binary x) := by
      refine mapM_congr ps (fun p hp => ?_)
      have hk : k ≠ p.1 := by
        rintro rfl
        exact hn.1 (List.mem_map_of_mem (f := (·.1)) hp)
      simp only [getField_cons_ne hk]
    rw [List.mapM_cons]
    simp only [getField_head, ok_bind, hT _ _ h1]
    rw [hcong, hbs, ok_bind]
    injection hb with hb
    rw [← hb]
    rfl

/-! ### Objects -/

theorem object_reads {c : Cls} {rs : List (String × RType)} (h : ReadAll c.props rs) :
    Reads (ftCompound c) (rObject c.name rs) := by
  rintro b v ⟨vs, hf, rfl⟩ rest
  have := fields_reads h hf [] rest
  simp only [List.nil_append, List.length_nil, Nat.zero_add] at this
  simp only [ftCompound, Cls.parse, this, ok_bind]

theorem object_inv {c : Cls} {data : Bytes} {l : Nat} {v : Val}
    (h : (ftCompound c).parse data = .ok (l, v)) :
    ∃ vs, parseFields ([] ++ data) c.props ([] : Bytes).length = .ok (l, vs) ∧ v = .obj c.name vs := by
  simp only [ftCompound, Cls.parse, bind_ok_iff] at h
  obtain ⟨⟨l', vs⟩, h1, h⟩ := h
  simp only [Except.ok.injEq, Prod.mk.injEq] at h
  obtain ⟨rfl, rfl⟩ := h
  exact ⟨vs, h1, rfl⟩

theorem object_near {c : Cls} {rs : List (String × RType)} (h : NearAll c.props rs) :
    Near (ftCompound c) (rObject c.name rs) := by
  intro data l v hp
  obtain ⟨vs, h1, rfl⟩ := object_inv hp
  rcases fields_near h [] data h1 with ⟨b, rest, hd, ho, hf⟩ | hl
  · exact .inl ⟨b, rest, hd, by simpa using ho, vs, hf, rfl⟩
  · exact .inr (by simpa using hl)

theorem object_sound {c : Cls} {rs : List (String × RType)} (h : SoundAll c.props rs) :
    Sound (ftCompound c) (rObject c.name rs) := by
  intro data l v hp
  obtain ⟨vs, h1, rfl⟩ := object_inv hp
  obtain ⟨b, rest, hd, ho, hf⟩ := fields_sound h [] data h1
  exact ⟨b, rest, hd, by simpa using ho, vs, hf, rfl⟩

theorem object_writes {c : Cls} {rs : List (String × RType)} (h : WriteAll c.props rs)
    (hn : (c.props.map (·.1)).Nodup) : Writes (ftCompound c) (rObject c.name rs) := by
  rintro b v ⟨vs, hf, rfl⟩
  exact fields_writes h hn hf

theorem object_needs {c : Cls} (h : NeedsAny c.props) : Needs (ftCompound c) := by
  obtain ⟨e, he⟩ := parseFields_past h (data := []) (off := 0) (by simp)
  exact ⟨e, by simp only [ftCompound, Cls.parse, he, error_bind]⟩

/-! ### Transactions, blocks and headers -/

theorem outPoint_reads : ReadAll outPoint.props outPointReading :=
  .cons (bytes_reads 32) (.cons (number_reads .I false false) .nil)

theorem outPoint_writes : WriteAll outPoint.props outPointReading :=
  .cons (bytes_writes 32) (.cons (number_writes .I false false) .nil)

theorem outPoint_sound : SoundAll outPoint.props outPointReading :=
  .near (bytes_near 32) ⟨_, List.mem_cons_self .., ftNumber_needs .I false false⟩
    (.cons (number_sound .I false false) .nil)

theorem txnIn_reads {S : Sizes} (hS : SizesOk S) : ReadAll txnIn.props (txnInReading S) :=
  .cons (object_reads outPoint_reads) (.cons (string_reads hS) (.cons (number_reads .I false false) .nil))

theorem txnIn_writes : WriteAll txnIn.props (txnInReading sentSize) :=
  .cons (object_writes outPoint_writes (by decide))
    (.cons string_writes (.cons (number_writes .I false false) .nil))

theorem txnIn_sound : SoundAll txnIn.props (txnInReading readSize) :=
  .cons (object_sound outPoint_sound) (.near string_near ⟨_, List.mem_cons_self .., ftNumber_needs .I false false⟩
    (.cons (number_sound .I false false) .nil))

theorem txnOut_reads {S : Sizes} (hS : SizesOk S) : ReadAll txnOut.props (txnOutReading S) :=
  .cons (number_reads .q false false) (.cons (string_reads hS) .nil)

theorem txnOut_writes : WriteAll txnOut.props (txnOutReading sentSize) :=
  .cons (number_writes .q false false) (.cons string_writes .nil)

theorem txnOut_near : NearAll txnOut.props (txnOutReading readSize) :=
  .cons (number_sound .q false false).near (.cons string_near .nil)

theorem txn_reads {S : Sizes} (hS : SizesOk S) : ReadAll txn.props (txReading S) :=
  .cons (number_reads .I false false) (.cons (array_reads hS (object_reads (txnIn_reads hS)) _ _)
    (.cons (array_reads hS (object_reads (txnOut_reads hS)) _ _) (.cons (number_reads .I false false) .nil)))

theorem txn_writes : WriteAll txn.props (txReading sentSize) :=
  .cons (number_writes .I false false) (.cons (array_writes (object_writes txnIn_writes (by decide)) _ _)
    (.cons (array_writes (object_writes txnOut_writes (by decide)) _ _)
      (.cons (number_writes .I false false) .nil)))

theorem txn_sound : SoundAll txn.props (txReading readSize) :=
  .cons (number_sound .I false false) (.cons (array_sound (object_sound txnIn_sound) _ _)
    (.near (array_near (object_near txnOut_near) _ _) ⟨_, List.mem_cons_self .., ftNumber_needs .I false false⟩
      (.cons (number_sound .I false false) .nil)))

theorem msgBlock_reads {S : Sizes} (hS : SizesOk S) : ReadAll msgBlock.props (blockReading S) :=
  .cons (number_reads .I false false) (.cons (bytes_reads 32) (.cons (bytes_reads 32)
    (.cons (number_reads .I false true) (.cons (number_reads .I false false)
      (.cons (number_reads .I false false)
        (.cons (array_reads hS (object_reads (txn_reads hS)) _ _) .nil))))))

theorem msgBlock_writes : WriteAll msgBlock.props (blockReading sentSize) :=
  .cons (number_writes .I false false) (.cons (bytes_writes 32) (.cons (bytes_writes 32)
    (.cons (number_writes .I false true) (.cons (number_writes .I false false)
      (.cons (number_writes .I false false)
        (.cons (array_writes (object_writes txn_writes (by decide)) _ _) .nil))))))

theorem msgBlock_sound : SoundAll msgBlock.props (blockReading readSize) :=
  .cons (number_sound .I false false)
    (.near (bytes_near 32) ⟨_, List.mem_cons_of_mem _ (List.mem_cons_self ..), ftNumber_needs .I false true⟩
    (.near (bytes_near 32) ⟨_, List.mem_cons_self .., ftNumber_needs .I false true⟩
    (.cons (number_sound .I false true) (.cons (number_sound .I false false)
      (.cons (number_sound .I false false)
        (.cons (array_sound (object_sound txn_sound) _ _) .nil))))))

theorem header_reads {S : Sizes} (hS : SizesOk S) :
    ReadAll blockHeader.props (headerReading ++ [("txn_count", rSize S)]) :=
  .cons (number_reads .I false false) (.cons (bytes_reads 32) (.cons (bytes_reads 32)
    (.cons (number_reads .I false true) (.cons (number_reads .I false false)
      (.cons (number_reads .I false false) (.cons (size_reads hS) .nil))))))

theorem header_sound : SoundAll blockHeader.props (headerReading ++ [("txn_count", rSize readSize)]) :=
  .cons (number_sound .I false false)
    (.near (bytes_near 32) ⟨_, List.mem_cons_of_mem _ (List.mem_cons_self ..), ftNumber_needs .I false true⟩
    (.near (bytes_near 32) ⟨_, List.mem_cons_self .., ftNumber_needs .I false true⟩
    (.cons (number_sound .I false true) (.cons (number_sound .I false false)
      (.cons (number_sound .I false false) (.cons size_sound .nil))))))

theorem msgHeaders_reads {S : Sizes} (hS : SizesOk S) : ReadAll msgHeaders.props (headersReading S) :=
  .cons (array_reads hS (object_reads (header_reads hS)) _ _) .nil

theorem msgHeaders_sound : SoundAll msgHeaders.props (headersReading readSize) :=
  .cons (array_sound (object_sound header_sound) _ _) .nil

/-! ### The text that is sent for what was read -/

/-- What a text of `R` stands for has a text of `R'` too. -/
def Canon (R R' : RType) : Prop := ∀ b v, R b v → b.length < varLimit → ∃ b', R' b' v

theorem canon_same (R : RType) : Canon R R := fun b _ h _ => ⟨b, h⟩

theorem canon_string (S : Sizes) : Canon (rString S) (rString sentSize) := by
  rintro b v ⟨p, s, -, rfl, rfl⟩ hl
  rw [List.length_append] at hl
  exact ⟨varSize s.length ++ s, varSize s.length, s, ⟨by omega, rfl⟩, rfl, rfl⟩

theorem canon_items {R R' : RType} (h : Canon R R') (items : List (Bytes × Val))
    (hi' : ∀ t ∈ items, R t.1 t.2) (hl : (items.map (·.1)).flatten.length < varLimit) :
    ∃ items' : List (Bytes × Val), (∀ t ∈ items', R' t.1 t.2) ∧ items'.map (·.2) = items.map (·.2) := by
  induction items with
  | nil => exact ⟨[], by simp, rfl⟩
  | cons t ts ih =>
    simp only [List.map_cons, List.flatten_cons, List.length_append] at hl
    obtain ⟨items', h1, h2⟩ := ih (fun x hx => hi' x (by simp [hx])) (by omega)
    obtain ⟨b', hb⟩ := h t.1 t.2 (hi' t (by simp)) (by omega)
    refine ⟨(b', t.2) :: items', ?_, by simp [h2]⟩
    intro x hx
    rcases List.mem_cons.1 hx with rfl | hx
    · exact hb
    · exact h1 x hx

theorem items_le {R : RType} (hpos : ∀ b v, R b v → b ≠ []) (items : List (Bytes × Val))
    (hi' : ∀ t ∈ items, R t.1 t.2) : items.length ≤ (items.map (·.1)).flatten.length := by
  induction items with
  | nil => simp
  | cons t ts ih =>
    have := ih (fun x hx => hi' x (by simp [hx]))
    have := List.length_pos_iff.2 (hpos _ _ (hi' t (by simp)))
    simp only [List.length_cons, List.map_cons, List.flatten_cons, List.length_append]
    omega

theorem canon_array {R R' : RType} (h : Canon R R') (hpos : ∀ b v, R b v → b ≠ []) (S : Sizes) :
    Canon (rArray S R) (rArray sentSize R') := by
  rintro b v ⟨p, items, -, hi', rfl, rfl⟩ hl
  rw [List.length_append] at hl
  obtain ⟨items', h1, h2⟩ := canon_items h items hi' (by omega)
  have hlen : items'.length = items.length := by simpa using congrArg List.length h2
  have := items_le hpos items hi'
  exact ⟨_, varSize items'.length, items', ⟨by omega, rfl⟩, h1, rfl, by rw [h2]⟩

inductive CanonAll : List (String × RType) → List (String × RType) → Prop
  | nil : CanonAll [] []
  | cons {k : String} {R R' : RType} {rs rs' : List (String × RType)} :
      Canon R R' → CanonAll rs rs' → CanonAll ((k, R) :: rs) ((k, R') :: rs')

theorem canon_fields {rs rs' : List (String × RType)} (hr : CanonAll rs rs') {b : Bytes}
    {vs : List (String × Val)} (h : rFields rs b vs) (hl : b.length < varLimit) :
    ∃ b', rFields rs' b' vs := by
  induction hr generalizing b vs with
  | nil => exact ⟨b, h⟩
  | cons hR hr ih =>
    obtain ⟨b₁, v, b₂, ts, h1, h2, rfl, rfl⟩ := h
    rw [List.length_append] at hl
    obtain ⟨b₁', h1'⟩ := hR _ _ h1 (by omega)
    obtain ⟨b₂', h2'⟩ := ih h2 (by omega)
    exact ⟨b₁' ++ b₂', b₁', v, b₂', ts, h1', h2', rfl, rfl⟩

theorem canon_object {rs rs' : List (String × RType)} (hr : CanonAll rs rs') (name : String) :
    Canon (rObject name rs) (rObject name rs') := by
  rintro b v ⟨vs, hf, rfl⟩ hl
  obtain ⟨b', hb⟩ := canon_fields hr hf hl
  exact ⟨b', vs, hb, rfl⟩

theorem number_ne_nil {f : Fmt} {big : Bool} {b : Bytes} {v : Val} (h : rNumber f big b v) : b ≠ [] := by
  obtain ⟨i, -, rfl, -⟩ := h
  intro h0
  have := congrArg List.length h0
  rw [numBytes_length] at this
  have := fmt_size_pos f
  simp at *
  omega

theorem txnIn_ne_nil {S : Sizes} (b : Bytes) (v : Val) (h : rObject "TxnIn" (txnInReading S) b v) : b ≠ [] := by
  obtain ⟨vs, ⟨b₁, v₁, b₂, ts, ⟨vs', ⟨c₁, w, c₂, us, ⟨hc, -⟩, -, rfl, -⟩, -⟩, -, rfl, -⟩, -⟩ := h
  intro h0
  have := congrArg List.length h0
  simp [hc] at this

theorem txnOut_ne_nil {S : Sizes} (b : Bytes) (v : Val) (h : rObject "TxnOut" (txnOutReading S) b v) :
    b ≠ [] := by
  obtain ⟨vs, ⟨b₁, v₁, b₂, ts, h1, -, rfl, -⟩, -⟩ := h
  have := number_ne_nil h1
  simp [this]

theorem txn_canon (S : Sizes) : CanonAll (txReading S) (txReading sentSize) :=
  .cons (canon_same _)
    (.cons (canon_array (canon_object (.cons (canon_same _) (.cons (canon_string S)
        (.cons (canon_same _) .nil))) _) txnIn_ne_nil S)
      (.cons (canon_array (canon_object (.cons (canon_same _) (.cons (canon_string S) .nil)) _)
        txnOut_ne_nil S) (.cons (canon_same _) .nil)))

end NBC.Proto
