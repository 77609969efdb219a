import Verif.Props.Protocol
import Verif.Props.Util
import Verif.Proofs.Piecewise
import Verif.Model.Objects

/-!
C112, C113, C114: objects of the protocol; and C62 for objects.
-/

namespace NBC.Props

open NBC NBC.Proto NBC.Spec NBC.Spec.Wire NBC.Util

/-! ### C62 for objects -/

theorem initLoop_inv {params : List (String × Val)} {ps : Proto.Props} {out : List (String × Val)}
    (h : initLoop params ps = .ok out) :
    out.map (·.1) = ps.map (·.1) ∧ List.Forall₂ (fun p q => ∃ x, getField params p.1 = .ok x ∧
      p.2.validate x = .ok q.2 ∧ q.2.isNone = false) ps out := by
  induction ps generalizing out with
  | nil =>
    cases h
    exact ⟨rfl, .nil⟩
  | cons p ps ih =>
    obtain ⟨key, vt⟩ := p
    simp only [initLoop] at h
    obtain ⟨x, h1, h⟩ := bind_ok_iff.1 h
    obtain ⟨y, h2, h⟩ := bind_ok_iff.1 h
    split_ifs at h with h3
    obtain ⟨r, h4, h⟩ := bind_ok_iff.1 h
    injection h with h
    subst h
    obtain ⟨i1, i2⟩ := ih h4
    exact ⟨by simp [i1], .cons ⟨x, h1, h2, by simpa using h3⟩ i2⟩

theorem compInit_loop {ps : Proto.Props} {args : List Val} {kw out : List (String × Val)}
    (h : compInit ps args kw = .ok out) : ∃ params, initLoop params ps = .ok out := by
  unfold compInit at h
  simp only at h
  split_ifs at h
  exact ⟨_, h⟩

/-- Writing fields one by one. -/
theorem compBinary_of {ps : Proto.Props} {out : List (String × Val)} {bs : List Bytes}
    (hn : (ps.map (·.1)).Nodup) (hk : out.map (·.1) = ps.map (·.1))
    (h : List.Forall₂ (fun p (t : (String × Val) × Bytes) => p.2.binary t.1.2 = .ok t.2) ps (out.zip bs))
    (hl : bs.length = out.length) : compBinary ps out = .ok bs.flatten := by
  have key : ∀ (ps : Proto.Props) (out full : List (String × Val)) (bs : List Bytes),
      (∀ q ∈ out, getField full q.1 = .ok q.2) → out.map (·.1) = ps.map (·.1) → bs.length = out.length →
      List.Forall₂ (fun p (t : (String × Val) × Bytes) => p.2.binary t.1.2 = .ok t.2) ps (out.zip bs) →
      ps.mapM (fun p => do let v ← getField full p.1; p.2.binary v) = .ok bs := by
    intro ps
    induction ps with
    | nil =>
      intro out full bs _ hk hl _
      have : out = [] := by simpa using hk
      subst this
      have : bs = [] := List.length_eq_zero_iff.1 (by simpa using hl)
      subst this
      rfl
    | cons p ps ih =>
      intro out full bs hg hk hl h
      cases out with
      | nil => simp at hk
      | cons q out =>
        cases bs with
        | nil => simp at hl
        | cons b bs =>
          rw [List.zip_cons_cons] at h
          cases h with
          | cons h1 h2 =>
            simp only [List.map_cons, List.cons.injEq] at hk
            rw [List.mapM_cons, ← hk.1, hg q (by simp), ok_bind, h1, ok_bind,
              ih out full bs (fun x hx => hg x (by simp [hx])) hk.2 (by simpa using hl) h2, ok_bind]
            rfl
  unfold compBinary
  rw [key ps out out bs (fun q hq => getField_mem (by rw [hk]; exact hn) hq) hk hl h, ok_bind]

/-- C62 for objects whose fields are of types for which the claim holds: an object made by its constructor is
accepted as it is by a field of its class, and can be serialised; a field refuses objects of other classes.
Missing: fields of the other types (`C62_validated_false`). -/
theorem C62_objects_partial (c : Cls) (hn : (c.props.map (·.1)).Nodup) (hs : ∀ p ∈ c.props, Sends p.2)
    (args : List Val) (kw fields : List (String × Val)) (h : compInit c.props args kw = .ok fields) :
    (ftCompound c).validate (.obj c.name fields) = .ok (.obj c.name fields) ∧
    (∃ b, (ftCompound c).binary (.obj c.name fields) = .ok b) ∧
    ∀ name f, name ≠ c.name → (ftCompound c).validate (.obj name f) = .ok .none := by
  refine ⟨by simp [ftCompound], ?_, fun name f hne => by simp [ftCompound, hne]⟩
  obtain ⟨params, h'⟩ := compInit_loop h
  obtain ⟨hk, hf⟩ := initLoop_inv h'
  have : ∃ bs : List Bytes, bs.length = fields.length ∧ List.Forall₂
      (fun p (t : (String × Val) × Bytes) => p.2.binary t.1.2 = .ok t.2) c.props (fields.zip bs) := by
    clear h h' hk hn
    generalize c.props = ps at *
    induction hf with
    | nil => exact ⟨[], rfl, .nil⟩
    | @cons p q ps out h1 _ ih =>
      obtain ⟨bs, i1, i2⟩ := ih (fun x hx => hs x (by simp [hx]))
      obtain ⟨x, -, h2, h3⟩ := h1
      obtain ⟨b, hb⟩ := hs p (by simp) x q.2 h2 h3
      exact ⟨b :: bs, by simp [i1], .cons hb i2⟩
  obtain ⟨bs, hl, hb⟩ := this
  exact ⟨bs.flatten, by simp only [ftCompound]; exact compBinary_of hn hk hb hl⟩

/-- Outpoints and inventory vectors are such objects. -/
example : (∀ p ∈ outPoint.props, Sends p.2) ∧ ∀ p ∈ inventoryVector.props, Sends p.2 := by
  constructor
  · intro p hp
    simp only [outPoint, List.mem_cons, List.not_mem_nil, or_false] at hp
    rcases hp with rfl | rfl
    · exact C62_validated_partial.2.1 32
    · exact number_sends .I false false
  · intro p hp
    simp only [inventoryVector, List.mem_cons, List.not_mem_nil, or_false] at hp
    rcases hp with rfl | rfl
    · exact number_sends .I false false
    · exact C62_validated_partial.2.1 32

/-! ### C112 -/

/-- An outpoint. -/
def anOutPoint (h : Bytes) (i : Int) : List (String × Val) := [("hash", .bytes h), ("index", .int i)]

/-- C112, for outpoints of different transactions and for other objects: they are unequal.  Missing: outpoints
of the same transaction (`C112_same_transaction_false`). -/
theorem C112_equal_partial (h h' : Bytes) (i i' : Int) (hne : h ≠ h') :
    outPointEq (anOutPoint h i) (.obj "OutPoint" (anOutPoint h' i')) = .ok false ∧
    ∀ v, (∀ f, v ≠ .obj "OutPoint" f) → outPointEq (anOutPoint h i) v = .ok false := by
  constructor
  · show (if sameBytes (.bytes h) (.bytes h') then Except.error PyErr.nameError else .ok false) = _
    rw [if_neg (by simpa [sameBytes] using hne)]
  · intro v hv
    cases v with
    | obj cls f =>
      simp only [outPointEq]
      rw [if_pos]
      rintro rfl
      exact hv f rfl
    | _ => rfl

/-- C112 fails: two outpoints of the same transaction cannot be compared, even an outpoint with itself. -/
theorem C112_same_transaction_false (h : Bytes) (i i' : Int) :
    outPointEq (anOutPoint h i) (.obj "OutPoint" (anOutPoint h i')) = .error .nameError := by
  show (if sameBytes (.bytes h) (.bytes h) then Except.error PyErr.nameError else .ok false) = _
  rw [if_pos (by simp [sameBytes])]

example : compInit outPoint.props [.bytes (List.replicate 32 7), .int 3] [] =
    .ok (anOutPoint (List.replicate 32 7) 3) := rfl

/-! ### C113 -/

theorem getField_append_left {fs gs : List (String × Val)} {k : String} (hk : ∀ p ∈ gs, p.1 ≠ k) :
    getField (fs ++ gs) k = getField fs k := by
  unfold getField
  rw [List.find?_append, show gs.find? (fun p => p.1 = k) = none from
    List.find?_eq_none.2 (fun p hp => by simpa using hk p hp), Option.or_none]

/-- The cache does not change what is serialised. -/
theorem compBinary_cache {ps : Proto.Props} (hk : "__hash" ∉ ps.map (·.1)) (fs : List (String × Val)) (v : Val) :
    compBinary ps (fs ++ [("__hash", v)]) = compBinary ps fs := by
  unfold compBinary
  congr 1
  refine mapM_congr ps (fun p hp => ?_)
  rw [getField_append_left]
  simp only [List.mem_singleton, forall_eq]
  rintro h
  exact hk (h ▸ List.mem_map_of_mem (f := (·.1)) hp)

/-- C113: however often and in whatever order an object is hashed and serialised, it is always serialised as at
the beginning, and its hash is always the double SHA-256 of that (of the part `cut` out of it). -/
theorem C113_hash (H : Hashes) (c : Cls) (cut : Bytes → Bytes) (fields : List (String × Val)) (b : Bytes)
    (hc : "__hash" ∉ c.props.map (·.1)) (hf : "__hash" ∉ fields.map (·.1))
    (hb : compBinary c.props fields = .ok b) (us : List Use) :
    uses H c cut fields us = us.map (fun u => match u with
      | .hash => .ok (.bytes (H.sha256 (H.sha256 (cut b))))
      | .binary => .ok (.bytes b)) := by
  have hnone : fields.find? (fun p => p.1 = "__hash") = none := by
    rw [List.find?_eq_none]
    intro p hp
    simp only [decide_eq_true_eq]
    intro h
    exact hf (h ▸ List.mem_map_of_mem (f := (·.1)) hp)
  have hwarm : ∀ us, uses H c cut (fields ++ [("__hash", .bytes (H.sha256d (cut b)))]) us =
      us.map (fun u => match u with
      | .hash => .ok (.bytes (H.sha256 (H.sha256 (cut b))))
      | .binary => .ok (.bytes b)) := by
    intro us
    induction us with
    | nil => rfl
    | cons u us ih =>
      cases u with
      | hash =>
        have : hashProperty H c cut (fields ++ [("__hash", .bytes (H.sha256d (cut b)))]) =
            (fields ++ [("__hash", .bytes (H.sha256d (cut b)))], .ok (.bytes (H.sha256d (cut b)))) := by
          unfold hashProperty
          rw [List.find?_append, hnone]
          rfl
        rw [uses, this]
        simp only [List.map_cons]
        rw [ih]
        rfl
      | binary =>
        rw [uses, compBinary_cache hc, hb, ih]
        rfl
  induction us with
  | nil => rfl
  | cons u us ih =>
    cases u with
    | hash =>
      have : hashProperty H c cut fields =
          (fields ++ [("__hash", .bytes (H.sha256d (cut b)))], .ok (.bytes (H.sha256d (cut b)))) := by
        unfold hashProperty
        rw [hnone, hb]
      rw [uses, this]
      simp only [List.map_cons]
      rw [hwarm]
      rfl
    | binary =>
      rw [uses, hb, ih]
      rfl

/-- Transactions and headers meet the hypotheses: their fields have other names. -/
example : "__hash" ∉ txn.props.map (·.1) ∧ "__hash" ∉ blockHeader.props.map (·.1) := by decide

/-! ### C114 -/

/-- The first six fields of a block message and of a header. -/
def sixFields (a : BlockAttrs) : List (String × Val) :=
  [("version", a.version), ("prev_block", a.previousHash), ("merkle_root", a.merkleRoot),
    ("timestamp", a.timestamp), ("bits", a.bits), ("nonce", a.nonce)]

theorem six_binary {a : BlockAttrs} {fields : List (String × Val)} (h : headerFromBlock a = .ok fields) :
    fields = sixFields a ++ [("txn_count", .int a.transactions.length)] ∧
    ∃ bs : List Bytes, bs.length = 6 ∧ bs.flatten.length = 80 ∧
      List.Forall₂ (fun p (t : (String × Val) × Bytes) => p.2.binary t.1.2 = .ok t.2)
        (blockHeader.props.take 6) ((sixFields a).zip bs) := by
  obtain ⟨v, p, m, t, b, n, l⟩ := a
  obtain ⟨rfl, ⟨i1, rfl, r1⟩, ⟨x, rfl, hx⟩, ⟨y, rfl, hy⟩, ht, ⟨i3, rfl, r3⟩, ⟨i4, rfl, r4⟩, -⟩ := header_init h
  refine ⟨rfl, ?_⟩
  have hp : ∀ (af : Bool) (i : Int), inRange .I i →
      (ftNumber .I false af).binary (.int i) = .ok (numBytes .I false i) := by
    intro af i hi
    simp only [ftNumber, toInt, ok_bind]
    exact pack_ok hi
  have l4 : ∀ i, (numBytes .I false i).length = 4 := fun i => numBytes_length .I false i
  have ht' : ∃ bt : Bytes, bt.length = 4 ∧ (ftNumber .I false true).binary t = .ok bt := by
    have hval : (ftNumber .I false true).validate t = .ok t ∧ t.isNone = false := by
      obtain ⟨params, h⟩ := compInit_loop h
      obtain ⟨-, hf⟩ := initLoop_inv h
      simp only [blockHeader, headerFields] at hf
      cases hf with
      | cons _ hf => cases hf with
        | cons _ hf => cases hf with
          | cons _ hf => cases hf with
            | cons h4 _ =>
              obtain ⟨x, -, h1, h2⟩ := h4
              have : x = t := by
                simp only [ftNumber, numValidate] at h1
                split at h1 <;> (try split_ifs at h1) <;> simp only [Except.ok.injEq] at h1 <;>
                  first | exact h1 | (subst h1; cases h2)
              subst this
              exact ⟨h1, h2⟩
    obtain ⟨i, bt, -, hr, h3, -⟩ := C60_number .I false true t hval.1 hval.2
    refine ⟨bt, ?_, h3⟩
    simp only [ftNumber] at h3
    obtain ⟨j, -, h5⟩ := bind_ok_iff.1 h3
    rw [(pack_ok_iff.1 h5).2]
    exact l4 j
  obtain ⟨bt, hbt, htb⟩ := ht'
  refine ⟨[numBytes .I false i1, x, y, bt, numBytes .I false i3, numBytes .I false i4], rfl, ?_, ?_⟩
  · simp [l4, hx, hy, hbt]
  · exact .cons (hp _ _ r1) (.cons rfl (.cons rfl (.cons htb (.cons (hp _ _ r3) (.cons (hp _ _ r4) .nil)))))

theorem forall₂_snoc {α β : Type} {R : α → β → Prop} {l : List α} {m : List β} {a : α} {b : β}
    (h : List.Forall₂ R l m) (hab : R a b) : List.Forall₂ R (l ++ [a]) (m ++ [b]) :=
  List.rel_append h (.cons hab .nil)

theorem validated_same {c : Cls} {l l' : List Val} (hl : l.mapM (ftCompound c).validate = .ok l')
    (hall : ∀ x ∈ l', x.isNone = false) : l' = l := by
  induction l generalizing l' with
  | nil =>
    simp only [List.mapM_nil, pure_ok_iff] at hl
    exact hl.symm
  | cons z zs ih =>
    rw [List.mapM_cons] at hl
    obtain ⟨z', h8, hl⟩ := bind_ok_iff.1 hl
    obtain ⟨zs', h9, hl⟩ := bind_ok_iff.1 hl
    rw [pure_ok_iff] at hl
    subst hl
    rw [ih h9 (fun x hx => hall x (by simp [hx]))]
    congr 1
    have hz := hall z' (by simp)
    simp only [ftCompound] at h8
    split at h8
    · split_ifs at h8
      · injection h8 with h8; exact h8.symm
      · injection h8 with h8; subst h8; cases hz
    · injection h8 with h8; subst h8; cases hz

theorem block_fields {a : BlockAttrs} {fm : List (String × Val)} (h : messageFromBlock a = .ok fm)
    {fh : List (String × Val)} (hh : headerFromBlock a = .ok fh) :
    fm = sixFields a ++ [("txns", .tuple a.transactions)] := by
  obtain ⟨e, -⟩ := six_binary hh
  subst e
  have h1 : initLoop (sixFields a ++ [("txns", .tuple a.transactions)]) msgBlock.props = .ok fm := h
  have h2 : initLoop (sixFields a ++ [("txn_count", .int a.transactions.length)]) blockHeader.props =
      .ok (sixFields a ++ [("txn_count", .int a.transactions.length)]) := hh
  obtain ⟨k1, f1⟩ := initLoop_inv h1
  obtain ⟨k2, f2⟩ := initLoop_inv h2
  obtain ⟨v, p, m, t, b, n, l⟩ := a
  simp only [msgBlock] at f1 k1
  simp only [blockHeader, sixFields, List.cons_append, List.nil_append] at f2
  cases f1 with | cons a1 f1 => cases f1 with | cons a2 f1 => cases f1 with | cons a3 f1 => cases f1 with
  | cons a4 f1 => cases f1 with | cons a5 f1 => cases f1 with | cons a6 f1 => cases f1 with | cons a7 f1 =>
  cases f1
  cases f2 with | cons b1 f2 => cases f2 with | cons b2 f2 => cases f2 with | cons b3 f2 => cases f2 with
  | cons b4 f2 => cases f2 with | cons b5 f2 => cases f2 with | cons b6 f2 =>
  rename_i q1 q2 q3 q4 q5 q6 q7
  obtain ⟨x1, g1, v1, n1⟩ := a1
  obtain ⟨x2, g2, v2, n2⟩ := a2
  obtain ⟨x3, g3, v3, n3⟩ := a3
  obtain ⟨x4, g4, v4, n4⟩ := a4
  obtain ⟨x5, g5, v5, n5⟩ := a5
  obtain ⟨x6, g6, v6, n6⟩ := a6
  obtain ⟨x7, g7, v7, n7⟩ := a7
  have c1 : v = x1 := Except.ok.inj g1
  have c2 : p = x2 := Except.ok.inj g2
  have c3 : m = x3 := Except.ok.inj g3
  have c4 : t = x4 := Except.ok.inj g4
  have c5 : b = x5 := Except.ok.inj g5
  have c6 : n = x6 := Except.ok.inj g6
  have c7 : Val.tuple l = x7 := Except.ok.inj g7
  subst c1 c2 c3 c4 c5 c6 c7
  obtain ⟨y1, e1, w1, m1⟩ := b1
  obtain ⟨y2, e2, w2, m2⟩ := b2
  obtain ⟨y3, e3, w3, m3⟩ := b3
  obtain ⟨y4, e4, w4, m4⟩ := b4
  obtain ⟨y5, e5, w5, m5⟩ := b5
  obtain ⟨y6, e6, w6, m6⟩ := b6
  have d1 : v = y1 := Except.ok.inj e1
  have d2 : p = y2 := Except.ok.inj e2
  have d3 : m = y3 := Except.ok.inj e3
  have d4 : t = y4 := Except.ok.inj e4
  have d5 : b = y5 := Except.ok.inj e5
  have d6 : n = y6 := Except.ok.inj e6
  subst d1 d2 d3 d4 d5 d6
  obtain ⟨k1', -⟩ := initLoop_inv h1
  obtain ⟨z1, u1⟩ := q1
  obtain ⟨z2, u2⟩ := q2
  obtain ⟨z3, u3⟩ := q3
  obtain ⟨z4, u4⟩ := q4
  obtain ⟨z5, u5⟩ := q5
  obtain ⟨z6, u6⟩ := q6
  obtain ⟨z7, u7⟩ := q7
  simp only [msgBlock, List.map_cons, List.map_nil, List.cons.injEq, and_true] at k1'
  obtain ⟨rfl, rfl, rfl, rfl, rfl, rfl, rfl⟩ := k1'
  have t1 : u1 = v := Except.ok.inj (v1.symm.trans w1)
  have t2 : u2 = p := Except.ok.inj (v2.symm.trans w2)
  have t3 : u3 = m := Except.ok.inj (v3.symm.trans w3)
  have t4 : u4 = t := Except.ok.inj (v4.symm.trans w4)
  have t5 : u5 = b := Except.ok.inj (v5.symm.trans w5)
  have t6 : u6 = n := Except.ok.inj (v6.symm.trans w6)
  have t7 : u7 = .tuple l := by
    simp only [ftArray, Option.getD_none, ne_eq, not_true_eq_false, false_and, if_false] at v7
    obtain ⟨l', hl, h7⟩ := bind_ok_iff.1 v7
    injection h7 with h7
    split_ifs at h7 with hany
    · subst h7; cases n7
    · have hall : ∀ x ∈ l', x.isNone = false := by
        intro x hx
        by_contra hc
        exact hany (List.any_eq_true.2 ⟨x, hx, by simpa using hc⟩)
      have := validated_same hl hall
      rw [← h7, this]
  subst t1 t2 t3 t4 t5 t6 t7
  rfl

/-- C114: when a block message and a header can be made of a block with fewer than `2^64` transactions, the
header can be written, and its hash is the double SHA-256 of the first 80 bytes of the message, which are
followed by the same number of transactions. -/
theorem C114_block_header (H : Hashes) (a : BlockAttrs) (fm fh : List (String × Val)) (payload : Bytes)
    (hm : messageFromBlock a = .ok fm) (hh : headerFromBlock a = .ok fh)
    (hp : compBinary msgBlock.props fm = .ok payload) (hl : a.transactions.length < 2 ^ 64) :
    blockHash H fh = .ok (H.sha256 (H.sha256 (payload.take 80))) ∧
    ∃ txs, payload.drop 80 = varSize a.transactions.length ++ txs ∧
      compBinary blockHeader.props fh = .ok (payload.take 80 ++ varSize a.transactions.length) := by
  obtain ⟨e1, bs, hb6, hb80, hbs⟩ := six_binary hh
  have e2 := block_fields hm hh
  subst e1 e2
  have hvi : ftVarInteger.binary (.int a.transactions.length) = .ok (varSize a.transactions.length) := by
    have := varIntBinary_eq _ hl
    generalize varSize a.transactions.length = z at *
    simp only [ftVarInteger, this]
  have hlen6 : (sixFields a).length = bs.length := by rw [hb6]; rfl
  have hbin : compBinary blockHeader.props (sixFields a ++ [("txn_count", .int a.transactions.length)]) =
      .ok (bs.flatten ++ varSize a.transactions.length) := by
    have := compBinary_of (ps := blockHeader.props)
      (out := sixFields a ++ [("txn_count", .int a.transactions.length)])
      (bs := bs ++ [varSize a.transactions.length]) (by decide) rfl (by
        rw [List.zip_append hlen6]
        exact forall₂_snoc (a := ("txn_count", ftVarInteger)) hbs hvi) (by simp [hlen6])
    rw [this]
    simp
  obtain ⟨bt, hbt⟩ : ∃ bt, (ftArray (ftCompound txn) none none).binary (.tuple a.transactions) = .ok bt := by
    unfold compBinary at hp
    obtain ⟨xs, h1, -⟩ := bind_ok_iff.1 hp
    obtain ⟨y, -, hy⟩ := (NBC.Piecewise.mapM_mem h1).1 _ (show ("txns", ftArray (ftCompound txn) none none) ∈ msgBlock.props
      by simp [msgBlock])
    obtain ⟨w, hg, hw⟩ := bind_ok_iff.1 hy
    have hg' : getField (sixFields a ++ [("txns", .tuple a.transactions)]) "txns" = .ok (.tuple a.transactions) :=
      getField_mem (by simp only [sixFields, List.cons_append, List.nil_append, List.map_cons, List.map_nil]; decide)
        (show ("txns", Val.tuple a.transactions) ∈ _ by simp)
    have : w = .tuple a.transactions := Except.ok.inj (hg.symm.trans hg')
    subst this
    exact ⟨y, hw⟩
  have hmsg : compBinary msgBlock.props (sixFields a ++ [("txns", .tuple a.transactions)]) =
      .ok (bs.flatten ++ bt) := by
    have := compBinary_of (ps := msgBlock.props) (out := sixFields a ++ [("txns", .tuple a.transactions)])
      (bs := bs ++ [bt]) (by decide) rfl (by
        rw [List.zip_append hlen6]
        exact forall₂_snoc (a := ("txns", ftArray (ftCompound txn) none none)) hbs hbt) (by simp [hlen6])
    rw [this]
    simp
  rw [hmsg] at hp
  injection hp with hp
  subst hp
  rw [List.take_left' hb80, List.drop_left' hb80]
  refine ⟨?_, ?_⟩
  · simp only [blockHash, hbin, ok_bind]
    rw [List.take_left' hb80]
    rfl
  · simp only [ftArray] at hbt
    rw [varIntBinary_eq _ hl, ok_bind] at hbt
    obtain ⟨xs, -, h2⟩ := bind_ok_iff.1 hbt
    injection h2 with h2
    exact ⟨xs.flatten, h2.symm, hbin⟩

/-- An empty block. -/
example : ∃ fm fh payload, messageFromBlock ⟨.int 1, .bytes (List.replicate 32 0), .bytes (List.replicate 32 1),
    .float 3 1, .int 4, .int 5, []⟩ = .ok fm ∧ headerFromBlock ⟨.int 1, .bytes (List.replicate 32 0),
    .bytes (List.replicate 32 1), .float 3 1, .int 4, .int 5, []⟩ = .ok fh ∧
    compBinary msgBlock.props fm = .ok payload := ⟨_, _, _, rfl, rfl, rfl⟩

end NBC.Props
