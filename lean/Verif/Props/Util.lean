import Verif.Proofs.Merkle
import Verif.Proofs.Wire

/-!
# C79–C82: versions, Merkle roots, targets and block headers
-/

namespace NBC.Props
open NBC Spec Spec.Wire Spec.Merkle Proto Util Aes

/-! ### C79 -/

/-- C79: accepted arguments are got back. -/
theorem C79_make_get (a b c d v : Int) (h : makeVersion a b c d = .ok v) : getVersion v = (a, b, c, d) := by
  unfold makeVersion at h
  split_ifs at h with hr
  obtain ⟨⟨h1, h2⟩, ⟨h3, h4⟩, h5, h6⟩ := hr
  injection h with h
  subst h
  simp only [getVersion, Prod.mk.injEq]
  refine ⟨?_, ?_, ?_, ?_⟩ <;> omega

example : makeVersion (-3) 14 15 92 = .ok (-2858408) := rfl

/-- C79: every version number is made from its parts. -/
theorem C79_get_make (v : Int) :
    makeVersion (getVersion v).1 (getVersion v).2.1 (getVersion v).2.2.1 (getVersion v).2.2.2 = .ok v := by
  unfold makeVersion
  rw [if_neg (by simp only [getVersion]; omega)]
  congr 1
  simp only [getVersion]
  omega

/-- C79: what is refused are the parts outside `[0, 99]`. -/
theorem C79_refused (a b c d : Int) :
    makeVersion a b c d = .error .valueError ↔
      ¬ (b ∈ Set.Ico 0 100 ∧ c ∈ Set.Ico 0 100 ∧ d ∈ Set.Ico 0 100) := by
  simp only [makeVersion, Set.mem_Ico]
  split_ifs with h <;> simp [h]

/-! ### C80 -/

/-- The serialisations of transactions, for the statements below. -/
theorem C80_root_spec (H : Hashes) (txs : List (List (String × Val))) (bs : List Bytes)
    (hb : txs.mapM (compBinary txn.props) = .ok bs) (hne : txs ≠ []) :
    ∃ r, getMerkleRoot H txs = .ok r ∧ IsRoot H (bs.map H.sha256d) r := by
  have hm : ∀ (txs : List (List (String × Val))) (bs : List Bytes),
      txs.mapM (compBinary txn.props) = .ok bs → txs.mapM (txnHash H) = .ok (bs.map H.sha256d) ∧
      bs.length = txs.length := by
    intro txs
    induction txs with
    | nil =>
      intro bs h
      simp only [List.mapM_nil, pure_ok_iff] at h
      subst h
      exact ⟨rfl, rfl⟩
    | cons t ts ih =>
      intro bs h
      rw [List.mapM_cons] at h
      obtain ⟨b, h1, h⟩ := bind_ok_iff.1 h
      obtain ⟨bs', h2, h⟩ := bind_ok_iff.1 h
      rw [pure_ok_iff] at h
      subst h
      obtain ⟨h3, h4⟩ := ih _ h2
      constructor
      · rw [List.mapM_cons]
        have h5 : txnHash H t = .ok (H.sha256d b) := by simp only [txnHash, h1, ok_bind]
        rw [h5, ok_bind, h3]
        rfl
      · simp [h4]
  obtain ⟨h1, h2⟩ := hm txs bs hb
  have hl : bs.map H.sha256d ≠ [] := by
    intro h0
    rw [List.map_eq_nil_iff] at h0
    subst h0
    exact hne (List.length_eq_zero_iff.1 h2.symm)
  obtain ⟨r, h3, h4⟩ := merkleLoop_spec H (bs.map H.sha256d).length _ (le_refl _) hl
  refine ⟨r, ?_, h4⟩
  simp only [getMerkleRoot, h1, ok_bind, h3]
  rfl

/-- An empty list has no root. -/
theorem C80_empty (H : Hashes) : getMerkleRoot H [] = .error .indexError := rfl

theorem all32_map (H : Hashes) (bs : List Bytes) : All32 (bs.map H.sha256d) := by
  intro x hx
  obtain ⟨y, _, rfl⟩ := List.mem_map.1 hx
  exact H.sha256_length _

/-- C80, for two lists of the same length: if the double hash has no collision among the strings hashed
on the way, equal roots mean equal serialised transactions.  Missing: lists of different lengths. -/
theorem C80_same_length_partial (H : Hashes) (txs txs' : List (List (String × Val))) (bs bs' : List Bytes)
    (r : Bytes) (hb : txs.mapM (compBinary txn.props) = .ok bs)
    (hb' : txs'.mapM (compBinary txn.props) = .ok bs')
    (hr : getMerkleRoot H txs = .ok r) (hr' : getMerkleRoot H txs' = .ok r)
    (hlen : bs.length = bs'.length)
    (hc : CollisionFree H (bs ++ bs' ++ (hashed H (bs.map H.sha256d) ++ hashed H (bs'.map H.sha256d)))) :
    bs = bs' := by
  have hne : txs ≠ [] := by rintro rfl; cases hr
  have hne' : txs' ≠ [] := by rintro rfl; cases hr'
  obtain ⟨s, h1, k, h2, h3⟩ := C80_root_spec H txs bs hb hne
  obtain ⟨s', h1', k', h2', h3'⟩ := C80_root_spec H txs' bs' hb' hne'
  rw [hr] at h1
  rw [hr'] at h1'
  injection h1 with h1
  injection h1' with h1'
  subst h1 h1'
  have hlens : ∀ j, ((next H)^[j] (bs.map H.sha256d)).length = ((next H)^[j] (bs'.map H.sha256d)).length := by
    intro j
    induction j with
    | zero => simp [hlen]
    | succ j ih => rw [Function.iterate_succ_apply', Function.iterate_succ_apply', next_length, next_length, ih]
  have hk : k = k' := by
    rcases Nat.lt_trichotomy k k' with h | h | h
    · have := h3' k h
      rw [← hlens, h2] at this
      simp at this
    · exact h
    · have := h3 k' h
      rw [hlens, h2'] at this
      simp at this
  subst hk
  rcases same_height (all32_map H bs) (all32_map H bs') h2 h3 h2' h3'
    (fun x hx y hy => hc x (List.mem_append_right _ hx) y (List.mem_append_right _ hy)) with h | h
  · exact map_inj_on hc (fun z hz => by simp [hz]) (fun z hz => by simp [hz]) h
  · exact absurd (by simp [hlen]) h.1

/-- C80, for any two lists: equal roots mean equal serialised transactions if the double hash has no
collision among the strings hashed on the way, no transaction is exactly 64 bytes long and no level of
either tree ends with two equal nodes at even length.  The last condition cannot be dropped
(`C80_binds_false`). -/
theorem C80_binds_partial (H : Hashes) (txs txs' : List (List (String × Val))) (bs bs' : List Bytes)
    (r : Bytes) (hb : txs.mapM (compBinary txn.props) = .ok bs)
    (hb' : txs'.mapM (compBinary txn.props) = .ok bs')
    (hr : getMerkleRoot H txs = .ok r) (hr' : getMerkleRoot H txs' = .ok r)
    (hc : CollisionFree H (bs ++ bs' ++ (hashed H (bs.map H.sha256d) ++ hashed H (bs'.map H.sha256d))))
    (h64 : ∀ b ∈ bs ++ bs', b.length ≠ 64)
    (hd : ¬ Doubled H (bs.map H.sha256d)) (hd' : ¬ Doubled H (bs'.map H.sha256d)) : bs = bs' := by
  have main : ∀ (bs bs' : List Bytes) (r : Bytes) (k d : Nat),
      (next H)^[k] (bs.map H.sha256d) = [r] → (∀ j < k, 1 < ((next H)^[j] (bs.map H.sha256d)).length) →
      (next H)^[k + d] (bs'.map H.sha256d) = [r] →
      (∀ j < k + d, 1 < ((next H)^[j] (bs'.map H.sha256d)).length) →
      CollisionFree H (bs ++ bs' ++ (hashed H (bs.map H.sha256d) ++ hashed H (bs'.map H.sha256d))) →
      (∀ b ∈ bs ++ bs', b.length ≠ 64) →
      ¬ Doubled H (bs.map H.sha256d) → ¬ Doubled H (bs'.map H.sha256d) → bs = bs' := by
    intro bs bs' r k d h1 h1' h2 h2' hc h64 hd hd'
    have hc' : CollisionFree H (hashed H (bs.map H.sha256d) ++ hashed H (bs'.map H.sha256d)) :=
      fun x hx y hy => hc x (List.mem_append_right _ hx) y (List.mem_append_right _ hy)
    cases d with
    | zero =>
      rcases same_height (all32_map H bs) (all32_map H bs') h1 h1' h2 h2' hc' with h | ⟨_, h | h⟩
      · exact map_inj_on hc (fun z hz => by simp [hz]) (fun z hz => by simp [hz]) h
      · exact absurd h hd
      · exact absurd h hd'
    | succ d =>
      exfalso
      have hf := first_node (all32_map H bs) (all32_map H bs') h1 h1' h2 h2' hc'
      have hbne : bs ≠ [] := by
        rintro rfl
        have h0 : ∀ k, (next H)^[k] [] = [] := by
          intro k
          induction k with
          | zero => rfl
          | succ k ih => rw [Function.iterate_succ_apply', ih]; rfl
        rw [List.map_nil, h0] at h1
        cases h1
      obtain ⟨b, t, rfl⟩ := List.exists_cons_of_ne_nil hbne
      rw [Function.iterate_succ_apply'] at hf
      have hlv := h2' d (by omega)
      generalize hg : (next H)^[d] (bs'.map H.sha256d) = lv at *
      match lv, hlv with
      | x :: y :: u, hlv =>
        simp only [List.map_cons, List.head?_cons, next, concatPairs, Option.some.injEq] at hf
        have hmem : x ++ y ∈ hashed H (bs'.map H.sha256d) := mem_hashed (k := d) (by rw [hg]; exact hlv)
          (by rw [hg]; simp [concatPairs])
        have := hc b (by simp) (x ++ y) (by simp [hmem]) hf
        refine h64 b (by simp) ?_
        rw [this]
        exact concatPairs_64 (l := x :: y :: u) (by rw [← hg]; exact iter_all32 H (all32_map H bs') d) _
          (by simp [concatPairs])
  have hne : txs ≠ [] := by rintro rfl; cases hr
  have hne' : txs' ≠ [] := by rintro rfl; cases hr'
  obtain ⟨s, h1, k, h2, h3⟩ := C80_root_spec H txs bs hb hne
  obtain ⟨s', h1', k', h2', h3'⟩ := C80_root_spec H txs' bs' hb' hne'
  rw [hr] at h1
  rw [hr'] at h1'
  injection h1 with h1
  injection h1' with h1'
  subst h1 h1'
  rcases Nat.le_total k k' with hk | hk
  · obtain ⟨d, rfl⟩ := Nat.exists_eq_add_of_le hk
    exact main bs bs' r k d h2 h3 h2' h3' hc h64 hd hd'
  · obtain ⟨d, rfl⟩ := Nat.exists_eq_add_of_le hk
    refine (main bs' bs r k' d h2' h3' h2 h3 ?_ ?_ hd' hd).symm
    · intro x hx y hy
      refine hc x ?_ y ?_
      · simp only [List.mem_append] at hx ⊢; tauto
      · simp only [List.mem_append] at hy ⊢; tauto
    · intro b hb; exact h64 b (by simp only [List.mem_append] at hb ⊢; tauto)

/-- A hash that tells apart the strings of the next example. -/
def toyHash : Hashes := { Hashes.toy with
  sha256 := fun x => UInt8.ofNat x.length :: (x.take 31 ++ List.replicate (31 - x.length) 0)
  sha256_length := by intro x; simp; omega }

/-- A transaction of version `v` with one input and one output. -/
def sampleTx (v : Int) : List (String × Val) :=
  [("version", .int v),
   ("tx_in", .tuple [.obj "TxnIn" [("previous_output", .obj "OutPoint"
      [("hash", .bytes (List.replicate 32 7)), ("index", .int 1)]),
      ("signature_script", .bytes [1, 2]), ("sequence", .int 9)]]),
   ("tx_out", .tuple [.obj "TxnOut" [("value", .int 5000), ("pk_script", .bytes [3])]]),
   ("lock_time", .int 0)]

/-- Its bytes, for a small version. -/
def sampleBytes (v : UInt8) : Bytes :=
  [v, 0, 0, 0, 1] ++ List.replicate 32 7 ++ [1, 0, 0, 0, 2, 1, 2, 9, 0, 0, 0, 1, 0x88, 0x13, 0, 0, 0, 0, 0, 0,
    1, 3, 0, 0, 0, 0]

theorem not_doubled_pair (H : Hashes) {x y : Bytes} (h : x ≠ y) : ¬ Doubled H [x, y] := by
  rintro ⟨k, h1, i, a, h2⟩
  cases k with
  | zero =>
    simp only [Function.iterate_zero, id] at h2
    have h3 := congrArg List.length h2
    simp only [List.length_append, List.length_cons, List.length_nil] at h3
    have h4 : i = [] := List.length_eq_zero_iff.1 (by omega)
    subst h4
    simp only [List.nil_append, List.cons.injEq, and_true] at h2
    exact h (h2.1.trans h2.2.symm)
  | succ k =>
    have hlen : ∀ k, ((next H)^[k + 1] [x, y]).length = 1 := by
      intro k
      induction k with
      | zero => rfl
      | succ k ih => rw [Function.iterate_succ_apply', next_length, ih]
    rw [hlen] at h1
    omega

/-- Two transactions meet the hypotheses of `C80_binds_partial`. -/
example : ∃ bs r, [sampleTx 1, sampleTx 2].mapM (compBinary txn.props) = .ok bs ∧
    getMerkleRoot toyHash [sampleTx 1, sampleTx 2] = .ok r ∧
    CollisionFree toyHash (bs ++ bs ++ (hashed toyHash (bs.map toyHash.sha256d) ++
      hashed toyHash (bs.map toyHash.sha256d))) ∧
    (∀ b ∈ bs ++ bs, b.length ≠ 64) ∧ ¬ Doubled toyHash (bs.map toyHash.sha256d) := by
  refine ⟨[sampleBytes 1, sampleBytes 2], _, rfl, rfl, ?_, ?_, not_doubled_pair _ ?_⟩
  · unfold CollisionFree; decide +kernel
  · decide +kernel
  · decide +kernel

/-- C80 fails: repeating the last of three transactions does not change the root, whatever the hash. -/
theorem C80_binds_false (H : Hashes) (a b c : List (String × Val)) :
    getMerkleRoot H [a, b, c] = getMerkleRoot H [a, b, c, c] ∧ [a, b, c] ≠ [a, b, c, c] := by
  refine ⟨?_, fun h => by simpa using congrArg List.length h⟩
  simp only [getMerkleRoot, List.mapM_cons, List.mapM_nil]
  cases txnHash H a with
  | error e => rfl
  | ok x =>
    cases txnHash H b with
    | error e => rfl
    | ok y =>
      cases txnHash H c with
      | error e => rfl
      | ok z => simp [merkleLoop, merkleStep, stride2, pure, Except.pure, ok_bind]

/-! ### C81 -/

theorem bytesLe_iff : ∀ (s t : Bytes), s.length = t.length → (bytesLe s t = true ↔ bytesVal s ≤ bytesVal t)
  | [], [], _ => by simp [bytesLe]
  | a :: s, b :: t, h => by
    have hl : s.length = t.length := by simpa using h
    have ih := bytesLe_iff s t hl
    have h1 := bytesVal_lt s
    have h2 := bytesVal_lt t
    simp only [bytesLe, Bool.or_eq_true, decide_eq_true_eq, Bool.and_eq_true, bytesVal_cons, ih, hl]
    rw [hl] at h1
    rw [UInt8.lt_iff_toNat_lt, ← UInt8.toNat_inj]
    constructor
    · rintro (h | ⟨h, h'⟩)
      · have : (a.toNat + 1) * 256 ^ t.length ≤ b.toNat * 256 ^ t.length := Nat.mul_le_mul_right _ h
        rw [Nat.add_mul] at this
        omega
      · rw [h]; omega
    · intro h'
      rcases Nat.lt_trichotomy a.toNat b.toNat with h | h | h
      · exact .inl h
      · exact .inr ⟨h, by rw [h] at h'; omega⟩
      · exfalso
        have : (b.toNat + 1) * 256 ^ t.length ≤ a.toNat * 256 ^ t.length := Nat.mul_le_mul_right _ h
        rw [Nat.add_mul] at this
        omega

/-- The target of Bitcoin's compact form: the low 23 bits times `256^(exponent - 3)`. -/
def compactTarget (bits : Nat) : Nat := bits % 2 ^ 23 * 256 ^ (bits / 2 ^ 24 - 3)

/-- C81, in Python 2: for exponents 3 to 32 the target is the 32 bytes of the compact value, and comparing
strings compares the numbers.  Missing: Python 3, where it raises (`C81_python3_false`). -/
theorem C81_target_partial (bits : Nat) (h3 : 3 ≤ bits / 2 ^ 24) (h32 : bits / 2 ^ 24 ≤ 32) :
    ∃ t, getTarget .py2 bits = .ok t ∧ t.length = 32 ∧ bytesVal t = compactTarget bits ∧
      ∀ h : Bytes, h.length = 32 → (bytesLe h t = true ↔ bytesVal h ≤ compactTarget bits) := by
  have hm : bits % 2 ^ 23 < 2 ^ 23 := Nat.mod_lt _ (by norm_num)
  have hlt : compactTarget bits < 256 ^ 32 := by
    unfold compactTarget
    calc bits % 2 ^ 23 * 256 ^ (bits / 2 ^ 24 - 3)
        ≤ bits % 2 ^ 23 * 256 ^ 29 := Nat.mul_le_mul_left _ (Nat.pow_le_pow_right (by norm_num) (by omega))
      _ < 2 ^ 23 * 256 ^ 29 := Nat.mul_lt_mul_of_pos_right hm (by positivity)
      _ ≤ 256 ^ 32 := by norm_num
  have ht : targetNat bits = compactTarget bits := by
    unfold targetNat compactTarget
    have e1 : ((bits : Int) % 0x800000).toNat = bits % 2 ^ 23 := by norm_num; omega
    have e2 : (bits : Int) / 0x1000000 - 3 = ((bits / 2 ^ 24 - 3 : Nat) : Int) := by
      norm_num at h3 ⊢; omega
    simp only [e1, e2]
    rw [if_pos (by omega), Int.toNat_natCast, pow_mul]
    norm_num
  refine ⟨beBytes 32 (compactTarget bits), ?_, beBytes_length _ _, bytesVal_beBytes_of_lt hlt, ?_⟩
  · simp only [getTarget, ht]
    rw [show (64 : Nat) = 2 * 32 from rfl, unhexlify_fmtHexPad (by decide) hlt]
  · intro h hl
    rw [bytesLe_iff _ _ (by rw [hl, beBytes_length]), bytesVal_beBytes_of_lt hlt]

example : (486604799 : Nat) / 2 ^ 24 = 29 ∧ compactTarget 486604799 = 0xffff * 256 ^ 26 := by decide

/-- C81, in Python 2, for a coin that has a `proof_of_work`: `verify_target` accepts exactly the headers
whose hash, read little-endian, is at most the target. -/
theorem C81_verify_partial (f : Bytes → Py Bytes) (fields : List (String × Val)) (bin h : Bytes) (bits : Nat)
    (hb : compBinary blockHeader.props fields = .ok bin) (hf : f (bin.take 80) = .ok h)
    (hl : h.length = 32) (hbits : getField fields "bits" = .ok (.int bits))
    (h3 : 3 ≤ bits / 2 ^ 24) (h32 : bits / 2 ^ 24 ≤ 32) :
    verifyTarget .py2 (some f) fields = .ok (decide (bytesVal h.reverse ≤ compactTarget bits)) := by
  obtain ⟨t, h1, _, _, h4⟩ := C81_target_partial bits h3 h32
  simp only [verifyTarget, hb, ok_bind, hf, hbits, h1]
  congr 1
  rw [Bool.eq_iff_iff, h4 _ (by simp [hl]), decide_eq_true_iff]

/-- C81 fails in Python 3, where `str` has no `decode`, for every `bits`. -/
theorem C81_python3_false (bits : Int) : ∀ t, getTarget .py3 bits ≠ .ok t := by
  intro t h
  unfold getTarget at h
  split_ifs at h

/-- C81: `verify_target` cannot be used with any coin of the repository: none has a `proof_of_work`. -/
theorem C81_verify_false (ver : PyVer) (fields : List (String × Val)) :
    ∀ r, verifyTarget ver coinProofOfWork fields ≠ .ok r := by
  intro r h
  unfold verifyTarget coinProofOfWork at h
  obtain ⟨b, _, h⟩ := bind_ok_iff.1 h
  cases h

/-! ### C82 -/

/-- The fields of a block header. -/
def headerFields (v p m t b n c : Val) : List (String × Val) :=
  [("version", v), ("prev_block", p), ("merkle_root", m), ("timestamp", t), ("bits", b), ("nonce", n),
    ("txn_count", c)]

theorem number_valid {f : Fmt} {big : Bool} {v w : Val} (h : (ftNumber f big false).validate v = .ok w)
    (hw : w.isNone = false) : w = v ∧ ∃ i, v = .int i ∧ inRange f i := by
  simp only [ftNumber] at h
  unfold numValidate at h
  split at h
  · rename_i i
    split_ifs at h with hi
    · injection h with h
      rw [range_eq] at hi
      exact ⟨h.symm, i, rfl, hi⟩
    · injection h with h; subst h; cases hw
  · simp only [Bool.false_eq_true, if_false, Except.ok.injEq] at h
    subst h; cases hw
  · injection h with h; subst h; cases hw

theorem bytes_valid {n : Nat} {v w : Val} (h : (ftBytes n).validate v = .ok w)
    (hw : w.isNone = false) : w = v ∧ ∃ b, v = .bytes b ∧ b.length = n := by
  simp only [ftBytes] at h
  split at h
  · rename_i b
    split_ifs at h with hi
    · injection h with h; exact ⟨h.symm, b, rfl, hi⟩
    · injection h with h; subst h; cases hw
  · injection h with h; subst h; cases hw

/-- A constructed header: the fields are the arguments, of the right kinds. -/
theorem header_init {v p m t b n c : Val} {fields : List (String × Val)}
    (h : compInit blockHeader.props [v, p, m, t, b, n, c] [] = .ok fields) :
    fields = headerFields v p m t b n c ∧
    (∃ i, v = .int i ∧ inRange .I i) ∧ (∃ x, p = .bytes x ∧ x.length = 32) ∧
    (∃ x, m = .bytes x ∧ x.length = 32) ∧
    ((∃ i, t = .int i ∧ inRange .I i) ∨ ∃ a k, t = .float a k) ∧
    (∃ i, b = .int i ∧ inRange .I i) ∧ (∃ i, n = .int i ∧ inRange .I i) ∧ ∃ i, c = .int i := by
  have step : ∀ {params : List (String × Val)} {key : String} {vt : FType} {ps : Proto.Props}
      {out : List (String × Val)}, initLoop params ((key, vt) :: ps) = .ok out →
      ∃ x y r, getField params key = .ok x ∧ vt.validate x = .ok y ∧ y.isNone = false ∧
        initLoop params ps = .ok r ∧ out = (key, y) :: r := by
    intro params key vt ps out h
    simp only [initLoop] at h
    obtain ⟨x, h1, h⟩ := bind_ok_iff.1 h
    obtain ⟨y, h2, h⟩ := bind_ok_iff.1 h
    split_ifs at h with h3
    obtain ⟨r, h4, h⟩ := bind_ok_iff.1 h
    injection h with h
    exact ⟨x, y, r, h1, h2, by simpa using h3, h4, h.symm⟩
  have h' : initLoop (headerFields v p m t b n c) blockHeader.props = .ok fields := by
    rw [← h]; rfl
  obtain ⟨x1, y1, r1, g1, v1, n1, h1, rfl⟩ := step h'
  obtain ⟨x2, y2, r2, g2, v2, n2, h2, rfl⟩ := step h1
  obtain ⟨x3, y3, r3, g3, v3, n3, h3, rfl⟩ := step h2
  obtain ⟨x4, y4, r4, g4, v4, n4, h4, rfl⟩ := step h3
  obtain ⟨x5, y5, r5, g5, v5, n5, h5, rfl⟩ := step h4
  obtain ⟨x6, y6, r6, g6, v6, n6, h6, rfl⟩ := step h5
  obtain ⟨x7, y7, r7, g7, v7, n7, h7, rfl⟩ := step h6
  have e1 : v = x1 := Except.ok.inj g1
  have e2 : p = x2 := Except.ok.inj g2
  have e3 : m = x3 := Except.ok.inj g3
  have e4 : t = x4 := Except.ok.inj g4
  have e5 : b = x5 := Except.ok.inj g5
  have e6 : n = x6 := Except.ok.inj g6
  have e7 : c = x7 := Except.ok.inj g7
  subst e1 e2 e3 e4 e5 e6 e7
  have e8 : r7 = [] := (Except.ok.inj h7).symm
  subst e8
  obtain ⟨rfl, w1⟩ := number_valid v1 n1
  obtain ⟨rfl, w2⟩ := bytes_valid v2 n2
  obtain ⟨rfl, w3⟩ := bytes_valid v3 n3
  obtain ⟨rfl, w5⟩ := number_valid v5 n5
  obtain ⟨rfl, w6⟩ := number_valid v6 n6
  have w7 : y7 = c ∧ ∃ i, c = .int i := by
    simp only [ftVarInteger] at v7
    split at v7
    · rename_i i; injection v7 with v7; exact ⟨v7.symm, i, rfl⟩
    · injection v7 with v7; subst v7; cases n7
  obtain ⟨rfl, w7⟩ := w7
  have w4 : y4 = t ∧ ((∃ i, t = .int i ∧ inRange .I i) ∨ ∃ a k, t = .float a k) := by
    simp only [ftNumber] at v4
    unfold numValidate at v4
    split at v4
    · rename_i i
      split_ifs at v4 with hi
      · injection v4 with v4
        rw [range_eq] at hi
        exact ⟨v4.symm, .inl ⟨i, rfl, hi⟩⟩
      · injection v4 with v4; subst v4; cases n4
    · rename_i a k
      simp only [if_true, Except.ok.injEq] at v4
      split_ifs at v4
      · exact ⟨v4.symm, .inr ⟨a, k, rfl⟩⟩
      · subst v4; cases n4
    · injection v4 with v4; subst v4; cases n4
  obtain ⟨rfl, w4⟩ := w4
  exact ⟨rfl, w1, w2, w3, w4, w5, w6, w7⟩

/-- C82, for an integer timestamp and a transaction count in `[0, 2^64)`: the header made by
`get_block_header` is the first 80 bytes of `BlockHeader(..).binary()`, and the block hash is its double
hash, whatever the count.  Missing: float timestamps and other counts (`C82_header_false`). -/
theorem C82_header_partial (H : Hashes) (v p m t b n c : Val) (fields : List (String × Val))
    (h : compInit blockHeader.props [v, p, m, t, b, n, c] [] = .ok fields)
    (ht : ∃ i, t = .int i) (hc : ∃ k : Nat, c = .int k ∧ k < 2 ^ 64) :
    ∃ hdr bin, getBlockHeader v p m t b n = .ok hdr ∧ hdr.length = 80 ∧
      compBinary blockHeader.props fields = .ok bin ∧ bin.take 80 = hdr ∧
      blockHash H fields = .ok (H.sha256d hdr) := by
  obtain ⟨rfl, ⟨i1, rfl, r1⟩, ⟨x, rfl, hx⟩, ⟨y, rfl, hy⟩, ht', ⟨i3, rfl, r3⟩, ⟨i4, rfl, r4⟩, _⟩ := header_init h
  obtain ⟨i2, rfl⟩ := ht
  obtain ⟨k, rfl, hk⟩ := hc
  have r2 : inRange .I i2 := by
    rcases ht' with ⟨i, h1, h2⟩ | ⟨a, q, h1⟩
    · injection h1 with h1; rw [h1]; exact h2
    · cases h1
  have l : ∀ i, (numBytes .I false i).length = 4 := fun i => numBytes_length .I false i
  have e32 : ∀ x : Bytes, x.length = 32 → x.take 32 ++ List.replicate (32 - x.length) 0 = x := by
    intro x hx
    rw [hx, List.take_of_length_le (by omega)]
    simp
  have hbin : compBinary blockHeader.props
      (headerFields (.int i1) (.bytes x) (.bytes y) (.int i2) (.int i3) (.int i4) (.int k)) =
      .ok (numBytes .I false i1 ++ (x ++ (y ++ (numBytes .I false i2 ++ (numBytes .I false i3 ++
        (numBytes .I false i4 ++ varSize k)))))) := by
    have hg : ∀ (key : String) (vt : FType) (v : Val) (bb : Bytes),
        getField (headerFields (.int i1) (.bytes x) (.bytes y) (.int i2) (.int i3) (.int i4) (.int k)) key
          = .ok v → vt.binary v = .ok bb →
        (do let v ← getField (headerFields (.int i1) (.bytes x) (.bytes y) (.int i2) (.int i3) (.int i4)
              (.int k)) key
            vt.binary v) = .ok bb := by
      intro key vt v bb h1 h2
      rw [h1, ok_bind, h2]
    have hp : ∀ (af : Bool) (i : Int), inRange .I i →
        (ftNumber .I false af).binary (.int i) = .ok (numBytes .I false i) := by
      intro af i hi
      simp only [ftNumber, toInt, ok_bind]
      exact pack_ok hi
    have hvi : ftVarInteger.binary (.int k) = .ok (varSize k) := by
      have := varIntBinary_eq k hk
      generalize varSize k = z at *
      simp only [ftVarInteger, this]
    simp only [compBinary, blockHeader, List.mapM_cons, List.mapM_nil]
    rw [hg "version" _ (.int i1) _ rfl (hp _ _ r1), hg "prev_block" _ (.bytes x) x rfl rfl,
      hg "merkle_root" _ (.bytes y) y rfl rfl, hg "timestamp" _ (.int i2) _ rfl (hp _ _ r2),
      hg "bits" _ (.int i3) _ rfl (hp _ _ r3), hg "nonce" _ (.int i4) _ rfl (hp _ _ r4),
      hg "txn_count" _ (.int k) _ rfl hvi]
    simp [ok_bind, pure, Except.pure]
  refine ⟨numBytes .I false i1 ++ x ++ y ++ numBytes .I false i2 ++ numBytes .I false i3 ++
    numBytes .I false i4, _, ?_, ?_, hbin, ?_, ?_⟩
  · simp only [getBlockHeader, packI, pack32s, pack_ok r1, pack_ok r2, pack_ok r3, pack_ok r4, ok_bind,
      e32 x hx, e32 y hy]
  · simp [l, hx, hy]
  · simp only [← List.append_assoc]
    rw [List.take_append_of_le_length (by simp [l, hx, hy]), List.take_of_length_le (by simp [l, hx, hy])]
  · simp only [blockHash, hbin, ok_bind]
    congr 2
    simp only [← List.append_assoc]
    rw [List.take_append_of_le_length (by simp [l, hx, hy]), List.take_of_length_le (by simp [l, hx, hy])]

/-- A header meeting the hypotheses: the genesis block of `nbc/coins/newbitcoin.py` with one transaction
(and zero hashes). -/
example : compInit blockHeader.props [.int 1, .bytes (List.replicate 32 0), .bytes (List.replicate 32 0),
    .int 1231006505, .int 486604799, .int 2083236893, .int 1] [] = .ok (headerFields (.int 1)
    (.bytes (List.replicate 32 0)) (.bytes (List.replicate 32 0)) (.int 1231006505) (.int 486604799)
    (.int 2083236893) (.int 1)) := rfl

/-- C82 fails for a float timestamp, which `BlockHeader` accepts and `struct.pack` refuses, and for a
transaction count outside `[0, 2^64)`, which `BlockHeader` accepts but cannot write, so that the block
has no hash. -/
theorem C82_header_false :
    (∃ v p m t b n c fields, compInit blockHeader.props [v, p, m, t, b, n, c] [] = .ok fields ∧
      getBlockHeader v p m t b n = .error .structError ∧
      ∃ bin, compBinary blockHeader.props fields = .ok bin) ∧
    ∃ v p m t b n c fields, compInit blockHeader.props [v, p, m, t, b, n, c] [] = .ok fields ∧
      (∃ hdr, getBlockHeader v p m t b n = .ok hdr) ∧
      ∀ H, blockHash H fields = .error .structError := by
  constructor
  · exact ⟨.int 1, .bytes (List.replicate 32 0), .bytes (List.replicate 32 0), .float 3 1, .int 4, .int 5,
      .int 6, _, rfl, rfl, _, rfl⟩
  · exact ⟨.int 1, .bytes (List.replicate 32 0), .bytes (List.replicate 32 0), .int 3, .int 4, .int 5,
      .int (-1), _, rfl, ⟨_, rfl⟩, fun _ => rfl⟩

end NBC.Props
