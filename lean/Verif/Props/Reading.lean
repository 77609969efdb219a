import Verif.Proofs.Reading
import Verif.Props.Protocol
import Verif.Props.Objects

/-!
C129, C130: which transaction, block and header texts are read, and the hash of what was read.
-/

namespace NBC.Props

open NBC NBC.Proto NBC.Spec NBC.Spec.Wire NBC.Spec.Reading

/-! ### C130: the texts that are read -/

/-- Reading a payload, for a class whose fields are read from their texts and only from them. -/
theorem parseFields_iff {ps : Proto.Props} {rs : List (String × RType)} (h1 : ReadAll ps rs) (h2 : SoundAll ps rs)
    (payload : Bytes) (o : Nat) (vs : List (String × Val)) :
    parseFields payload ps 0 = .ok (o, vs) ↔
      ∃ text junk, payload = text ++ junk ∧ o = text.length ∧ rFields rs text vs := by
  constructor
  · intro h
    obtain ⟨b, rest, hd, ho, hf⟩ := fields_sound h2 [] payload (o := o) (vs := vs) (by simpa using h)
    exact ⟨b, rest, hd, by simpa using ho, hf⟩
  · rintro ⟨b, rest, rfl, rfl, hf⟩
    simpa using fields_reads h1 hf [] rest

theorem parseMessage_iff (H : Hashes) {t : MsgType} (ht : t ∈ registry) {rs : List (String × RType)}
    (h1 : ReadAll t.props rs) (h2 : SoundAll t.props rs) (payload magic rest : Bytes)
    (hm : magic.length = 4) (hp : payload.length < 2 ^ 32) (m : Msg) :
    parseMessage H (wireFrame H magic t.command payload ++ rest) magic = .ok m ↔
      m.command = t.command ∧ ∃ text junk, payload = text ++ junk ∧ rFields rs text m.fields := by
  rw [parseMessage_frame H ht payload magic rest hm hp, bind_ok_iff]
  constructor
  · rintro ⟨⟨o, kw⟩, h, he⟩
    rw [parseFields_iff h1 h2] at h
    obtain ⟨text, junk, hd, -, hf⟩ := h
    injection he with he
    subst he
    exact ⟨rfl, text, junk, hd, hf⟩
  · rintro ⟨hc, text, junk, hd, hf⟩
    refine ⟨(text.length, m.fields), (parseFields_iff h1 h2 ..).2 ⟨text, junk, hd, rfl, hf⟩, ?_⟩
    obtain ⟨c, f⟩ := m
    simp only at hc
    rw [hc]

/-- C130, transactions: the payload of a message `tx` is accepted exactly when it begins with a text of a
transaction (any of the size texts `readSize`), and the message has the fields that this text stands for. -/
theorem C130_tx (H : Hashes) (payload magic rest : Bytes) (hm : magic.length = 4)
    (hp : payload.length < 2 ^ 32) (m : Msg) :
    parseMessage H (wireFrame H magic "tx" payload ++ rest) magic = .ok m ↔
      m.command = "tx" ∧ ∃ text junk, payload = text ++ junk ∧ rFields (txReading readSize) text m.fields :=
  parseMessage_iff H (t := msgTx) (by simp [registry]) (txn_reads readSize_ok) txn_sound payload magic rest
    hm hp m

/-- C130, blocks. -/
theorem C130_block (H : Hashes) (payload magic rest : Bytes) (hm : magic.length = 4)
    (hp : payload.length < 2 ^ 32) (m : Msg) :
    parseMessage H (wireFrame H magic "block" payload ++ rest) magic = .ok m ↔
      m.command = "block" ∧
        ∃ text junk, payload = text ++ junk ∧ rFields (blockReading readSize) text m.fields :=
  parseMessage_iff H (t := msgBlock) (by simp [registry]) (msgBlock_reads readSize_ok) msgBlock_sound payload
    magic rest hm hp m

/-- C130, headers. -/
theorem C130_headers (H : Hashes) (payload magic rest : Bytes) (hm : magic.length = 4)
    (hp : payload.length < 2 ^ 32) (m : Msg) :
    parseMessage H (wireFrame H magic "headers" payload ++ rest) magic = .ok m ↔
      m.command = "headers" ∧
        ∃ text junk, payload = text ++ junk ∧ rFields (headersReading readSize) text m.fields :=
  parseMessage_iff H (t := msgHeaders) (by simp [registry]) (msgHeaders_reads readSize_ok) msgHeaders_sound
    payload magic rest hm hp m

/-- C130: in particular every block in Bitcoin's encoding is read as what it stands for. -/
theorem C130_bitcoin (H : Hashes) (text magic rest : Bytes) (fields : List (String × Val))
    (hm : magic.length = 4) (hp : text.length < 2 ^ 32)
    (h : rFields (blockReading compactSize) text fields) :
    parseMessage H (wireFrame H magic "block" text ++ rest) magic = .ok ⟨"block", fields⟩ := by
  rw [show ("block" : String) = msgBlock.command from rfl,
    parseMessage_frame H (t := msgBlock) (by simp [registry]) text magic rest hm hp, bind_ok_iff]
  refine ⟨(text.length, fields), ?_, rfl⟩
  have := fields_reads (msgBlock_reads compactSize_ok) h [] []
  simpa using this

/-! ### Examples -/

/-- The input of the example; `p` is the size text of the script `s`. -/
def oneIn (p s : Bytes) : Bytes :=
  (List.replicate 32 7 ++ ([2, 0, 0, 0] ++ [])) ++ ((p ++ s) ++ ([255, 255, 255, 255] ++ []))

/-- The output of the example. -/
def oneOut : Bytes := [80, 0, 0, 0, 0, 0, 0, 0] ++ (([0] ++ []) ++ [])

/-- A transaction with one input and one output. -/
def oneTx (p s : Bytes) : Bytes :=
  [1, 0, 0, 0] ++ (([1] ++ (oneIn p s ++ [])) ++ (([1] ++ (oneOut ++ [])) ++ ([9, 0, 0, 0] ++ [])))

/-- What it stands for. -/
def oneTxFields (s : Bytes) : List (String × Val) :=
  [("version", .int 1),
    ("tx_in", .tuple [.obj "TxnIn" [("previous_output", .obj "OutPoint" [("hash", .bytes (List.replicate 32 7)),
        ("index", .int 2)]), ("signature_script", .bytes s), ("sequence", .int 4294967295)]]),
    ("tx_out", .tuple [.obj "TxnOut" [("value", .int 80), ("pk_script", .bytes [])]]),
    ("lock_time", .int 9)]

theorem num_reading (f : Fmt) (i : Int) (b : Bytes) (h : inRange f i) (hb : b = numBytes f false i) :
    rNumber f false b (.int i) := ⟨i, h, hb, rfl⟩

theorem u32_range (i : Int) (h : 0 ≤ i) (h' : i < 2 ^ 32) : inRange .I i := by
  unfold inRange lo hi; simp only [twos, bits, Bool.false_eq_true, if_false]; exact ⟨h, h'⟩

theorem oneIn_reading {S : Sizes} {p s : Bytes} (hs : S s.length p) : rObject "TxnIn" (txnInReading S) (oneIn p s)
    (.obj "TxnIn" [("previous_output", .obj "OutPoint" [("hash", .bytes (List.replicate 32 7)),
        ("index", .int 2)]), ("signature_script", .bytes s), ("sequence", .int 4294967295)]) :=
  ⟨_, ⟨_, _, _, _, ⟨_, ⟨_, _, _, _, ⟨by simp, rfl⟩, ⟨[2, 0, 0, 0], _, [], _,
      num_reading .I 2 _ (u32_range 2 (by decide) (by decide)) (by decide), ⟨rfl, rfl⟩, rfl, rfl⟩, rfl, rfl⟩, rfl⟩,
    ⟨p ++ s, _, _, _, ⟨p, s, hs, rfl, rfl⟩, ⟨[255, 255, 255, 255], _, [], _,
      num_reading .I 4294967295 _ (u32_range _ (by decide) (by decide)) (by decide), ⟨rfl, rfl⟩, rfl, rfl⟩,
      rfl, rfl⟩, rfl, rfl⟩, rfl⟩

theorem oneOut_reading {S : Sizes} (h0 : S 0 [0]) : rObject "TxnOut" (txnOutReading S) oneOut
    (.obj "TxnOut" [("value", .int 80), ("pk_script", .bytes [])]) :=
  ⟨_, ⟨[80, 0, 0, 0, 0, 0, 0, 0], _, _, _, num_reading .q 80 _ (by
      unfold inRange lo hi
      simp only [twos, bits, if_true]
      decide) (by decide),
    ⟨_, _, [], _, ⟨[0], [], h0, rfl, rfl⟩, ⟨rfl, rfl⟩, rfl, rfl⟩, rfl, rfl⟩, rfl⟩

theorem one_reading {S : Sizes} {R : RType} {b : Bytes} {v : Val} (h1 : S 1 [1]) (h : R b v) :
    rArray S R ([1] ++ (b ++ [])) (.tuple [v]) :=
  ⟨[1], [(b, v)], h1, by simpa using h, rfl, rfl⟩

theorem oneTx_reading {S : Sizes} {p s : Bytes} (h0 : S 0 [0]) (h1 : S 1 [1]) (hs : S s.length p) :
    rFields (txReading S) (oneTx p s) (oneTxFields s) :=
  ⟨[1, 0, 0, 0], _, _, _, num_reading .I 1 _ (u32_range 1 (by decide) (by decide)) (by decide),
    ⟨_, _, _, _, one_reading h1 (oneIn_reading hs), ⟨_, _, _, _, one_reading h1 (oneOut_reading h0),
      ⟨[9, 0, 0, 0], _, [], _, num_reading .I 9 _ (u32_range 9 (by decide) (by decide)) (by decide), ⟨rfl, rfl⟩,
        rfl, rfl⟩, rfl, rfl⟩, rfl, rfl⟩, rfl, rfl⟩

theorem small_read (n : Nat) (h : n < 253) : readSize n [UInt8.ofNat n] :=
  .inl ⟨by omega, by omega, by omega, rfl⟩

theorem small_compact (n : Nat) (h : n < 253) : compactSize n [UInt8.ofNat n] :=
  ⟨by omega, by unfold compact; rw [if_pos (by omega)]⟩

theorem small_sent (n : Nat) (h : n < 253) : sentSize n [UInt8.ofNat n] :=
  ⟨by unfold varLimit; omega, by unfold varSize; rw [if_pos h]⟩

/-- A transaction of Bitcoin's encoding, and the same with junk behind it and with a size of three bytes that
would fit into one. -/
example (H : Hashes) : ∃ m, parseMessage H (wireFrame H [1, 2, 3, 4] "tx" (oneTx [2] [5, 6]) ++ [8])
      [1, 2, 3, 4] = .ok m ∧ m.fields = oneTxFields [5, 6] :=
  ⟨⟨"tx", oneTxFields [5, 6]⟩, (C130_tx H _ _ _ rfl (by decide) _).2 ⟨rfl, _, [], (List.append_nil _).symm,
    oneTx_reading (small_read 0 (by decide)) (small_read 1 (by decide)) (small_read 2 (by decide))⟩, rfl⟩

example (H : Hashes) : ∃ m, parseMessage H (wireFrame H [1, 2, 3, 4] "tx" (oneTx [0xfd, 2, 0] [5, 6] ++ [1, 2]) ++
      [8]) [1, 2, 3, 4] = .ok m ∧ m.fields = oneTxFields [5, 6] :=
  ⟨⟨"tx", oneTxFields [5, 6]⟩, (C130_tx H _ _ _ rfl (by decide) _).2 ⟨rfl, _, [1, 2], rfl,
    oneTx_reading (small_read 0 (by decide)) (small_read 1 (by decide)) (.inr (.inl ⟨by decide, by decide⟩))⟩, rfl⟩

theorem header_reading {rs : List (String × RType)} {tail : Bytes} {ts : List (String × Val)} (a b : Bytes)
    (ha : a.length = 32) (hb : b.length = 32) (h : rFields rs tail ts) :
    rFields (headerReading ++ rs) ([1, 0, 0, 0] ++ (a ++ (b ++ ([5, 0, 0, 0] ++ ([6, 0, 0, 0] ++
        ([7, 0, 0, 0] ++ tail))))))
      (("version", .int 1) :: ("prev_block", .bytes a) :: ("merkle_root", .bytes b) :: ("timestamp", .int 5) ::
        ("bits", .int 6) :: ("nonce", .int 7) :: ts) :=
  ⟨[1, 0, 0, 0], _, _, _, num_reading .I 1 _ (u32_range 1 (by decide) (by decide)) (by decide), ⟨a, _, _, _,
    ⟨ha, rfl⟩, ⟨b, _, _, _, ⟨hb, rfl⟩,
    ⟨[5, 0, 0, 0], _, _, _, num_reading .I 5 _ (u32_range 5 (by decide) (by decide)) (by decide),
    ⟨[6, 0, 0, 0], _, _, _, num_reading .I 6 _ (u32_range 6 (by decide) (by decide)) (by decide),
    ⟨[7, 0, 0, 0], _, _, _, num_reading .I 7 _ (u32_range 7 (by decide) (by decide)) (by decide), h,
    rfl, rfl⟩, rfl, rfl⟩, rfl, rfl⟩, rfl, rfl⟩, rfl, rfl⟩, rfl, rfl⟩

/-- Bitcoin's encoding of a block with this transaction. -/
example (a b : Bytes) (ha : a.length = 32) (hb : b.length = 32) : ∃ text fields,
    rFields (blockReading compactSize) text fields ∧
    fields.getLast? = some ("txns", .tuple [.obj "Txn" (oneTxFields [5, 6])]) :=
  ⟨_, _, header_reading a b ha hb ⟨_, _, [], _, one_reading (small_compact 1 (by decide))
    ⟨_, oneTx_reading (s := [5, 6]) (small_compact 0 (by decide)) (small_compact 1 (by decide))
      (small_compact 2 (by decide)), rfl⟩,
    ⟨rfl, rfl⟩, rfl, rfl⟩, rfl⟩

/-! ### C129: the hash of what was read -/

theorem rFields_keys {rs : List (String × RType)} {b : Bytes} {vs : List (String × Val)} (h : rFields rs b vs) :
    vs.map (·.1) = rs.map (·.1) := by
  induction rs generalizing b vs with
  | nil => obtain ⟨-, rfl⟩ := h; rfl
  | cons p ps ih =>
    obtain ⟨k, R⟩ := p
    obtain ⟨b₁, v, b₂, ts, -, h2, -, rfl⟩ := h
    simp [ih h2]

/-- C129, transactions: a transaction that was read from the text `text` is written as some `sent`, its hash is
the double SHA-256 of `sent`, however it is used, and `sent` is `text` exactly when all size texts of `text` are
those that this code writes. -/
theorem C129_tx_partial (H : Hashes) (text : Bytes) (fields : List (String × Val)) (hl : text.length < varLimit)
    (h : rFields (txReading readSize) text fields) :
    ∃ sent, (∀ us, uses H txn id fields us = us.map (fun u => match u with
        | .hash => .ok (.bytes (H.sha256 (H.sha256 sent)))
        | .binary => .ok (.bytes sent))) ∧
      rFields (txReading sentSize) sent fields ∧
      (sent = text ↔ rFields (txReading sentSize) text fields) := by
  obtain ⟨sent, hs⟩ := canon_fields (txn_canon readSize) h hl
  have hb : compBinary txn.props fields = .ok sent := fields_writes txn_writes (by decide) hs
  have hk : "__hash" ∉ fields.map (·.1) := by
    rw [rFields_keys h]; simp [txReading]
  refine ⟨sent, fun us => C113_hash H txn id fields sent (by decide) hk hb us, hs, ?_⟩
  constructor
  · rintro rfl; exact hs
  · intro h'
    have := fields_writes txn_writes (by decide) h'
    rw [hb, Except.ok.injEq] at this
    exact this

/-- The text of the example, and its script of three bytes: written as it was read. -/
example (H : Hashes) : uses H txn id (oneTxFields [5, 6]) [.hash] =
    [.ok (.bytes (H.sha256 (H.sha256 (oneTx [2] [5, 6]))))] := by
  have h := oneTx_reading (s := [5, 6]) (small_sent 0 (by decide)) (small_sent 1 (by decide))
    (small_sent 2 (by decide))
  obtain ⟨sent, h1, -, h3⟩ := C129_tx_partial H (oneTx [2] [5, 6]) (oneTxFields [5, 6]) (by decide)
    (oneTx_reading (small_read 0 (by decide)) (small_read 1 (by decide)) (small_read 2 (by decide)))
  rw [h1 [.hash], h3.2 h]
  rfl

theorem oneTx_length (p s : Bytes) : (oneTx p s).length = 59 + p.length + s.length := by
  simp only [oneTx, oneIn, oneOut, List.length_append, List.length_cons, List.length_nil, List.length_replicate]
  omega

/-- C129 is false of Bitcoin's texts: a transaction with a script of 65535 bytes is read, but its hash is that of
another text, with a longer size. -/
theorem C129_compact_false (H : Hashes) (s : Bytes) (hs : s.length = 0xffff) :
    ∃ text fields sent, rFields (txReading compactSize) text fields ∧
      parseFields text txn.props 0 = .ok (text.length, fields) ∧
      uses H txn id fields [.hash] = [.ok (.bytes (H.sha256 (H.sha256 sent)))] ∧ sent ≠ text := by
  have hc : rFields (txReading compactSize) (oneTx (compact 0xffff) s) (oneTxFields s) :=
    oneTx_reading (small_compact 0 (by decide)) (small_compact 1 (by decide)) ⟨by omega, by rw [hs]⟩
  have hw : rFields (txReading sentSize) (oneTx (varSize 0xffff) s) (oneTxFields s) :=
    oneTx_reading (small_sent 0 (by decide)) (small_sent 1 (by decide)) ⟨by rw [hs]; decide, by rw [hs]⟩
  refine ⟨oneTx (compact 0xffff) s, oneTxFields s, oneTx (varSize 0xffff) s, hc, ?_, ?_, ?_⟩
  · have := fields_reads (txn_reads compactSize_ok) hc [] []
    simpa using this
  · exact C113_hash H txn id _ _ (by decide) (by rw [rFields_keys hc]; simp [txReading])
      (fields_writes txn_writes (by decide) hw) [.hash]
  · intro h
    have := congrArg List.length h
    rw [oneTx_length, oneTx_length] at this
    have e1 : (varSize 0xffff).length = 5 := by decide
    have e2 : (compact 0xffff).length = 3 := by decide
    omega

/-- C129: two different texts are read as the same transaction, with the same hash. -/
theorem C129_texts_false : ∃ text text' : Bytes, text ≠ text' ∧ ∃ fields,
    parseFields text txn.props 0 = .ok (text.length, fields) ∧
    parseFields text' txn.props 0 = .ok (text'.length, fields) := by
  refine ⟨oneTx [2] [5, 6], oneTx [0xfd, 2, 0] [5, 6], by decide, oneTxFields [5, 6], ?_, ?_⟩
  · have := fields_reads (txn_reads readSize_ok) (oneTx_reading (s := [5, 6]) (small_read 0 (by decide))
      (small_read 1 (by decide)) (small_read 2 (by decide))) [] []
    simpa using this
  · have := fields_reads (txn_reads readSize_ok) (oneTx_reading (p := [0xfd, 2, 0]) (s := [5, 6])
      (small_read 0 (by decide)) (small_read 1 (by decide)) (.inr (.inl ⟨by decide, by decide⟩))) [] []
    simpa using this

/-- C129, headers: the hash of a header that was read is the double SHA-256 of the first 80 bytes of its text,
however its transaction count is written. -/
theorem C129_header (H : Hashes) (text : Bytes) (fields : List (String × Val))
    (h : rFields (headerReading ++ [("txn_count", rSize readSize)]) text fields) :
    ∀ (us : List Use) (i : Nat), us[i]? = some Use.hash →
      (uses H blockHeader (List.take 80) fields us)[i]? =
        some (Except.ok (Val.bytes (H.sha256 (H.sha256 (text.take 80))))) := by
  have hk : "__hash" ∉ fields.map (·.1) := by
    rw [rFields_keys h]; simp [headerReading]
  obtain ⟨b1, v1, r1, t1, ⟨i1, hr1, rfl, rfl⟩, ⟨b2, v2, r2, t2, ⟨hb2, rfl⟩, ⟨b3, v3, r3, t3, ⟨hb3, rfl⟩,
    ⟨b4, v4, r4, t4, ⟨i4, hr4, rfl, rfl⟩, ⟨b5, v5, r5, t5, ⟨i5, hr5, rfl, rfl⟩, ⟨b6, v6, r6, t6,
    ⟨i6, hr6, rfl, rfl⟩, ⟨b7, v7, r7, t7, ⟨n, hn, rfl⟩, ⟨rfl, rfl⟩, rfl, rfl⟩, rfl, rfl⟩, rfl, rfl⟩, rfl, rfl⟩,
    rfl, rfl⟩, rfl, rfl⟩, rfl, rfl⟩ := h
  have hn64 : n < 2 ^ 64 := by
    rcases hn with ⟨h, -⟩ | ⟨h, -⟩ | ⟨h, -⟩ <;> omega
  set vs : List (String × Val) := [("version", .int i1), ("prev_block", .bytes b2), ("merkle_root", .bytes b3),
    ("timestamp", .int i4), ("bits", .int i5), ("nonce", .int i6), ("txn_count", .int n)] with hvs
  have head : ∀ tail : Bytes, (numBytes .I false i1 ++ (b2 ++ (b3 ++ (numBytes .I false i4 ++
      (numBytes .I false i5 ++ (numBytes .I false i6 ++ tail)))))).take 80 =
      numBytes .I false i1 ++ (b2 ++ (b3 ++ (numBytes .I false i4 ++
      (numBytes .I false i5 ++ numBytes .I false i6)))) := by
    intro tail
    simp only [← List.append_assoc]
    refine List.take_left' ?_
    simp only [List.length_append, numBytes_length, hb2, hb3]
    rfl
  have hw : rFields (headerReading ++ [("txn_count", fun b v => ∃ n : Nat, n < 2 ^ 64 ∧ b = varSize n ∧ v = .int n)])
      (numBytes .I false i1 ++ (b2 ++ (b3 ++ (numBytes .I false i4 ++
      (numBytes .I false i5 ++ (numBytes .I false i6 ++ (varSize n ++ []))))))) vs :=
    ⟨_, _, _, _, num_reading .I i1 _ hr1 rfl, ⟨_, _, _, _, ⟨hb2, rfl⟩, ⟨_, _, _, _, ⟨hb3, rfl⟩,
    ⟨_, _, _, _, num_reading .I i4 _ hr4 rfl, ⟨_, _, _, _, num_reading .I i5 _ hr5 rfl, ⟨_, _, _, _,
    num_reading .I i6 _ hr6 rfl, ⟨_, _, _, _, ⟨n, hn64, rfl, rfl⟩, ⟨rfl, rfl⟩, rfl, rfl⟩, rfl, rfl⟩, rfl, rfl⟩, rfl, rfl⟩,
    rfl, rfl⟩, rfl, rfl⟩, rfl, rfl⟩
  have hwr : WriteAll blockHeader.props (headerReading ++
      [("txn_count", fun b v => ∃ n : Nat, n < 2 ^ 64 ∧ b = varSize n ∧ v = .int n)]) := by
    refine .cons (number_writes .I false false) (.cons (bytes_writes 32) (.cons (bytes_writes 32)
    (.cons (number_writes .I false true) (.cons (number_writes .I false false)
      (.cons (number_writes .I false false) (.cons ?_ .nil))))))
    rintro b v ⟨n, hn, rfl, rfl⟩
    simp only [ftVarInteger, varIntBinary_eq n hn]
  have hb := fields_writes hwr (by decide) hw
  intro us i hi'
  rw [C113_hash H blockHeader (List.take 80) vs _ (by decide) hk hb us, List.getElem?_map, hi']
  simp only [Option.map_some, head]

/-- A header whose count is written in three bytes. -/
example (H : Hashes) (a b : Bytes) (ha : a.length = 32) (hb : b.length = 32) :
    (uses H blockHeader (List.take 80) [("version", .int 1), ("prev_block", .bytes a), ("merkle_root", .bytes b),
      ("timestamp", .int 5), ("bits", .int 6), ("nonce", .int 7), ("txn_count", .int 0)] [.binary, .hash])[1]? =
    some (Except.ok (Val.bytes (H.sha256 (H.sha256 (([1, 0, 0, 0] ++ (a ++ (b ++
    ([5, 0, 0, 0] ++ ([6, 0, 0, 0] ++ ([7, 0, 0, 0] ++ ([0xfd, 0, 0] ++ []))))))).take 80))))) :=
  C129_header H _ _ (header_reading a b ha hb ⟨_, _, [], _, ⟨0, .inr (.inl ⟨by decide, by decide⟩), rfl⟩,
    ⟨rfl, rfl⟩, rfl, rfl⟩) [.binary, .hash] 1 rfl

end NBC.Props
