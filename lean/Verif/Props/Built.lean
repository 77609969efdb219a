import Verif.Proofs.Built
import Verif.Props.Lenient
import Verif.Props.TwoNodes

/-!
C140: whatever can be made and written is a frame with a well-formed payload, and is read back.
-/

namespace NBC.Props

open NBC NBC.Proto NBC.Spec NBC.Spec.Wire NBC.Spec.Reading NBC.Spec.Lenient NBC.Spec.Built NBC.P2P Relation

theorem forall2_left {α β : Type} {R : α → β → Prop} {as : List α} {bs : List β} (h : List.Forall₂ R as bs)
    {a : α} (ha : a ∈ as) : ∃ b ∈ bs, R a b := by
  induction h with
  | nil => cases ha
  | @cons a' b as bs hab _ ih =>
    rcases List.mem_cons.1 ha with rfl | ha
    · exact ⟨b, by simp, hab⟩
    · obtain ⟨b', hb', hr⟩ := ih ha
      exact ⟨b', by simp [hb'], hr⟩

theorem registry_nodup {t : MsgType} (ht : t ∈ registry) : (t.props.map (·.1)).Nodup := by
  simp only [registry, List.mem_cons, List.not_mem_nil, or_false] at ht
  rcases ht with rfl | rfl | rfl | rfl | rfl | rfl | rfl | rfl | rfl | rfl | rfl | rfl | rfl | rfl | rfl | rfl | rfl |
    rfl | rfl | rfl | rfl <;> decide

/-- C140: a message of any type that a program makes, from values that it can make, is written, if it is written at
all, as a frame whose payload consists of the texts of the fields in their order: the values are within the bounds of
the fields, and every length is that of what follows. -/
theorem C140_written (H : Hashes) (magic : Bytes) (t : MsgType) (ht : t ∈ registry) (fields : List (String × Val))
    (hf : Constructed t fields) (b : Bytes) (hb : t.binary H fields magic = .ok b) :
    ∃ ws payload fields', (t.command, ws) ∈ sent writtenSize writtenSize ∧ payload.length < 2 ^ 32 ∧
      b = wireFrame H magic t.command payload ∧ wFields ws fields payload fields' := by
  obtain ⟨payload, hp, rfl⟩ := wire_of_binary ht hb
  obtain ⟨⟨c, ws⟩, hc, rfl, hx⟩ := forall2_left registry_emits ht
  obtain ⟨args, kw, ha, hk, hi'⟩ := hf
  unfold MsgType.binary at hb
  obtain ⟨payload', hp', hb⟩ := bind_ok_iff.1 hb
  obtain ⟨vs', hvs⟩ := compInit_emits hx (registry_nodup ht) ha hk hi' hp'
  have hl : payload'.length < 2 ^ 32 := by
    unfold frame at hb
    obtain ⟨_, -, h⟩ := bind_ok_iff.1 hb
    obtain ⟨_, hl, -⟩ := bind_ok_iff.1 h
    have := (pack_ok_iff.1 hl).1
    unfold inRange hi at this
    simp only [twos, bits, Bool.false_eq_true, if_false] at this
    omega
  rw [frame_eq H (command_mem ht) payload' magic hl] at hb
  exact ⟨ws, payload', vs', hc, hl, (Except.ok.inj hb).symm, hvs⟩

/-- C140, with `C139`: such payloads are texts of their message types, for any choice `T` of size texts that has the
lengths that are written in front of fewer than `N` bytes, and the counts. -/
theorem C140_language (N : Nat) (S V T : Sizes) (hS : ∀ n p, S n p → n + p.length < N → T n p)
    (hV : ∀ n p, V n p → T n p) (command : String) (ws : List (String × WType)) (hc : (command, ws) ∈ sent S V)
    (fields fields' : List (String × Val)) (payload : Bytes) (hp : payload.length < N)
    (h : wFields ws fields payload fields') :
    ∃ ls, (command, ls) ∈ languages T ∧ rFields (fulls ls) payload fields' := by
  obtain ⟨⟨c, ls⟩, hl, e, hx⟩ := forall2_left (sent_texts hS hV) hc
  simp only at e hx
  subst e
  exact ⟨ls, hl, fields_text hx h hp⟩

/-- The transaction counts in a message `headers` satisfy `P`. -/
def Counts (P : Nat → Prop) (fields : List (String × Val)) : Prop :=
  ∀ hs, ("headers", .tuple hs) ∈ fields → ∀ fs, .obj "BlockHeader" fs ∈ hs → ∀ n : Nat,
    ("txn_count", .int n) ∈ fs → P n

theorem wFields_mono {ws ws' : List (String × WType)} {vs vs' : List (String × Val)} {b : Bytes}
    (h : wFields ws vs b vs')
    (hm : List.Forall₂ (fun e e' => e.1 = e'.1 ∧ ∀ v ∈ vs.map (·.2), (e.1, v) ∈ vs → ∀ b v', e.2 v b v' → e'.2 v b v') ws ws') :
    wFields ws' vs b vs' := by
  induction ws generalizing ws' vs b vs' with
  | nil => cases hm; exact h
  | cons e ws ih =>
    obtain ⟨k, W⟩ := e
    cases hm with
    | @cons _ e' _ ws'' he hrest =>
      obtain ⟨k', W'⟩ := e'
      obtain ⟨rfl, he⟩ := he
      obtain ⟨v, b₁, v', ts, b₂, ts', h1, h2, rfl, rfl, rfl⟩ := h
      refine ⟨v, b₁, v', ts, b₂, ts', he v (by simp) (by simp) _ _ h1, ih h2 ?_, rfl, rfl, rfl⟩
      exact hrest.imp (fun e e' hh => ⟨hh.1, fun v hv hm => hh.2 v (by simp [hv]) (by simp [hm])⟩)

theorem forall2_same {α : Type} {R : α → α → Prop} (l : List α) (h : ∀ a ∈ l, R a a) : List.Forall₂ R l l := by
  induction l with
  | nil => exact .nil
  | cons a l ih => exact .cons (h a (by simp)) (ih (fun b hb => h b (by simp [hb])))

/-- A bound on the counts can be carried into the relation. -/
theorem counts_sent {S V : Sizes} {P : Nat → Prop} {command : String} {ws : List (String × WType)}
    (hc : (command, ws) ∈ sent S V) {fields fields' : List (String × Val)} {payload : Bytes}
    (h : wFields ws fields payload fields') (hP : command = "headers" → Counts P fields) :
    ∃ ws', (command, ws') ∈ sent S (fun n p => V n p ∧ P n) ∧ wFields ws' fields payload fields' := by
  by_cases hcm : command = "headers"
  · have hws : ws = [("headers", xArray S (wObject "BlockHeader" (Wire.headerFields ++ [("txn_count", xCount V)])) 0 none)] := by
      subst hcm
      simpa [sent] using hc
    refine ⟨[("headers", xArray S (wObject "BlockHeader" (Wire.headerFields ++
      [("txn_count", xCount fun n p => V n p ∧ P n)])) 0 none)], by rw [hcm]; simp [sent], ?_⟩
    subst hws
    refine wFields_mono h (.cons ⟨rfl, ?_⟩ .nil)
    rintro v - hv b v' ⟨p, items, hS, hi', hlo, hhi, rfl, rfl, rfl⟩
    refine ⟨p, items, hS, ?_, hlo, hhi, rfl, rfl, rfl⟩
    intro t ht
    obtain ⟨fs, fs', hf, e1, e2⟩ := hi' t ht
    refine ⟨fs, fs', wFields_mono hf ?_, e1, e2⟩
    have key : ∀ v, ("txn_count", v) ∈ fs → ∀ b v', xCount V v b v' → xCount (fun n p => V n p ∧ P n) v b v' := by
      rintro v hv' b v' ⟨n, hn, rfl, rfl⟩
      refine ⟨n, ⟨hn, hP hcm _ hv fs ?_ n hv'⟩, rfl, rfl⟩
      exact List.mem_map.2 ⟨t, ht, e1⟩
    exact .cons ⟨rfl, fun _ _ _ _ _ h => h⟩ (.cons ⟨rfl, fun _ _ _ _ _ h => h⟩ (.cons ⟨rfl, fun _ _ _ _ _ h => h⟩
      (.cons ⟨rfl, fun _ _ _ _ _ h => h⟩ (.cons ⟨rfl, fun _ _ _ _ _ h => h⟩ (.cons ⟨rfl, fun _ _ _ _ _ h => h⟩
        (.cons ⟨rfl, fun v _ hv => key v hv⟩ .nil))))))
  · refine ⟨ws, ?_, h⟩
    simp only [sent, List.mem_cons, Prod.mk.injEq, List.not_mem_nil, or_false, hcm, false_and, false_or] at hc ⊢
    exact hc

theorem varSize_long (n : Nat) : n < 0xffffffff ∨ (varSize n).length = 9 := by
  unfold varSize
  split_ifs <;> first | (left; omega) | (right; simp [beBytes_length])

/-- C140: what is made and written is read back, with the values that its texts stand for, whatever follows (the
transaction counts of `headers` being below `2^32 - 1`). -/
theorem C140_read (H : Hashes) (magic rest : Bytes) (hm : magic.length = 4) (t : MsgType) (ht : t ∈ registry)
    (fields : List (String × Val)) (hf : Constructed t fields) (b : Bytes) (hb : t.binary H fields magic = .ok b)
    (hcount : t.command = "headers" → Counts (· < 0xffffffff) fields) :
    ∃ ws payload fields', (t.command, ws) ∈ sent writtenSize writtenSize ∧ wFields ws fields payload fields' ∧
      b = wireFrame H magic t.command payload ∧
      parseMessage H (b ++ rest) magic = .ok ⟨t.command, fields'⟩ := by
  obtain ⟨ws, payload, fields', hc, hp, rfl, hw⟩ := C140_written H magic t ht fields hf b hb
  refine ⟨ws, payload, fields', hc, hw, rfl, ?_⟩
  obtain ⟨ws', hc', hw'⟩ := counts_sent hc hw hcount
  have h1 : ∀ n p, writtenSize n p → n + p.length < 2 ^ 32 → sentSize n p := by
    rintro n p ⟨-, rfl⟩ h
    refine ⟨?_, rfl⟩
    rcases varSize_long n with h' | h'
    · exact h'
    · unfold varLimit
      omega
  obtain ⟨ls, hl, hr⟩ := C140_language (2 ^ 32) _ _ sentSize h1
    (by rintro n p ⟨⟨-, rfl⟩, h⟩; exact ⟨h, rfl⟩) _ _ hc' _ _ _ hp hw'
  obtain ⟨t', ht', hct, hx⟩ := forall2_right (registry_reads sentSize_ok) hl
  simp only at hct hx
  rw [← hct, parseMessage_frame H ht' payload magic rest hm hp, bind_ok_iff]
  exact ⟨_, by simpa using fields_reads hx hr [] [], rfl⟩

theorem varSize_compact {n : Nat} (h : n ≠ 0xffff) (h' : n < 0xffffffff) : compactSize n (varSize n) := by
  refine ⟨by omega, ?_⟩
  unfold varSize compact
  split_ifs <;> first | rfl | omega

/-- C140: a payload shorter than 65535 bytes is in Bitcoin's encoding (the transaction counts of `headers` being
neither 65535 nor above `2^32 - 2`). -/
theorem C140_bitcoin (H : Hashes) (magic : Bytes) (t : MsgType) (ht : t ∈ registry)
    (fields : List (String × Val)) (hf : Constructed t fields) (b : Bytes) (hb : t.binary H fields magic = .ok b)
    (hcount : t.command = "headers" → Counts (fun n => n ≠ 0xffff ∧ n < 0xffffffff) fields)
    (hm : magic.length = 4) (hs : b.length < 24 + 0xffff) :
    ∃ ls payload fields', (t.command, ls) ∈ languages compactSize ∧ rFields (fulls ls) payload fields' ∧
      b = wireFrame H magic t.command payload := by
  obtain ⟨ws, payload, fields', hc, hp, rfl, hw⟩ := C140_written H magic t ht fields hf b hb
  obtain ⟨ws', hc', hw'⟩ := counts_sent hc hw hcount
  have hpl : payload.length < 0xffff := by
    rw [wireFrame_length H (command_mem ht) payload magic hm] at hs
    omega
  have h1 : ∀ n p, writtenSize n p → n + p.length < 0xffff → compactSize n p := by
    rintro n p ⟨-, rfl⟩ h
    exact varSize_compact (by omega) (by omega)
  obtain ⟨ls, hl, hr⟩ := C140_language 0xffff _ _ compactSize h1
    (by rintro n p ⟨⟨-, rfl⟩, h⟩; exact varSize_compact h.1 h.2) _ _ hc' _ _ _ hpl hw'
  exact ⟨ls, payload, fields', hl, hr, rfl⟩

/-- C140 is false of Bitcoin's encoding and longer payloads: of 65535 bytes the length is written in five bytes. -/
theorem C140_bitcoin_false (H : Hashes) (magic : Bytes) (data : Bytes) (hd : data.length = 0xffff) :
    Constructed msgFilteradd [("data", .bytes data)] ∧
    msgFilteradd.binary H [("data", .bytes data)] magic =
      .ok (wireFrame H magic "filteradd" ([0xfe, 0xff, 0xff, 0, 0] ++ data)) ∧
    ¬ ∃ ls fields, ("filteradd", ls) ∈ languages compactSize ∧
      rFields (fulls ls) ([0xfe, 0xff, 0xff, 0, 0] ++ data) fields := by
  refine ⟨⟨[.bytes data], [], by simpa using Built.bytes data, by simp, rfl⟩, ?_, ?_⟩
  · have hv : varStringBinary data = .ok ([0xfe, 0xff, 0xff, 0, 0] ++ data) := by
      rw [varStringBinary_eq data (by rw [hd]; decide), hd]
      rfl
    have hc : compBinary msgFilteradd.props [("data", .bytes data)] = .ok ([0xfe, 0xff, 0xff, 0, 0] ++ data) := by
      simp only [compBinary, msgFilteradd, List.mapM_cons, List.mapM_nil, getField_head, ok_bind, ftVarString, hv]
      simp [pure, Except.pure, bind, Except.bind]
    unfold MsgType.binary
    rw [hc, ok_bind]
    exact frame_eq H (by decide) _ magic (by rw [List.length_append, hd]; decide)
  · rintro ⟨ls, fields, hl, hr⟩
    obtain rfl : ls = [("data", lString compactSize)] := by simpa [languages] using hl
    obtain ⟨b₁, v, b₂, ts, ⟨p, s, ⟨hn, rfl⟩, rfl, -⟩, ⟨rfl, -⟩, e, -⟩ := hr
    rw [List.append_nil] at e
    have hlen := congrArg List.length e
    rw [List.length_append, List.length_append, hd] at hlen
    have h0 := congrArg List.head? e
    unfold compact at hlen h0
    split_ifs at hlen h0 with h1 h2 h3
    · simp only [List.cons_append, List.nil_append, List.head?_cons, Option.some.injEq] at h0
      have := congrArg UInt8.toNat h0
      rw [UInt8.toNat_ofNat', Nat.mod_eq_of_lt (by omega)] at this
      have e : (254 : UInt8).toNat = 254 := rfl
      omega
    · simp at h0
    · simp only [List.length_cons, List.length_nil, List.length_reverse, beBytes_length] at hlen
      omega
    · omega

/-- C140 is false of messages that were received: a ping whose nonce was cut off is written again as it came, and is
no text of a ping. -/
theorem C140_resent_false (H : Hashes) (magic : Bytes) (hm : magic.length = 4) (b : Bytes) (hb : b.length < 8) :
    parseMessage H (wireFrame H magic "ping" b) magic = .ok ⟨"ping", [("nonce", .bytes b)]⟩ ∧
    msgPing.binary H [("nonce", .bytes b)] magic = .ok (wireFrame H magic "ping" b) ∧
    ¬ Constructed msgPing [("nonce", .bytes b)] ∧
    ¬ ∃ ls fields, ("ping", ls) ∈ languages readSize ∧ rFields (fulls ls) b fields := by
  have hbin : msgPing.binary H [("nonce", .bytes b)] magic = .ok (wireFrame H magic "ping" b) := by
    have hc : compBinary msgPing.props [("nonce", .bytes b)] = .ok b := by
      simp [compBinary, msgPing, List.mapM_cons, List.mapM_nil, getField_head, ok_bind, ftBytes, pure, Except.pure, bind,
        Except.bind]
    unfold MsgType.binary
    rw [hc, ok_bind]
    exact frame_eq H (by decide) _ magic (by omega)
  have hno : ¬ ∃ ls fields, ("ping", ls) ∈ languages readSize ∧ rFields (fulls ls) b fields := by
    rintro ⟨ls, fields, hl, hr⟩
    obtain rfl : ls = [("nonce", lBytes 8)] := by simpa [languages] using hl
    obtain ⟨b₁, v, b₂, ts, ⟨h8, -⟩, ⟨rfl, -⟩, rfl, -⟩ := hr
    rw [List.append_nil] at hb
    omega
  refine ⟨by simpa using (C139_short_ping H magic [] hm b hb).1, hbin, fun hmade => ?_, hno⟩
  obtain ⟨ws, payload, fields', hc, hp, e, hw⟩ := C140_written H magic msgPing (by simp [registry]) _ hmade _ hbin
  obtain rfl : ws = [("nonce", wBytes 8)] := by simpa [sent, msgPing] using hc
  obtain ⟨v, b₁, v', ts, b₂, ts', ⟨h8, rfl, -⟩, -, e1, -, -⟩ := hw
  simp only [List.cons.injEq, Prod.mk.injEq, Val.bytes.injEq, true_and] at e1
  rw [e1.1] at hb
  omega

/-! ### What a node sends -/

variable {H : Hashes} {Q : Clock → Nat → Int → Prop}

/-- A message that was made and written. -/
def MadeFrame (H : Hashes) (magic f : Bytes) : Prop :=
  ∃ t ∈ registry, ∃ fields, Constructed t fields ∧ (t.command = "headers" → Counts (· < 0xffffffff) fields) ∧
    t.binary H fields magic = .ok f

/-- The output of the connection `c` consists of such. -/
def MadeOut (H : Hashes) (magic : Bytes) (c : Nat) (n : Node) : Prop :=
  ∀ k, n.conns[c]? = some k → ∃ fs : List Bytes, k.out ++ k.sendBuf = fs.flatten ∧ ∀ f ∈ fs, MadeFrame H magic f

theorem made_prim {n m : Node} {magic : Bytes} (h : Prim2 H Q n m) (c : Nat) (hm : n.magic = magic)
    (hq : ∀ t fields, Q (.own t fields) c 0 → t ∈ registry ∧ Constructed t fields ∧
      (t.command = "headers" → Counts (· < 0xffffffff) fields)) (hn : MadeOut H magic c n) : MadeOut H magic c m := by
  obtain ⟨h1, h2⟩ := queue_prim h c
  intro k' hk'
  cases hk : n.conns[c]? with
  | none => exact ⟨[], h2 k' hk hk', by simp⟩
  | some k =>
    obtain ⟨fs, hf, hall⟩ := hn k hk
    obtain ⟨k1, e, h⟩ := h1 k hk
    rw [hk'] at e
    cases e
    rcases h with e | ⟨t, fields, b, hb, ho, e⟩
    · exact ⟨fs, e.trans hf, hall⟩
    · refine ⟨fs ++ [b], by rw [e, hf]; simp, ?_⟩
      intro f hf'
      rcases List.mem_append.1 hf' with hf' | hf'
      · exact hall f hf'
      · rw [List.mem_singleton.1 hf', ← hm]
        rcases ho with ho | ⟨ht, ⟨hc, hne⟩, -⟩
        · obtain ⟨ht, hc, hh⟩ := hq t fields ho
          exact ⟨t, ht, fields, hc, hh, hb⟩
        · exact ⟨t, ht, fields, hc, fun h => absurd h hne, hb⟩

theorem made_steps {n m : Node} {magic : Bytes} (h : Steps2 H Q n m) (c : Nat) (hm : n.magic = magic)
    (hq : ∀ t fields, Q (.own t fields) c 0 → t ∈ registry ∧ Constructed t fields ∧
      (t.command = "headers" → Counts (· < 0xffffffff) fields)) (hn : MadeOut H magic c n) : MadeOut H magic c m := by
  induction h with
  | refl => exact hn
  | tail hs hp ih => exact made_prim hp c ((steps2_event hs).magic.trans hm) hq ih

theorem made_run (n : Node) (es : List Event) (c : Nat) (magic : Bytes) (hm : n.magic = magic)
    (ho : ∀ t fields, .send c t fields ∈ es → t ∈ registry ∧ Constructed t fields ∧
      (t.command = "headers" → Counts (· < 0xffffffff) fields)) (hn : MadeOut H magic c n) :
    MadeOut H magic c (n.run H es) := by
  induction es generalizing n with
  | nil => exact hn
  | cons e es ih =>
    have hs := steps2_step (H := H) (Q := e.stores) n e (fun _ _ _ h => h)
    refine ih _ ((steps2_event hs).magic.trans hm) (fun t fields h => ho t fields (List.mem_cons_of_mem _ h))
      (made_steps hs c hm (fun t fields h => ?_) hn)
    cases e <;> try exact h.elim
    obtain ⟨rfl, rfl, rfl⟩ := h
    exact ho _ _ (List.mem_cons_self ..)

/-- C140 for a node: in every execution, if the owner sends only messages that they made, all that a connection has
sent or is about to send is a sequence of well-formed messages, and whoever reads them with the same code gets the
values that they stand for. -/
theorem C140_node (n : Node) (hn : n.conns = []) (hm : n.magic.length = 4) (es : List Event) (c : Nat)
    (ho : ∀ t fields, .send c t fields ∈ es → t ∈ registry ∧ Constructed t fields ∧
      (t.command = "headers" → Counts (· < 0xffffffff) fields))
    (k : Conn) (hk : (n.run H es).conns[c]? = some k) :
    ∃ fs : List Bytes, k.out ++ k.sendBuf = fs.flatten ∧ ∀ f ∈ fs, ∃ command ws fields payload fields',
      (command, ws) ∈ sent writtenSize writtenSize ∧ wFields ws fields payload fields' ∧
      f = wireFrame H n.magic command payload ∧
      parseMessage H f n.magic = .ok ⟨command, fields'⟩ := by
  obtain ⟨fs, hf, hall⟩ := made_run (H := H) n es c n.magic rfl ho (fun k hk => by rw [hn] at hk; cases hk) k hk
  refine ⟨fs, hf, fun f hf => ?_⟩
  obtain ⟨t, ht, fields, hc, hh, hb⟩ := hall f hf
  obtain ⟨ws, payload, fields', h1, h2, h3, h4⟩ := C140_read H n.magic [] hm t ht fields hc f hb hh
  exact ⟨t.command, ws, fields, payload, fields', h1, h2, h3, by simpa using h4⟩

/-! ### Examples -/

def someOutPoint : Val := .obj "OutPoint" [("hash", .bytes (List.replicate 32 7)), ("index", .int 3)]

def someIn : Val := .obj "TxnIn"
  [("previous_output", someOutPoint), ("signature_script", .bytes [0x51]), ("sequence", .int 4294967295)]

def someOut : Val := .obj "TxnOut" [("value", .int 5000), ("pk_script", .str ['a', 'b'])]

/-- A transaction with one input and one output. -/
def someTx : List (String × Val) :=
  [("version", .int 1), ("tx_in", .tuple [someIn]), ("tx_out", .tuple [someOut]), ("lock_time", .int 0)]

theorem someTx_made : Constructed msgTx someTx := by
  have h1 : Built someOutPoint :=
    .obj outPoint (by simp [classes]) [.bytes (List.replicate 32 7), .int 3] [] _
      (by simp only [List.forall_mem_cons]; exact ⟨.bytes _, .int _, by simp⟩) (by simp) rfl
  have h2 : Built someIn :=
    .obj txnIn (by simp [classes]) [someOutPoint, .bytes [0x51], .int 4294967295] [] _
      (by simp only [List.forall_mem_cons]; exact ⟨h1, .bytes _, .int _, by simp⟩) (by simp) rfl
  have h3 : Built someOut :=
    .obj txnOut (by simp [classes]) [] [("pk_script", .str ['a', 'b']), ("value", .int 5000)] _
      (by simp) (by simp only [List.forall_mem_cons]; exact ⟨.str _, .int _, by simp⟩) rfl
  refine ⟨[.int 1, .tuple [someIn], .tuple [someOut], .int 0], [], ?_, by simp, rfl⟩
  simp only [List.forall_mem_cons]
  exact ⟨.int _, .tuple _ (by simpa using h2), .tuple _ (by simpa using h3), .int _, by simp⟩

example (H : Hashes) : ∃ b, msgTx.binary H someTx [1, 2, 3, 4] = .ok b := by
  have : compBinary msgTx.props someTx = .ok _ := rfl
  unfold MsgType.binary
  rw [this, ok_bind]
  exact ⟨_, frame_eq H (by decide) _ _ (by decide)⟩

/-- An execution in which the owner sends a message that they made. -/
example : (∀ t fields, .send 0 t fields ∈ callA2 → t ∈ registry ∧ Constructed t fields ∧
    (t.command = "headers" → Counts (· < 0xffffffff) fields)) ∧ ((node0 .py3 125).run Hashes.toy callA2).conns[0]? ≠ none := by
  refine ⟨fun t f h => ?_, by decide +kernel⟩
  simp only [callA2, callA, List.cons_append, List.nil_append, List.mem_cons, List.not_mem_nil, or_false, reduceCtorEq,
    false_or, Event.send.injEq] at h
  obtain ⟨-, rfl, rfl⟩ := h
  refine ⟨by simp [registry], ⟨[.bytes [1, 2, 3, 4, 5, 6, 7, 8]], [], ?_, by simp, rfl⟩, fun h => absurd h (by decide)⟩
  simp only [List.forall_mem_cons]
  exact ⟨.bytes _, by simp⟩

end NBC.Props
