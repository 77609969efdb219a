import Verif.Props.NodePeers

/-!
# Properties C76 (version messages) and C78 (idle connections)
-/

namespace NBC.Props
open NBC NBC.Spec NBC.Spec.Wire NBC.Proto NBC.P2P

variable {H : Hashes} {Q : Clock → Nat → Int → Prop}

/-! ### C76 -/

/-- The fields of a version message, in the specification. -/
def versionSpec : List (String × WType) :=
  [("version", wNumber .i false false), ("services", wNumber .Q false false),
      ("timestamp", wNumber .q false true), ("addr_recv", wNetworkAddressNoTimestamp),
      ("addr_from", wNetworkAddressNoTimestamp), ("nonce", wBytes 8), ("user_agent", wVarString),
      ("start_height", wNumber .i false false), ("relay", wRelay)]

theorem versionInfo_ok {vs vs' : List (String × Val)} {payload : Bytes} (h : wFields versionSpec vs payload vs') :
    ∃ f ip fields, versionInfo vs' = .ok f ∧ getField vs "addr_recv" = .ok (.obj "NetworkAddress" fields) ∧
      getField fields "address" = .ok (.str ip) ∧
      ∀ k : Conn, (f k).externalIp = some ip ∧ (f k).isOpen = k.isOpen ∧ (f k).address = k.address := by
  obtain ⟨v1, b1, v1', t1, c1, t1', -, h, rfl, -, rfl⟩ := h
  obtain ⟨v2, b2, v2', t2, c2, t2', -, h, rfl, -, rfl⟩ := h
  obtain ⟨v3, b3, v3', t3, c3, t3', -, h, rfl, -, rfl⟩ := h
  obtain ⟨v4, b4, v4', t4, c4, t4', w4, h, rfl, -, rfl⟩ := h
  obtain ⟨v5, b5, v5', t5, c5, t5', -, h, rfl, -, rfl⟩ := h
  obtain ⟨v6, b6, v6', t6, c6, t6', -, h, rfl, -, rfl⟩ := h
  obtain ⟨v7, b7, v7', t7, c7, t7', -, h, rfl, -, rfl⟩ := h
  obtain ⟨v8, b8, v8', t8, c8, t8', -, h, rfl, -, rfl⟩ := h
  obtain ⟨v9, b9, v9', t9, c9, t9', -, h, rfl, -, rfl⟩ := h
  obtain ⟨rfl, -, rfl⟩ := h
  obtain ⟨t, bt, t', us, us', -, w4, rfl, rfl⟩ := w4
  obtain ⟨u1, d1, u1', s1, e1, s1', -, w4, rfl, -, rfl⟩ := w4
  obtain ⟨u2, d2, u2', s2, e2, s2', hip, w4, rfl, -, rfl⟩ := w4
  obtain ⟨u3, d3, u3', s3, e3, s3', -, -, rfl, -, rfl⟩ := w4
  obtain ⟨-, rfl, rfl⟩ := hip
  refine ⟨fun k => { k with
      services := v2', startHeight := v8', userAgent := v7', version := v1', relay := v9', externalIp := some (ipText d2) },
    ipText d2, ("timestamp", t) :: ("services", u1) :: ("address", .str (ipText d2)) :: ("port", u3) :: s3, ?_, ?_, ?_, ?_⟩
  · unfold versionInfo attr textOf
    rw [getField_cons_ne (by decide), getField_head, ok_bind]
    iterate 7 rw [getField_cons_ne (by decide)]
    rw [getField_head, ok_bind]
    iterate 6 rw [getField_cons_ne (by decide)]
    rw [getField_head, ok_bind, getField_head, ok_bind]
    iterate 8 rw [getField_cons_ne (by decide)]
    rw [getField_head, ok_bind]
    iterate 3 rw [getField_cons_ne (by decide)]
    rw [getField_head, ok_bind]
    simp only
    iterate 2 rw [getField_cons_ne (by decide)]
    rw [getField_head, ok_bind]
    simp only
    rw [ok_bind]
  · iterate 3 rw [getField_cons_ne (by decide)]
    rw [getField_head]
  · iterate 2 rw [getField_cons_ne (by decide)]
    rw [getField_head]
  · intro k
    exact ⟨rfl, rfl, rfl⟩

theorem handleMessage_version (n : Node) (c : Nat) (m : Msg) (now : Int) (h : m.command = "version") (f : Conn → Conn)
    (hf : versionInfo m.fields = .ok f) (hl : n.listening = true) :
    n.handleMessage H c m now = ((n.upd c f).checkExternalIp).sendNew H c msgVerack [] := by
  unfold Node.handleMessage
  rw [if_pos h, hf]
  simp only [hl, if_true]
  unfold Node.dispatch
  rw [h, if_neg (show ¬ "version" = "ping" by decide), if_pos rfl]

/-- The same for a node that has been closed: the attributes are set, and nothing else happens. -/
theorem handleMessage_version_closed (n : Node) (c : Nat) (m : Msg) (now : Int) (h : m.command = "version") (f : Conn → Conn)
    (hf : versionInfo m.fields = .ok f) (hl : n.listening = false) :
    n.handleMessage H c m now = (n.upd c f, some .typeError) := by
  unfold Node.handleMessage
  rw [if_pos h, hf]
  simp [hl]

theorem sendNew_reports (n : Node) (c : Nat) (t : MsgType) (args : List Val) (i : Nat) :
    reports (n.sendNew H c t args).1 = reports n ∧ (n.sendNew H c t args).1.guessedIp = n.guessedIp ∧
      ((n.sendNew H c t args).1.conns[i]?).map (·.externalIp) = (n.conns[i]?).map (·.externalIp) := by
  unfold Node.sendNew
  split
  · exact ⟨rfl, rfl, rfl⟩
  · unfold Node.sendMessage
    split
    · exact ⟨rfl, rfl, rfl⟩
    · refine ⟨?_, rfl, ?_⟩
      · unfold reports Node.upd
        simp only
        generalize n.conns = l
        induction l generalizing c with
        | nil => simp
        | cons a l ih =>
          cases c with
          | zero =>
            rw [List.modify_zero_cons, List.filter_cons, List.filter_cons]
            simp only
            split <;> rfl
          | succ c =>
            rw [List.modify_succ_cons, List.filter_cons, List.filter_cons]
            split
            · rw [List.filterMap_cons, List.filterMap_cons, ih]
            · exact ih c
      · rw [conns_upd]
        cases n.conns[i]? with
        | none => rfl
        | some k =>
          simp only [Option.map_some]
          split <;> rfl

/-- C76, what holds: after a version message from an open connection to a node that has not been closed, what it reports
is recorded, and the guessed external ip is the plurality answer of the current peers.  What is missing is a node that has
been closed and is still served, `C76_closed_false`. -/
theorem C76_version_partial (n : Node) (c : Nat) (now : Int) (vs vs' : List (String × Val)) (payload : Bytes)
    (hw : wFields versionSpec vs payload vs') (hp : payload.length < 2 ^ 32) (hm : n.magic.length = 4) (hc : c ∈ n.peers)
    (hlis : n.listening = true) :
    let m := n.handleFrame H c now (wireFrame H n.magic "version" payload)
    IsPlurality (reports m) m.guessedIp ∧
    ∃ ip fields, getField vs "addr_recv" = .ok (.obj "NetworkAddress" fields) ∧
      getField fields "address" = .ok (.str ip) ∧ (m.conns[c]?).map (·.externalIp) = some (some ip) := by
  intro m
  obtain ⟨t, -, -, -, -, -, h3⟩ := C63_message H "version" versionSpec (List.mem_cons_self ..) vs vs' payload n.magic []
    hw hp hm
  rw [List.append_nil] at h3
  obtain ⟨f, ip, fields, h4, h5, h6, h7⟩ := versionInfo_ok hw
  have hmm : m = (((n.upd c f).checkExternalIp).sendNew H c msgVerack []).1 := by
    show n.handleFrame H c now (wireFrame H n.magic "version" payload) = _
    unfold Node.handleFrame
    rw [h3]
    simp only
    rw [handleMessage_version n c _ now rfl f h4 hlis]
  obtain ⟨k, hk, ho⟩ := mem_peers.1 hc
  have hk' : (n.upd c f).conns[c]? = some (f k) := conns_upd_self n c f hk
  obtain ⟨e1, e2, e3⟩ := sendNew_reports (H := H) (n.upd c f).checkExternalIp c msgVerack [] c
  obtain ⟨p1, -, p3⟩ := C76_plurality (n.upd c f)
  have hne : reports (n.upd c f) ≠ [] := by
    have : ip ∈ reports (n.upd c f) := by
      unfold reports
      exact List.mem_filterMap.2 ⟨f k, List.mem_filter.2 ⟨List.mem_of_getElem? hk', by rw [(h7 k).2.1]; exact ho⟩, (h7 k).1⟩
    intro h
    rw [h] at this
    cases this
  refine ⟨?_, ip, fields, h5, h6, ?_⟩
  · rw [hmm, e1, e2, p3]
    exact p1 hne
  · rw [hmm, e3]
    have : (n.upd c f).checkExternalIp.conns = (n.upd c f).conns := by
      unfold Node.checkExternalIp
      simp only
      split <;> rfl
    rw [this, hk', Option.map_some, (h7 k).1]

/-- **C76 is false of a node that has been closed** while it is served (`node.close()`, or by `asyncore` after an exception
in `handle_accept`): what the peer reports is recorded, but the guess stays as it was, whatever the peers say, and the
version message is not acknowledged. -/
theorem C76_closed_false (n : Node) (c : Nat) (now : Int) (vs vs' : List (String × Val)) (payload : Bytes)
    (hw : wFields versionSpec vs payload vs') (hp : payload.length < 2 ^ 32) (hm : n.magic.length = 4)
    (hlis : n.listening = false) :
    let m := n.handleFrame H c now (wireFrame H n.magic "version" payload)
    m.guessedIp = n.guessedIp ∧ m.conns.map (·.sendBuf) = n.conns.map (·.sendBuf) ∧
    ∃ ip fields, getField vs "addr_recv" = .ok (.obj "NetworkAddress" fields) ∧
      getField fields "address" = .ok (.str ip) ∧ ∀ k, n.conns[c]? = some k → (m.conns[c]?).map (·.externalIp) = some (some ip) := by
  intro m
  obtain ⟨t, -, -, -, -, -, h3⟩ := C63_message H "version" versionSpec (List.mem_cons_self ..) vs vs' payload n.magic []
    hw hp hm
  rw [List.append_nil] at h3
  obtain ⟨f, ip, fields, h4, h5, h6, h7⟩ := versionInfo_ok hw
  have hmm : m = n.upd c f := by
    show n.handleFrame H c now (wireFrame H n.magic "version" payload) = _
    unfold Node.handleFrame
    rw [h3]
    simp only
    rw [handleMessage_version_closed n c _ now rfl f h4 hlis]
  refine ⟨by rw [hmm]; rfl, ?_, ip, fields, h5, h6, fun k hk => ?_⟩
  · rw [hmm]
    refine List.ext_getElem? fun i => ?_
    rw [List.getElem?_map, List.getElem?_map, conns_upd]
    cases n.conns[i]? with
    | none => rfl
    | some k =>
      simp only [Option.map_some]
      split
      · rw [(versionInfo_core h4 k).sendBuf]
      · rfl
  · rw [hmm, conns_upd_self n c f hk, Option.map_some, (h7 k).1]

/-- A version message, as it might arrive. -/
def someVersion : List (String × Val) :=
  let net (ip : Bytes) : Val := .obj "NetworkAddress" [("timestamp", .int 0), ("services", .int 1),
    ("address", .str (ipText ip)), ("port", .int 8333)]
  [("version", .int 70002), ("services", .int 1), ("timestamp", .int 1500000000), ("addr_recv", net someIp),
    ("addr_from", net someIp), ("nonce", .bytes [1, 2, 3, 4, 5, 6, 7, 8]), ("user_agent", .bytes [47, 47]),
    ("start_height", .int 0), ("relay", .int 0)]

example : ∃ payload, wFields versionSpec someVersion payload someVersion ∧ payload.length < 2 ^ 32 := by
  have net : wNetworkAddressNoTimestamp (.obj "NetworkAddress" [("timestamp", .int 0), ("services", .int 1),
      ("address", .str (ipText someIp)), ("port", .int 8333)])
      (numBytes .Q false 1 ++ (someIp ++ (numBytes .H true 8333 ++ []))) (.obj "NetworkAddress" [("timestamp", .int 0),
        ("services", .int 1), ("address", .str (ipText someIp)), ("port", .int 8333)]) :=
    ⟨.int 0, _, _, _, _, .inl ⟨0, rfl, by unfold inRange; decide, rfl, rfl⟩,
      ⟨.int 1, _, _, _, _, _, .inl ⟨1, rfl, by unfold inRange; decide, rfl, rfl⟩,
      ⟨.str (ipText someIp), someIp, _, _, _, _, ⟨by decide, rfl, rfl⟩,
      ⟨.int 8333, _, _, _, _, _, .inl ⟨8333, rfl, by unfold inRange; decide, rfl, rfl⟩, ⟨rfl, rfl, rfl⟩, rfl, rfl, rfl⟩,
        rfl, rfl, rfl⟩, rfl, rfl, rfl⟩, rfl, rfl⟩
  refine ⟨_, ⟨_, _, _, _, _, _, .inl ⟨70002, rfl, by unfold inRange; decide, rfl, rfl⟩,
    ⟨_, _, _, _, _, _, .inl ⟨1, rfl, by unfold inRange; decide, rfl, rfl⟩,
    ⟨_, _, _, _, _, _, .inl ⟨1500000000, rfl, by unfold inRange; decide, rfl, rfl⟩,
    ⟨_, _, _, _, _, _, net, ⟨_, _, _, _, _, _, net,
    ⟨_, _, _, _, _, _, ⟨rfl, rfl, rfl⟩,
    ⟨_, _, _, _, _, _, ⟨[47, 47], by decide, .inl rfl, rfl, rfl⟩,
    ⟨_, _, _, _, _, _, .inl ⟨0, rfl, by unfold inRange; decide, rfl, rfl⟩,
    ⟨_, _, _, _, _, _, .inl ⟨0, rfl, by unfold inRange; decide, rfl, rfl⟩, ⟨rfl, rfl, rfl⟩, rfl, rfl, rfl⟩,
    rfl, rfl, rfl⟩, rfl, rfl, rfl⟩, rfl, rfl, rfl⟩, rfl, rfl, rfl⟩, rfl, rfl, rfl⟩, rfl, rfl, rfl⟩, rfl, rfl, rfl⟩,
    rfl, rfl, rfl⟩, by decide⟩

/-! ### C78 -/

/-- The ping that `readable` queues. -/
theorem ping_sent (n : Node) (c : Nat) (nonce : Bytes) (hl : nonce.length = 8) (hm : n.magic.length = 4) :
    n.sendNew H c msgPing [.bytes nonce] =
      (n.upd c (fun k => { k with sendBuf := k.sendBuf ++ wireFrame H n.magic "ping" nonce }), none) := by
  obtain ⟨t, ht, htc, h1, -, h2, -⟩ := C63_message H "ping" [("nonce", wBytes 8)] (by simp [messages])
    [("nonce", .bytes nonce)] [("nonce", .bytes nonce)] nonce n.magic []
    ⟨_, _, _, [], [], [], ⟨hl, rfl, rfl⟩, ⟨rfl, rfl, rfl⟩, rfl, (List.append_nil _).symm, rfl⟩ (by omega) hm
  have := registered_command (u := msgPing) ht (by simp [registry]) htc
  subst this
  exact sendNew_ok n c msgPing _ _ _ h1 h2

/-- Half an hour since the last transmission and five minutes since the last ping. -/
def Idle (k : Conn) (now : Int) : Prop :=
  k.lastTx ≠ 0 ∧ now - k.lastTx > 30 * 60 * second ∧ now - k.lastPing > 5 * 60 * second

/-- Three hours since the last reception. -/
def Silent (k : Conn) (now : Int) : Prop := k.lastRx ≠ 0 ∧ now - k.lastRx > 3 * 60 * 60 * second

instance (k : Conn) (now : Int) : Decidable (Idle k now) := by unfold Idle; infer_instance
instance (k : Conn) (now : Int) : Decidable (Silent k now) := by unfold Silent; infer_instance

/-- C78: exactly what one poll does (`os.urandom(8)` gives the nonce): a ping if the connection is idle, and it is closed
if it is silent. -/
theorem C78_poll (n : Node) (c : Nat) (k : Conn) (now now' : Int) (nonce : Bytes) (hl : nonce.length = 8)
    (hm : n.magic.length = 4) (hk : n.conns[c]? = some k) :
    let r := n.readable H c now now' nonce
    r.2 = .ok (!decide (Silent k now)) ∧
    r.1.conns[c]? = some { k with
      sendBuf := if Idle k now then k.sendBuf ++ wireFrame H n.magic "ping" nonce else k.sendBuf
      lastPing := if Idle k now then now' else k.lastPing
      isOpen := if Silent k now then false else k.isOpen } ∧
    ∀ i, i ≠ c → r.1.conns[i]? = n.conns[i]? := by
  intro r
  have hu : ∀ (m : Node) (f : Conn → Conn) (i : Nat), i ≠ c → (m.upd c f).conns[i]? = m.conns[i]? := by
    intro m f i hi
    rw [conns_upd]
    simp [hi.symm]
  have hping : ∃ p, n.idlePing H c k now now' nonce = (p, none) ∧
      p.conns[c]? = some { k with
        sendBuf := if Idle k now then k.sendBuf ++ wireFrame H n.magic "ping" nonce else k.sendBuf
        lastPing := if Idle k now then now' else k.lastPing } ∧ ∀ i, i ≠ c → p.conns[i]? = n.conns[i]? := by
    unfold Node.idlePing
    by_cases h : Idle k now
    · rw [if_pos (show k.lastTx ≠ 0 ∧ now - k.lastTx > 1800 * second ∧ now - k.lastPing > 300 * second from h),
        ping_sent n c nonce hl hm]
      simp only [if_pos h]
      exact ⟨_, rfl, conns_upd_self _ _ _ (conns_upd_self _ _ _ hk), fun i hi => by rw [hu _ _ i hi, hu _ _ i hi]⟩
    · rw [if_neg (show ¬ (k.lastTx ≠ 0 ∧ now - k.lastTx > 1800 * second ∧ now - k.lastPing > 300 * second) from h)]
      simp only [if_neg h]
      exact ⟨_, rfl, hk, fun _ _ => rfl⟩
  obtain ⟨p, h1, h2, h3⟩ := hping
  have hr : r = if Silent k now then (p.handleClose c, .ok false) else (p, .ok true) := by
    show n.readable H c now now' nonce = _
    unfold Node.readable
    rw [hk]
    simp only [h1]
    rfl
  by_cases h : Silent k now
  · rw [if_pos h] at hr
    rw [hr]
    simp only [h, decide_true, Bool.not_true, if_true, true_and]
    refine ⟨?_, fun i hi => ?_⟩
    · rw [handleClose_conns, h2]
      simp
    · rw [handleClose_conns, h3 i hi]
      cases n.conns[i]? <;> simp [hi.symm]
  · rw [if_neg h] at hr
    rw [hr]
    simp only [h, decide_false, Bool.not_false, if_false, true_and]
    exact ⟨h2, h3⟩

/-- What a primitive change does to the clock readings of a connection. -/
structure Ticks (Q : Clock → Nat → Int → Prop) (i : Nat) (k k' : Conn) : Prop where
  tx : k'.lastTx = k.lastTx ∨ Q .tx i k'.lastTx
  rx : k'.lastRx = k.lastRx ∨ Q .rx i k'.lastRx
  ping : k'.lastPing = k.lastPing ∨ Q .ping i k'.lastPing

theorem Ticks.refl (i : Nat) (k : Conn) : Ticks Q i k k := ⟨.inl rfl, .inl rfl, .inl rfl⟩

theorem ticks_upd (n : Node) (c : Nat) (f : Conn → Conn) (hf : ∀ k, Ticks Q c k (f k)) (i : Nat) (k : Conn)
    (hk : n.conns[i]? = some k) : ∃ k', (n.upd c f).conns[i]? = some k' ∧ Ticks Q i k k' := by
  rw [conns_upd, hk]
  refine ⟨_, rfl, ?_⟩
  split
  · rename_i h
    subst h
    exact hf k
  · exact .refl i k

theorem prim2_ticks {n m : Node} (hp : Prim2 H Q n m) (i : Nat) (k : Conn) (hk : n.conns[i]? = some k) :
    ∃ k', m.conns[i]? = some k' ∧ Ticks Q i k k' := by
  cases hp with
  | prim _ hp =>
    cases hp with
    | queue c t fields b hb =>
      exact ticks_upd n c (fun k => { k with sendBuf := k.sendBuf ++ b })
        (fun k => ⟨.inl rfl, .inl rfl, .inl rfl⟩) i k hk
    | close c =>
      exact ticks_upd n c (fun k => { k with isOpen := false })
        (fun k => ⟨.inl rfl, .inl rfl, .inl rfl⟩) i k hk
    | sent c k' j now hk' hj hq =>
      exact ticks_upd n c (fun k => { k with
        out := k.out ++ k.sendBuf.take j
        txBytes := k.txBytes + j
        lastTx := now
        sendBuf := k.sendBuf.drop j }) (fun k => ⟨.inr hq, .inl rfl, .inl rfl⟩) i k hk
    | info c f hf => exact ticks_upd n c f (fun k => ⟨.inl (hf k).lastTx, .inl (hf k).lastRx, .inl (hf k).lastPing⟩) i k hk
    | ping c t hq =>
      exact ticks_upd n c (fun k => { k with lastPing := t })
        (fun k => ⟨.inl rfl, .inl rfl, .inr hq⟩) i k hk
    | tx c t hq =>
      exact ticks_upd n c (fun k => { k with lastTx := t })
        (fun k => ⟨.inr hq, .inl rfl, .inl rfl⟩) i k hk
    | new a inc h' =>
      exact ⟨k, by
        show (n.conns ++ _)[i]? = _
        rw [List.getElem?_append_left (List.getElem?_eq_some_iff.1 hk).1, hk], .refl i k⟩
    | add c h' =>
      exact ticks_upd n c (fun k => k.addBanscore)
        (fun k => ⟨.inl rfl, .inl rfl, .inl rfl⟩) i k hk
    | reduce c =>
      exact ticks_upd n c (fun k => k.reduceBanscore)
        (fun k => ⟨.inl rfl, .inl rfl, .inl rfl⟩) i k hk
    | _ => exact ⟨k, hk, .refl i k⟩
  | recv c k' chunk now hk' hq =>
    exact ticks_upd n c (fun k => { k with
      recvBuf := k.recvBuf ++ chunk
      rxBytes := k.rxBytes + chunk.length
      lastRx := now }) (fun k => ⟨.inl rfl, .inr hq, .inl rfl⟩) i k hk
  | setBuf c b =>
    exact ticks_upd n c (fun k => { k with recvBuf := b }) (fun k => ⟨.inl rfl, .inl rfl, .inl rfl⟩) i k hk

/-- The clock readings after a history whose own readings satisfy `P`. -/
theorem run_ticks (n : Node) (c : Nat) (w : Clock) (P : Int → Prop) (g : Conn → Int)
    (hg : ∀ k k' Q, Ticks Q c k k' → g k' = g k ∨ Q w c (g k')) (es : List Event)
    (hes : ∀ e ∈ es, ∀ t, e.stores w c t → P t) (k : Conn) (hk : n.conns[c]? = some k) (h : P (g k)) :
    ∃ k', (n.run H es).conns[c]? = some k' ∧ P (g k') := by
  refine run_invariant_clock (Q := fun w' i t => w' = w → i = c → P t)
    (fun m => ∃ k', m.conns[c]? = some k' ∧ P (g k')) (fun a b hp hh => ?_) n es
    (fun e he w' i t hs h1 h2 => hes e he t (by rw [← h1, ← h2]; exact hs)) ⟨k, hk, h⟩
  obtain ⟨k1, h1, h2⟩ := hh
  obtain ⟨k2, h3, h4⟩ := prim2_ticks hp c k1 h1
  refine ⟨k2, h3, ?_⟩
  rcases hg k1 k2 _ h4 with e | e
  · rw [e]
    exact h2
  · exact e rfl rfl

/-- Whether an event queues something for the connection `c`. -/
def Queues (H : Hashes) (n : Node) (e : Event) (c : Nat) : Prop :=
  ((n.step H e).conns[c]?).map (·.sendBuf) ≠ (n.conns[c]?).map (·.sendBuf)

theorem queues_poll {n : Node} {c : Nat} {now now' : Int} {nonce : Bytes} (hl : nonce.length = 8)
    (hm : n.magic.length = 4) (h : Queues H n (.poll c now now' nonce) c) :
    ∃ k, n.conns[c]? = some k ∧ Idle k now ∧ ∃ k', (n.step H (.poll c now now' nonce)).conns[c]? = some k' ∧
      k'.lastPing = now' := by
  unfold Queues at h
  unfold Node.step at h ⊢
  simp only at h ⊢
  by_cases hp : c ∈ n.peers
  · rw [if_pos hp] at h ⊢
    obtain ⟨k, hk, -⟩ := mem_peers.1 hp
    obtain ⟨-, h2, -⟩ := C78_poll (H := H) n c k now now' nonce hl hm hk
    by_cases hi : Idle k now
    · exact ⟨k, hk, hi, _, h2, by simp [hi]⟩
    · rw [h2, hk] at h
      simp [hi] at h
  · rw [if_neg hp] at h
    exact absurd rfl h

/-- C78: if the socket took bytes at time `t` and what was written later was written at `t` or later, a poll queues a
ping only more than 30 minutes after `t`. -/
theorem C78_idle (n : Node) (c : Nat) (j : Nat) (t : Int) (es : List Event) (now now' : Int) (nonce : Bytes)
    (hl : nonce.length = 8) (hm : n.magic.length = 4) (hc : c ∈ n.peers)
    (hes : ∀ e ∈ es, ∀ r t', e = .write c r t' → t ≤ t')
    (h : Queues H ((n.step H (.write c (.sent j) t)).run H es) (.poll c now now' nonce) c) :
    now - t > 30 * 60 * second := by
  obtain ⟨k, hk, ho⟩ := mem_peers.1 hc
  have hs : ∃ k', (n.step H (.write c (.sent j) t)).conns[c]? = some k' ∧ t ≤ k'.lastTx := by
    unfold Node.step
    simp only [if_pos hc]
    unfold Node.handleWrite
    simp only [hk]
    exact ⟨_, conns_upd_self n c _ hk, Int.le_refl t⟩
  obtain ⟨k1, h1, h2⟩ := hs
  obtain ⟨k2, h3, h4⟩ := run_ticks (H := H) _ c .tx (fun x => t ≤ x) (·.lastTx) (fun _ _ _ h => h.tx) es
    (fun e he t' hst => by
      cases e with
      | write c' r now => obtain ⟨rfl, rfl⟩ := hst; exact hes _ he r _ rfl
      | _ => exact hst.elim) k1 h1 h2
  have hmag : ((n.step H (.write c (.sent j) t)).run H es).magic.length = 4 := by
    rw [(run_event _ es).magic]
    have := (run_event (H := H) n [.write c (.sent j) t]).magic
    rw [show n.run H [.write c (.sent j) t] = n.step H (.write c (.sent j) t) from rfl] at this
    rw [this]
    exact hm
  obtain ⟨k3, h5, h6, -⟩ := queues_poll hl hmag h
  rw [h3] at h5
  cases h5
  have := h6.2.1
  omega

/-- C78: if a poll queued a ping and read the clock as `t` after it, and later polls have not read an earlier time, the
next ping comes more than 5 minutes after `t`. -/
theorem C78_spacing (n : Node) (c : Nat) (t0 t : Int) (nonce0 : Bytes) (es : List Event) (now now' : Int) (nonce : Bytes)
    (hl0 : nonce0.length = 8) (hl : nonce.length = 8) (hm : n.magic.length = 4)
    (h0 : Queues H n (.poll c t0 t nonce0) c)
    (hes : ∀ e ∈ es, ∀ t1 t' x, e = .poll c t1 t' x → t ≤ t')
    (h : Queues H ((n.step H (.poll c t0 t nonce0)).run H es) (.poll c now now' nonce) c) :
    now - t > 5 * 60 * second := by
  obtain ⟨k0, -, -, k1, h1, h2⟩ := queues_poll hl0 hm h0
  obtain ⟨k2, h3, h4⟩ := run_ticks (H := H) _ c .ping (fun x => t ≤ x) (·.lastPing) (fun _ _ _ h => h.ping) es
    (fun e he t' hst => by
      cases e with
      | poll c' t1 t2 x => obtain ⟨rfl, rfl⟩ := hst; exact hes _ he t1 _ x rfl
      | _ => exact hst.elim) k1 h1 (Int.le_of_eq h2.symm)
  have hmag : ((n.step H (.poll c t0 t nonce0)).run H es).magic.length = 4 := by
    rw [(run_event _ es).magic]
    have := (run_event (H := H) n [.poll c t0 t nonce0]).magic
    rw [show n.run H [.poll c t0 t nonce0] = n.step H (.poll c t0 t nonce0) from rfl] at this
    rw [this]
    exact hm
  obtain ⟨k3, h5, h6, -⟩ := queues_poll hl hmag h
  rw [h3] at h5
  cases h5
  have := h6.2.2
  omega

/-- C78, what holds: a connection that has received something, and nothing after time `T`, is closed by a poll more than
three hours after `T`.  (Times are positive.)  What is missing is a connection that has never received anything,
`C78_silent_false`. -/
theorem C78_silent_partial (n : Node) (c : Nat) (chunk : Bytes) (t T : Int) (es : List Event) (now now' : Int)
    (nonce : Bytes) (hl : nonce.length = 8) (hm : n.magic.length = 4) (hc : c ∈ n.peers) (hch : chunk ≠ []) (ht : 0 < t)
    (htT : t ≤ T) (hes : ∀ e ∈ es, ∀ r t', e = .read c r t' → 0 < t' ∧ t' ≤ T) (hnow : now - T > 3 * 60 * 60 * second) :
    c ∉ (((n.step H (.read c (.data chunk) t)).run H es).step H (.poll c now now' nonce)).peers := by
  obtain ⟨k, hk, ho⟩ := mem_peers.1 hc
  have hs : ∃ k', (n.step H (.read c (.data chunk) t)).conns[c]? = some k' ∧ (0 < k'.lastRx ∧ k'.lastRx ≤ T) := by
    unfold Node.step
    simp only [if_pos hc]
    obtain ⟨fs, rest, h1, h2, h3⟩ := read_spec (H := H) n c chunk t k hk hch
    rw [h2]
    have hr : (n.received c chunk t).conns[c]? = _ := conns_upd_self n c _ hk
    have hb := handleAll_node (H := H) c t fs rest (n.received c chunk t) _ hr h1.1
    have hr2 : (Node.setRecvBuf c (n.received c chunk t) rest).conns[c]? = _ := conns_upd_self _ c _ hr
    obtain ⟨k', e1, e2⟩ := hb.old c _ hr2
    exact ⟨k', e1, by rw [e2.lastRx]; exact ⟨ht, htT⟩⟩
  obtain ⟨k1, h1, h2⟩ := hs
  obtain ⟨k2, h3, h4⟩ := run_ticks (H := H) _ c .rx (fun x => 0 < x ∧ x ≤ T) (·.lastRx) (fun _ _ _ h => h.rx) es
    (fun e he t' hst => by
      cases e with
      | read c' r now => obtain ⟨rfl, rfl⟩ := hst; exact hes _ he r _ rfl
      | _ => exact hst.elim) k1 h1 h2
  have hmag : ((n.step H (.read c (.data chunk) t)).run H es).magic.length = 4 := by
    rw [(run_event _ es).magic]
    have := (run_event (H := H) n [.read c (.data chunk) t]).magic
    rw [show n.run H [.read c (.data chunk) t] = n.step H (.read c (.data chunk) t) from rfl] at this
    rw [this]
    exact hm
  generalize (n.step H (.read c (.data chunk) t)).run H es = m at *
  unfold Node.step
  simp only
  split
  · obtain ⟨-, h5, -⟩ := C78_poll (H := H) m c k2 now now' nonce hl hmag h3
    have hsil : Silent k2 now := ⟨by omega, by omega⟩
    rw [if_pos hsil] at h5
    intro hp
    obtain ⟨k3, e1, e2⟩ := mem_peers.1 hp
    rw [h5] at e1
    cases e1
    cases e2
  · assumption

/-- C78 is false of a connection that has never received anything: it is never closed for its silence, whatever the
time. -/
theorem C78_silent_false (now now' : Int) (nonce : Bytes) (hl : nonce.length = 8) :
    0 ∈ ((node0 .py3 125).run Hashes.toy
      [.accept (some ("10.0.0.2".toList, 4000)) 5000 5000 [0, 0, 0, 0, 0, 0, 0, 1], .poll 0 now now' nonce]).peers := by
  have h : ∃ k, ((node0 .py3 125).run Hashes.toy
      [.accept (some ("10.0.0.2".toList, 4000)) 5000 5000 [0, 0, 0, 0, 0, 0, 0, 1]]).conns[0]? = some k ∧
      k.isOpen = true ∧ k.lastRx = 0 := by
    have : (((node0 .py3 125).run Hashes.toy [.accept (some ("10.0.0.2".toList, 4000)) 5000 5000
        [0, 0, 0, 0, 0, 0, 0, 1]]).conns[0]?).map (fun k => (k.isOpen, k.lastRx)) = some (true, 0) := by decide +kernel
    obtain ⟨k, h1, h2⟩ := Option.map_eq_some_iff.1 this
    exact ⟨k, h1, congrArg Prod.fst h2, congrArg Prod.snd h2⟩
  obtain ⟨k, h1, h2, h3⟩ := h
  have hmag := (run_event (H := Hashes.toy) (node0 .py3 125)
    [.accept (some ("10.0.0.2".toList, 4000)) 5000 5000 [0, 0, 0, 0, 0, 0, 0, 1]]).magic
  rw [show ∀ a b : Event, [a, b] = [a] ++ [b] from fun _ _ => rfl, run_append]
  generalize (node0 .py3 125).run Hashes.toy
    [.accept (some ("10.0.0.2".toList, 4000)) 5000 5000 [0, 0, 0, 0, 0, 0, 0, 1]] = m at *
  rw [run_cons, show ∀ x : Node, x.run Hashes.toy [] = x from fun _ => rfl]
  unfold Node.step
  simp only [if_pos (mem_peers.2 ⟨k, h1, h2⟩)]
  obtain ⟨-, h4, -⟩ := C78_poll (H := Hashes.toy) m 0 k now now' nonce hl (by rw [hmag]; rfl) h1
  have hsil : ¬ Silent k now := fun h => h.1 h3
  rw [if_neg hsil] at h4
  exact mem_peers.2 ⟨_, h4, h2⟩

/-- A history with a ping. -/
example :
    let m := (node0 .py3 125).run Hashes.toy
      [.accept (some ("10.0.0.2".toList, 4000)) 5000 5000 [0, 0, 0, 0, 0, 0, 0, 1], .write 0 (.sent 1000) (10 * second)]
    (m.conns.map (·.sendBuf)) = [[]] ∧
    ((m.step Hashes.toy (.poll 0 (1810 * second) (1810 * second) [1, 2, 3, 4, 5, 6, 7, 8])).conns.map (·.sendBuf)) = [[]] ∧
    ((m.step Hashes.toy (.poll 0 (1811 * second) (1811 * second) [1, 2, 3, 4, 5, 6, 7, 8])).conns.map (·.sendBuf)) =
      [pingFrame] := by
  decide +kernel

end NBC.Props
