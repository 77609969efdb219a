import Verif.Proofs.NodeRead
import Verif.Props.Protocol

/-!
# Properties C67 to C70 and C73: the byte streams of a connection
-/

namespace NBC.Props
open NBC NBC.Spec NBC.Spec.Wire NBC.Proto NBC.P2P

variable {H : Hashes} {Q : Clock → Nat → Int → Prop}

/-! ### C67 -/

theorem stream_from (n : Node) (es : List Event) (c : Nat) (a : Bytes) (fs : List Bytes)
    (h : Splits a fs (n.bufOf c)) :
    Splits (a ++ n.stream H es c) (fs ++ n.handled H es c) ((n.run H es).bufOf c) := by
  induction es generalizing n a fs with
  | nil =>
    rw [Node.stream, Node.handled, List.append_nil, List.append_nil]
    exact h
  | cons e es ih =>
    rw [Node.stream, Node.handled, ← List.append_assoc, ← List.append_assoc, run_cons]
    apply ih
    rcases step_stream (H := H) n e c with h1 | ⟨h1, h2, h3⟩
    · exact h.append h1
    · rw [h1, h2, h3, List.append_nil, List.append_nil]
      exact h

/-- C67: whatever happens to a node, the bytes received on a connection so far are the frames it has handled, in
order, followed by the receive buffer, which does not contain a whole frame. -/
theorem C67_stream (n : Node) (hn : n.conns = []) (es : List Event) (c : Nat) :
    Splits (n.stream H es c) (n.handled H es c) ((n.run H es).bufOf c) := by
  have h : Splits [] [] (n.bufOf c) := by
    have : n.bufOf c = [] := by unfold Node.bufOf; rw [hn]; rfl
    rw [this]
    exact ⟨rfl, by simp, Or.inl (by decide)⟩
  simpa using stream_from (H := H) n es c [] [] h

/-- C67: two connections, of the same node or of different nodes, in any two histories, that have received the same
bytes, in whatever pieces, have handled the same frames and hold the same incomplete frame. -/
theorem C67_segmentation (n n' : Node) (hn : n.conns = []) (hn' : n'.conns = []) (es es' : List Event) (c c' : Nat)
    (h : n.stream H es c = n'.stream H es' c') :
    n.handled H es c = n'.handled H es' c' ∧ (n.run H es).bufOf c = (n'.run H es').bufOf c' := by
  have h1 := C67_stream (H := H) n hn es c
  have h2 := C67_stream (H := H) n' hn' es' c'
  rw [h] at h1
  exact h1.unique h2

/-- C67: writing down the frames does not change what the node does. -/
theorem C67_trace (n : Node) (c : Nat) (chunk : Bytes) (now : Int) (k : Conn) (hk : n.conns[c]? = some k)
    (hc : chunk ≠ []) :
    (Node.tracedLoop H c now (n.received c chunk now) (k.recvBuf ++ chunk)).1.1 =
      (n.handleRead H c (.data chunk) now).1 := by
  obtain ⟨fs, rest, -, -, -, h, -⟩ := read_spec (H := H) n c chunk now k hk hc
  exact h

/-- An initial node. -/
def node0 (ver : Aes.PyVer) (maxPeers : Int) : Node :=
  Node.init ver [1, 2, 3, 4] 70002 0 "/nbc/".toList ("10.0.0.1".toList, 9333) true 16 maxPeers []

/-- A frame. -/
def pingFrame : Bytes := wireFrame Hashes.toy [1, 2, 3, 4] "ping" [1, 2, 3, 4, 5, 6, 7, 8]

/-- A peer connects and sends a ping and half of another, in pieces. -/
def pieces : List Event :=
  [.accept (some ("10.0.0.2".toList, 4000)) 5000 5000 [0, 0, 0, 0, 0, 0, 0, 1],
    .read 0 (.data (pingFrame.take 5)) 6000, .read 0 (.data (pingFrame.drop 5 ++ pingFrame.take 20)) 7000]

example : (node0 .py3 125).stream Hashes.toy pieces 0 = pingFrame ++ pingFrame.take 20 ∧
    (node0 .py3 125).handled Hashes.toy pieces 0 = [pingFrame] ∧
    ((node0 .py3 125).run Hashes.toy pieces).bufOf 0 = pingFrame.take 20 := by
  decide +kernel

/-! ### C68 -/

/-- C68: `handle_read` always returns, and never with an exception. -/
theorem C68_total (n : Node) (c : Nat) (r : RecvRes) (now : Int) : (n.handleRead H c r now).2 = none := by
  unfold Node.handleRead
  cases r with
  | raised => rfl
  | data chunk =>
    simp only
    split
    · rfl
    · split
      · rfl
      · obtain ⟨fs, rest, -, h⟩ := readLoop_spec (Node.setRecvBuf c) (Node.handleFrame H c now)
          (n.received c chunk now) (‹Conn›.recvBuf ++ chunk)
        rw [h]

/-- C68: every frame in the buffer is handled, whatever the frames are and whatever their handlers raise. -/
theorem C68_all (n : Node) (c : Nat) (chunk : Bytes) (now : Int) (k : Conn) (hk : n.conns[c]? = some k)
    (ho : k.isOpen = true) (hc : chunk ≠ []) (fs : List Bytes) (rest : Bytes)
    (hs : Splits (k.recvBuf ++ chunk) fs rest) :
    n.stepFrames H (.read c (.data chunk) now) c = fs ∧
      ((n.step H (.read c (.data chunk) now)).bufOf c) = rest := by
  have hp : c ∈ n.peers := mem_peers.2 ⟨k, hk, ho⟩
  obtain ⟨fs', rest', h1, h2, h3, -, h5⟩ := read_spec (H := H) n c chunk now k hk hc
  obtain ⟨rfl, rfl⟩ := hs.unique h1
  constructor
  · unfold Node.stepFrames
    simp only
    rw [if_pos ⟨trivial, hp, hc⟩, hk]
    exact h3
  · have hs : n.step H (.read c (.data chunk) now) = (n.handleRead H c (.data chunk) now).1 := by
      unfold Node.step
      simp only [if_pos hp]
    rw [hs, h5.bufOf c, bufOf_setRecvBuf n c c chunk rest now k hk, if_pos rfl]

/-- The node with `j` more bytes in the counters of connection `c`. -/
def counted (n : Node) (c j : Nat) : Node :=
  { n.upd c (fun k => { k with rxBytes := k.rxBytes + j }) with rx := n.rx + j }

theorem upd_congr (n : Node) (c : Nat) (f g : Conn → Conn) (k : Conn) (hk : n.conns[c]? = some k) (h : f k = g k) :
    n.upd c f = n.upd c g := by
  unfold Node.upd
  have : n.conns.modify c f = n.conns.modify c g := by
    apply List.ext_getElem?
    intro i
    rw [List.getElem?_modify, List.getElem?_modify]
    by_cases e : c = i
    · subst e
      rw [hk]
      simp [h]
    · cases n.conns[i]? with
      | none => rfl
      | some k => simp [e]
  rw [this]

theorem upd_rx (n : Node) (c r : Nat) (f : Conn → Conn) :
    Node.upd { n with rx := r } c f = { n.upd c f with rx := r } := rfl

/-- C68: a frame that `Message.parse` refuses (bad magic, bad checksum, unknown command, malformed payload) has no
effect but on the counters: what follows it is handled as if it had come alone. -/
theorem C68_refused (n : Node) (c : Nat) (now : Int) (k : Conn) (f rest : Bytes) (e : PyErr)
    (hk : n.conns[c]? = some k) (hb : k.recvBuf = []) (hf : IsFrame f)
    (he : parseMessage H f n.magic = .error e) (hr : rest ≠ []) :
    n.handleRead H c (.data (f ++ rest)) now = (counted n c f.length).handleRead H c (.data rest) now := by
  have hlen : frameLength (f ++ rest) = f.length := by rw [frameLength_append hf.1, ← hf.2]
  have hk' : (counted n c f.length).conns[c]? = some { k with rxBytes := k.rxBytes + f.length } :=
    conns_upd_self n c _ hk
  have h24 : 24 ≤ f.length := by rw [hf.2]; unfold frameLength; omega
  unfold Node.handleRead
  simp only [if_neg hr, hk, hk', hb, List.nil_append]
  rw [if_neg (by intro h; exact hr (List.append_eq_nil_iff.1 h).2)]
  rw [readLoop, firstMsgLen_eq, if_neg (by rw [List.length_append]; omega), hlen]
  simp only
  rw [if_neg (by rw [List.length_append]; omega), if_neg (by omega), List.take_left, List.drop_left]
  have hs : (Node.setRecvBuf c (n.received c (f ++ rest) now) rest).handleFrame H c now f =
      (counted n c f.length).received c rest now := by
    have hm : (Node.setRecvBuf c (n.received c (f ++ rest) now) rest).magic = n.magic := rfl
    unfold Node.handleFrame
    rw [hm, he]
    simp only
    unfold Node.setRecvBuf Node.received counted
    simp only [upd_rx, upd_upd]
    have h1 : ({ k with
        recvBuf := rest
        rxBytes := k.rxBytes + (f ++ rest).length
        lastRx := now } : Conn) = { k with
        recvBuf := k.recvBuf ++ rest
        rxBytes := k.rxBytes + f.length + rest.length
        lastRx := now } := by
      rw [hb, List.nil_append, List.length_append, Nat.add_assoc]
    rw [upd_congr n c (fun k => { k with
        recvBuf := rest
        rxBytes := k.rxBytes + (f ++ rest).length
        lastRx := now }) (fun k => { k with
        recvBuf := k.recvBuf ++ rest
        rxBytes := k.rxBytes + f.length + rest.length
        lastRx := now }) k hk h1]
    rw [List.length_append, Nat.add_assoc]
  rw [hs]

/-- A frame with a wrong checksum in front of a ping. -/
example : IsFrame (pingFrame.take 20 ++ [9, 9, 9, 9] ++ pingFrame.drop 24) ∧
    parseMessage Hashes.toy (pingFrame.take 20 ++ [9, 9, 9, 9] ++ pingFrame.drop 24) [1, 2, 3, 4] =
      .error .msgFormatError ∧
    (((node0 .py3 125).run Hashes.toy (pieces.take 1)).stepFrames Hashes.toy
      (.read 0 (.data (pingFrame.take 20 ++ [9, 9, 9, 9] ++ pingFrame.drop 24 ++ pingFrame)) 6000) 0).length = 2 := by
  refine ⟨⟨by decide +kernel, by decide +kernel⟩, rfl, by decide +kernel⟩

/-! ### C69 -/

/-- C69: in every history, the bytes the socket has taken and the send buffer together are messages as `binary` writes
them, one after the other; so what the socket has taken is a prefix of the messages sent. -/
theorem C69_order (n : Node) (hn : n.conns = []) (es : List Event) (c : Nat) (k : Conn)
    (hk : (n.run H es).conns[c]? = some k) :
    ∃ fs : List Bytes, (∀ f ∈ fs, ∃ (t : MsgType) (fields : _), t.binary H fields n.magic = .ok f) ∧
      k.out ++ k.sendBuf = fs.flatten ∧ k.out <+: fs.flatten := by
  obtain ⟨a, inc, s⟩ := (run_event (H := H) n es).new c k (by rw [hn]; rfl) hk
  obtain ⟨fs, h1, h2⟩ := s.queue
  have h2 : k.out ++ k.sendBuf = fs.flatten := by simpa [fresh] using h2
  exact ⟨fs, h1, h2, h2 ▸ List.prefix_append _ _⟩

/-- C69: from one moment to any later one, nothing that was sent or queued is changed, repeated or dropped: the later
output begins with the earlier one, and is extended by whole messages. -/
theorem C69_later (n : Node) (es : List Event) (c : Nat) (k : Conn) (hk : n.conns[c]? = some k) :
    ∃ k', (n.run H es).conns[c]? = some k' ∧ k.out <+: k'.out ∧
      ∃ fs : List Bytes, (∀ f ∈ fs, ∃ (t : MsgType) (fields : _), t.binary H fields n.magic = .ok f) ∧
        k'.out ++ k'.sendBuf = k.out ++ k.sendBuf ++ fs.flatten := by
  obtain ⟨k', h1, s⟩ := (run_event (H := H) n es).old c k hk
  exact ⟨k', h1, s.out, s.queue⟩

/-- C69: `send_message` queues the message's bytes behind the others, and nothing else; if the message cannot be
written nothing is queued. -/
theorem C69_send (n : Node) (c : Nat) (k : Conn) (hk : n.conns[c]? = some k) (t : MsgType)
    (fields : List (String × Val)) :
    (∀ f, t.binary H fields n.magic = .ok f →
      (n.sendMessage H c t fields).2 = none ∧
      (n.sendMessage H c t fields).1.conns[c]? = some { k with sendBuf := k.sendBuf ++ f } ∧
      ∀ i, i ≠ c → (n.sendMessage H c t fields).1.conns[i]? = n.conns[i]?) ∧
    (∀ e, t.binary H fields n.magic = .error e → n.sendMessage H c t fields = (n, some e)) := by
  unfold Node.sendMessage
  refine ⟨fun f hf => ?_, fun e he => by rw [he]⟩
  rw [hf]
  refine ⟨rfl, conns_upd_self n c _ hk, fun i hi => ?_⟩
  rw [conns_upd]
  cases n.conns[i]? with
  | none => rfl
  | some k => simp [Ne.symm hi]

/-- C69: `handle_write` moves bytes from the front of the send buffer to the socket, as many as the socket takes. -/
theorem C69_write (n : Node) (c : Nat) (k : Conn) (hk : n.conns[c]? = some k) (j : Nat) (now : Int) :
    ∃ k', (n.handleWrite c (.sent j) now).conns[c]? = some k' ∧ k'.out = k.out ++ k.sendBuf.take j ∧
      k'.sendBuf = k.sendBuf.drop j ∧ k'.out ++ k'.sendBuf = k.out ++ k.sendBuf := by
  unfold Node.handleWrite
  simp only [hk]
  refine ⟨_, conns_upd_self n c _ hk, ?_, ?_, take_flatten k _⟩
  · show k.out ++ k.sendBuf.take (min j k.sendBuf.length) = _
    rw [← List.take_eq_take_min]
  · show k.sendBuf.drop (min j k.sendBuf.length) = _
    rcases Nat.le_total j k.sendBuf.length with h | h
    · rw [Nat.min_eq_left h]
    · rw [Nat.min_eq_right h, List.drop_length, List.drop_eq_nil_of_le h]

/-- C69: `asyncore` offers a connection to write exactly when there is something to write. -/
theorem C69_writable (k : Conn) : k.writable = true ↔ k.sendBuf ≠ [] := by
  unfold Conn.writable
  rw [decide_eq_true_eq, gt_iff_lt, List.length_pos_iff]

/-- C69: nothing that was queued is stuck.  Whatever sizes the socket takes, when together they reach what is queued
all of it is sent and the connection is no longer writable; until then the connection stays writable. -/
theorem C69_drain (n : Node) (c : Nat) (k : Conn) (hk : n.conns[c]? = some k) (js : List (Nat × Int)) :
    ∃ k', (js.foldl (fun n j => n.handleWrite c (.sent j.1) j.2) n).conns[c]? = some k' ∧
      k'.out ++ k'.sendBuf = k.out ++ k.sendBuf ∧
      (k'.writable = false ↔ k.sendBuf.length ≤ (js.map (·.1)).sum) ∧
      (k.sendBuf.length ≤ (js.map (·.1)).sum → k'.out = k.out ++ k.sendBuf) := by
  have hw : ∀ k : Conn, k.writable = false ↔ k.sendBuf = [] := fun k => by
    rw [← Bool.not_eq_true, C69_writable, not_not]
  have key : ∃ k', (js.foldl (fun n j => n.handleWrite c (.sent j.1) j.2) n).conns[c]? = some k' ∧
      k'.out ++ k'.sendBuf = k.out ++ k.sendBuf ∧ k'.sendBuf = k.sendBuf.drop (js.map (·.1)).sum := by
    induction js generalizing n k with
    | nil => exact ⟨k, hk, rfl, rfl⟩
    | cons j js ih =>
      obtain ⟨k1, h1, -, h2, h3⟩ := C69_write n c k hk j.1 j.2
      obtain ⟨k2, g1, g2, g3⟩ := ih (n.handleWrite c (.sent j.1) j.2) k1 h1
      refine ⟨k2, g1, g2.trans h3, ?_⟩
      rw [g3, h2, List.drop_drop, List.map_cons, List.sum_cons]
  obtain ⟨k', h1, h2, h3⟩ := key
  refine ⟨k', h1, h2, ?_, fun h => ?_⟩
  · rw [hw, h3, List.drop_eq_nil_iff]
  · rw [h3, List.drop_eq_nil_of_le h, List.append_nil] at h2
    exact h2

/-- Two messages sent in three pieces. -/
example : (((node0 .py3 125).run Hashes.toy (pieces ++ [.write 0 (.sent 3) 8000, .write 0 (.sent 100) 8000,
    .write 0 (.sent 1000) 8000])).conns[0]?).map (fun k => (k.sendBuf, k.out.length, k.out.drop 115)) =
    some ([], 147, wireFrame Hashes.toy [1, 2, 3, 4] "pong" [1, 2, 3, 4, 5, 6, 7, 8]) := by
  decide +kernel

/-! ### C70 -/

theorem map_modify_same {g : Conn → Nat} {f : Conn → Conn} (h : ∀ k, g (f k) = g k) (l : List Conn) (c : Nat) :
    (l.modify c f).map g = l.map g := by
  apply List.ext_getElem?
  intro i
  rw [List.getElem?_map, List.getElem?_map, List.getElem?_modify]
  cases l[i]? with
  | none => rfl
  | some k =>
    simp only [Option.map_eq_map, Option.map_some]
    split
    · rw [h]
    · rfl

theorem sum_modify {g : Conn → Nat} {f : Conn → Conn} (l : List Conn) (c j : Nat) (k : Conn) (hk : l[c]? = some k)
    (h : g (f k) = g k + j) : ((l.modify c f).map g).sum = (l.map g).sum + j := by
  induction l generalizing c with
  | nil => cases hk
  | cons a l ih =>
    cases c with
    | zero =>
      cases hk
      rw [List.modify_zero_cons, List.map_cons, List.map_cons, List.sum_cons, List.sum_cons, h]
      omega
    | succ c =>
      rw [List.getElem?_cons_succ] at hk
      rw [List.modify_succ_cons, List.map_cons, List.map_cons, List.sum_cons, List.sum_cons, ih c hk]
      omega

/-- The totals agree with the connections' counters. -/
def Totals (n : Node) : Prop :=
  n.rx = (n.conns.map (·.rxBytes)).sum ∧ n.tx = (n.conns.map (·.txBytes)).sum

theorem totals_upd {n : Node} (c : Nat) (f : Conn → Conn) (h1 : ∀ k, (f k).rxBytes = k.rxBytes)
    (h2 : ∀ k, (f k).txBytes = k.txBytes) (h : Totals n) : Totals (n.upd c f) :=
  ⟨h.1.trans (congrArg List.sum (map_modify_same (g := (·.rxBytes)) h1 n.conns c)).symm,
    h.2.trans (congrArg List.sum (map_modify_same (g := (·.txBytes)) h2 n.conns c)).symm⟩

theorem totals_prim {n m : Node} (hp : Prim2 H Q n m) (h : Totals n) : Totals m := by
  cases hp with
  | prim _ hp =>
    cases hp with
    | queue c t fields b hb => exact totals_upd c _ (fun _ => rfl) (fun _ => rfl) h
    | close c => exact totals_upd c _ (fun _ => rfl) (fun _ => rfl) h
    | sent c k j now hk hj _ =>
      refine ⟨h.1.trans (congrArg List.sum (map_modify_same (g := (·.rxBytes)) (f := fun k => { k with
        out := k.out ++ k.sendBuf.take j
        txBytes := k.txBytes + j
        lastTx := now
        sendBuf := k.sendBuf.drop j }) (fun _ => rfl) n.conns c)).symm, ?_⟩
      show n.tx + j = _
      rw [h.2]
      exact (sum_modify n.conns c j k hk rfl).symm
    | info c f hf => exact totals_upd c f (fun k => (hf k).rxBytes) (fun k => (hf k).txBytes) h
    | ping c t hq => exact totals_upd c _ (fun _ => rfl) (fun _ => rfl) h
    | tx c t hq => exact totals_upd c _ (fun _ => rfl) (fun _ => rfl) h
    | new a inc h' =>
      refine ⟨?_, ?_⟩
      · rw [h.1]; simp
      · rw [h.2]; simp
    | add c h' => exact totals_upd c _ (fun _ => rfl) (fun _ => rfl) h
    | reduce c => exact totals_upd c _ (fun _ => rfl) (fun _ => rfl) h
    | addrSet a v h' hv => exact h
    | addrDel a => exact h
    | guess ip => exact h
    | ban c ip now _ => exact h
    | unban key => exact h
    | ext ip => exact h
    | beat t => exact h
    | deaf => exact h
  | recv c k chunk now hk _ =>
    refine ⟨?_, h.2.trans (congrArg List.sum (map_modify_same (g := (·.txBytes)) (f := fun k => { k with
      recvBuf := k.recvBuf ++ chunk
      rxBytes := k.rxBytes + chunk.length
      lastRx := now }) (fun _ => rfl) n.conns c)).symm⟩
    show n.rx + chunk.length = _
    rw [h.1]
    exact (sum_modify n.conns c chunk.length k hk rfl).symm
  | setBuf c b => exact totals_upd c _ (fun _ => rfl) (fun _ => rfl) h

/-- C70: in every history, the node's totals are the sums of the counters of all connections it ever had. -/
theorem C70_totals (n : Node) (hn : n.conns = []) (hr : n.rx = 0) (ht : n.tx = 0) (es : List Event) :
    (n.run H es).rx = ((n.run H es).conns.map (·.rxBytes)).sum ∧
    (n.run H es).tx = ((n.run H es).conns.map (·.txBytes)).sum :=
  run_invariant Totals (fun _ _ => totals_prim) n es ⟨by rw [hr, hn]; rfl, by rw [ht, hn]; rfl⟩

theorem rx_from (n : Node) (es : List Event) (c : Nat) :
    (n.run H es).rxOf c = n.rxOf c + (n.stream H es c).length := by
  induction es generalizing n with
  | nil => rfl
  | cons e es ih => rw [run_cons, ih, step_rx, Node.stream, List.length_append, Nat.add_assoc]

/-- C70: in every history, a connection's counters are the number of bytes received and the number of bytes that the
socket took. -/
theorem C70_connection (n : Node) (hn : n.conns = []) (es : List Event) (c : Nat) (k : Conn)
    (hk : (n.run H es).conns[c]? = some k) :
    k.rxBytes = (n.stream H es c).length ∧ k.txBytes = k.out.length := by
  constructor
  · have h := rx_from (H := H) n es c
    have h0 : n.rxOf c = 0 := by unfold Node.rxOf; rw [hn]; rfl
    have h1 : (n.run H es).rxOf c = k.rxBytes := by unfold Node.rxOf; rw [hk]; rfl
    rw [h0, h1, Nat.zero_add] at h
    exact h
  · obtain ⟨a, inc, s⟩ := (run_event (H := H) n es).new c k (by rw [hn]; rfl) hk
    exact s.tx rfl

/-- Two connections. -/
example : ((node0 .py3 125).run Hashes.toy (pieces ++ [.write 0 (.sent 3) 8000,
    .accept (some ("10.0.0.3".toList, 4000)) 9000 9000 [0, 0, 0, 0, 0, 0, 0, 2], .read 1 (.data [1, 2]) 9500,
    .close 1])).rx = 54 := by
  decide +kernel

/-! ### C73 -/

theorem handleMessage_ping (n : Node) (c : Nat) (m : Msg) (now : Int) (h : m.command = "ping") :
    n.handleMessage H c m now =
      match getField m.fields "nonce" with
      | .error e => (n, some e)
      | .ok nonce => n.sendNew H c msgPong [nonce] := by
  unfold Node.handleMessage
  rw [h, if_neg (show ¬ "ping" = "version" by decide), if_neg (show ¬ "ping" = "verack" by decide)]
  unfold Node.dispatch
  rw [if_pos h]
  rfl

theorem sendNew_ok (n : Node) (c : Nat) (t : MsgType) (args : List Val) (fields : List (String × Val)) (b : Bytes)
    (h1 : compInit t.props args [] = .ok fields) (h2 : t.binary H fields n.magic = .ok b) :
    n.sendNew H c t args = (n.upd c (fun k => { k with sendBuf := k.sendBuf ++ b }), none) := by
  unfold Node.sendNew
  rw [h1]
  simp only
  unfold Node.sendMessage
  rw [h2]

/-- C73: a ping with an 8-byte nonce queues, on the connection it came from, one pong with that nonce, and does nothing
else. -/
theorem C73_pong (n : Node) (c : Nat) (now : Int) (nonce : Bytes) (hl : nonce.length = 8) (hm : n.magic.length = 4) :
    n.handleFrame H c now (wireFrame H n.magic "ping" nonce) =
      n.upd c (fun k => { k with sendBuf := k.sendBuf ++ wireFrame H n.magic "pong" nonce }) := by
  have hw : wFields [("nonce", wBytes 8)] [("nonce", .bytes nonce)] nonce [("nonce", .bytes nonce)] :=
    ⟨.bytes nonce, nonce, .bytes nonce, [], [], [], ⟨hl, rfl, rfl⟩, ⟨rfl, rfl, rfl⟩, rfl,
      (List.append_nil _).symm, rfl⟩
  obtain ⟨t, -, -, -, -, -, h1⟩ := C63_message H "ping" _ (by simp [messages]) _ _ nonce n.magic [] hw
    (by omega) hm
  obtain ⟨t, ht, hc, h2, -, h3, -⟩ := C63_message H "pong" _ (by simp [messages]) _ _ nonce n.magic [] hw
    (by omega) hm
  have hpong : t = msgPong := registered_command ht (by simp [registry]) hc
  subst hpong
  rw [List.append_nil] at h1
  unfold Node.handleFrame
  rw [h1]
  simp only
  rw [handleMessage_ping n c _ now rfl]
  rw [getField_head]
  simp only
  rw [sendNew_ok n c msgPong [.bytes nonce] _ _ h2 h3]

/-- C73: the same for a ping that `recv` delivers. -/
theorem C73_read (n : Node) (c : Nat) (now : Int) (nonce : Bytes) (hl : nonce.length = 8) (hm : n.magic.length = 4)
    (k : Conn) (hk : n.conns[c]? = some k) (hb : k.recvBuf = []) :
    ∃ m, n.handleRead H c (.data (wireFrame H n.magic "ping" nonce)) now = (m, none) ∧
      m.conns[c]? = some { k with
        rxBytes := k.rxBytes + 32
        lastRx := now
        sendBuf := k.sendBuf ++ wireFrame H n.magic "pong" nonce } ∧
      (∀ i, i ≠ c → m.conns[i]? = n.conns[i]?) ∧ m.addresses = n.addresses ∧ m.banned = n.banned := by
  have hlen : (wireFrame H n.magic "ping" nonce).length = 32 := by
    rw [wireFrame_length H (by decide) nonce n.magic hm, hl]
  obtain ⟨fs, rest, h1, h2, -⟩ := read_spec (H := H) n c (wireFrame H n.magic "ping" nonce) now k hk
    (by intro h; rw [h] at hlen; cases hlen)
  rw [hb, List.nil_append] at h1
  have hf : IsFrame (wireFrame H n.magic "ping" nonce) := by
    refine ⟨by omega, ?_⟩
    have := firstMsgLen_frame H (s := "ping") (by decide) nonce n.magic [] hm (by omega)
    rw [List.append_nil, firstMsgLen_eq, if_neg (by omega)] at this
    have := Option.some.inj (Except.ok.inj this)
    rw [this, hlen]
  have hs : Splits (wireFrame H n.magic "ping" nonce) [wireFrame H n.magic "ping" nonce] [] :=
    ⟨by simp, by simpa using hf, Or.inl (by decide)⟩
  obtain ⟨rfl, rfl⟩ := h1.unique hs
  refine ⟨_, h2, ?_, ?_, ?_, ?_⟩
  all_goals
    rw [handleAll, handleAll]
    have := C73_pong (H := H) (Node.setRecvBuf c (n.received c (wireFrame H n.magic "ping" nonce) now)
      ([].flatten ++ [])) c now nonce hl hm
    rw [show (Node.setRecvBuf c (n.received c (wireFrame H n.magic "ping" nonce) now)
      ([].flatten ++ [])).magic = n.magic from rfl] at this
    rw [this]
  · have h1 : (n.received c (wireFrame H n.magic "ping" nonce) now).conns[c]? = _ := conns_upd_self n c _ hk
    have h2 : (Node.setRecvBuf c (n.received c (wireFrame H n.magic "ping" nonce) now) ([].flatten ++ [])).conns[c]? = _ :=
      conns_upd_self _ c _ h1
    rw [conns_upd_self _ c _ h2, hlen]
    simp [hb]
  · intro i hi
    have h1 : (n.received c (wireFrame H n.magic "ping" nonce) now).conns[i]? = _ := conns_upd n c i _
    rw [conns_upd, setRecvBuf_conns, h1]
    cases n.conns[i]? with
    | none => rfl
    | some k => simp [Ne.symm hi]
  · rfl
  · rfl

example : ((node0 .py3 125).run Hashes.toy (pieces.take 1)).magic.length = 4 ∧
    (((node0 .py3 125).run Hashes.toy (pieces.take 1)).conns[0]?).map (·.recvBuf) = some [] := by
  decide +kernel

end NBC.Props
