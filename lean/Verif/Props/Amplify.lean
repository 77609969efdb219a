import Verif.Props.Built
import Verif.Props.NodeIsolation
import Verif.Props.NodeAddresses

/-!
# C153: how much a peer can make the node send
-/

namespace NBC.Props
open NBC NBC.Spec NBC.Proto NBC.P2P NBC.Spec.Wire NBC.Spec.Built

variable {H : Hashes}

/-- The bytes sent to and queued for the peer. -/
def load (n : Node) (c : Nat) : Nat := (n.conns[c]?).elim 0 (fun k => k.out.length + k.sendBuf.length)

/-- The bytes received from the peer that do not make a whole message yet. -/
def unread (n : Node) (c : Nat) : Nat := (n.conns[c]?).elim 0 (fun k => k.recvBuf.length)

/-- The bytes that a history has the peer send. -/
def sentBy (c : Nat) : List Event → Nat
  | [] => 0
  | .read d (.data chunk) _ :: es => (if d = c then chunk.length else 0) + sentBy c es
  | _ :: es => sentBy c es

/-- The socket of some connection has data, can take data, or is closed: what the peers, and not the owner or the
clock, make happen. -/
def Event.network : Event → Bool
  | .read .. => true
  | .write .. => true
  | .close .. => true
  | _ => false

theorem load_upd (n : Node) (c : Nat) (f : Conn → Conn) (L : Nat)
    (h : ∀ k, (f k).out.length + (f k).sendBuf.length ≤ k.out.length + k.sendBuf.length + L) :
    load (n.upd c f) c ≤ load n c + L := by
  unfold load
  rw [conns_upd]
  cases n.conns[c]? with
  | none => simp
  | some k => simpa using h k

theorem unread_upd (n : Node) (c : Nat) (f : Conn → Conn) (h : ∀ k, (f k).recvBuf = k.recvBuf) :
    unread (n.upd c f) c = unread n c := by
  unfold unread
  rw [conns_upd]
  cases n.conns[c]? with
  | none => rfl
  | some k => simp [h k]

theorem load_conns {n m : Node} {c : Nat} (h : m.conns[c]? = n.conns[c]?) : load m c = load n c := by
  unfold load; rw [h]

theorem unread_conns {n m : Node} {c : Nat} (h : m.conns[c]? = n.conns[c]?) : unread m c = unread n c := by
  unfold unread; rw [h]

/-- A message that is made and queued. -/
theorem sendNew_load (n : Node) (c : Nat) (t : MsgType) (args : List Val) (ht : t ∈ registry) (hm : n.magic.length = 4)
    (ha : ∀ fields, compInit t.props args [] = .ok fields → ∀ v ∈ args, Built v) (L : Nat)
    (hL : ∀ ws fields payload fields', (t.command, ws) ∈ sent writtenSize writtenSize →
      compInit t.props args [] = .ok fields → wFields ws fields payload fields' → 24 + payload.length ≤ L) :
    load (n.sendNew H c t args).1 c ≤ load n c + L := by
  unfold Node.sendNew
  split
  · exact Nat.le_add_right ..
  · rename_i fields hf
    unfold Node.sendMessage
    split
    · exact Nat.le_add_right ..
    · rename_i b hb
      obtain ⟨ws, payload, fields', h1, -, rfl, h3⟩ := C140_written H n.magic t ht fields
        ⟨args, [], ha fields hf, by simp, hf⟩ b hb
      refine load_upd n c _ L (fun k => ?_)
      have := hL _ _ _ _ h1 hf h3
      simp only [List.length_append, wireFrame_length H (command_mem ht) payload n.magic hm]
      omega

theorem xAddress_length {v v' : Val} {b : Bytes} (h : xAddress v b v') : b.length = 30 := by
  obtain ⟨vs, vs', h, -, -⟩ := h
  obtain ⟨_, b1, _, _, _, _, h1, h, -, rfl, -⟩ := h
  obtain ⟨_, b2, _, _, _, _, h2, h, -, rfl, -⟩ := h
  obtain ⟨_, b3, _, _, _, _, h3, h, -, rfl, -⟩ := h
  obtain ⟨_, b4, _, _, _, _, h4, h, -, rfl, -⟩ := h
  obtain ⟨-, rfl, -⟩ := h
  obtain ⟨_, -, -, h3, -⟩ := h3
  have e1 := wNumber_length h1
  have e2 := wNumber_length h2
  have e4 := wNumber_length h4
  simp only [List.length_append, e1, e2, e4, h3, List.length_nil]
  rfl

theorem addr_length {fields fields' : List (String × Val)} {payload : Bytes} {ws : List (String × WType)}
    (hws : ("addr", ws) ∈ sent writtenSize writtenSize) (h : wFields ws fields payload fields') :
    payload.length ≤ 30003 := by
  have : ws = [("addr_list", xArray writtenSize xAddress 0 (some 1000))] := by simpa [sent] using hws
  subst this
  obtain ⟨_, b1, _, _, _, _, h1, h, -, rfl, -⟩ := h
  obtain ⟨-, rfl, -⟩ := h
  obtain ⟨p, items, ⟨-, rfl⟩, hi, -, hx, -, rfl, -⟩ := h1
  have hx := hx 1000 rfl
  have hf : ∀ l : List (Val × Bytes × Val), (∀ t ∈ l, xAddress t.1 t.2.1 t.2.2) →
      (l.map (·.2.1)).flatten.length = 30 * l.length := by
    intro l hl
    induction l with
    | nil => rfl
    | cons a l ih =>
      rw [List.map_cons, List.flatten_cons, List.length_append, ih (fun t ht => hl t (List.mem_cons_of_mem _ ht)),
        xAddress_length (hl a (List.mem_cons_self ..)), List.length_cons]
      omega
  have hv : (varSize items.length).length ≤ 3 := by
    unfold varSize
    split
    · simp
    · rw [if_pos (by omega)]
      simp [beBytes_length]
  rw [List.append_nil, List.length_append, hf _ hi]
  omega

theorem pong_length {fields fields' : List (String × Val)} {payload : Bytes} {ws : List (String × WType)}
    (hws : ("pong", ws) ∈ sent writtenSize writtenSize) (h : wFields ws fields payload fields') :
    payload.length = 8 := by
  have : ws = [("nonce", wBytes 8)] := by simpa [sent] using hws
  subst this
  obtain ⟨_, b1, _, _, _, _, ⟨h1, -, -⟩, h, -, rfl, -⟩ := h
  obtain ⟨-, rfl, -⟩ := h
  simpa using h1

/-- The nonce of a ping is part of the frame. -/
theorem parse_ping {f magic : Bytes} {m : Msg} (h : parseMessage H f magic = .ok m) (hc : m.command = "ping") :
    ∃ b : Bytes, m.fields = [("nonce", .bytes b)] ∧ b.length ≤ f.length - 24 := by
  unfold parseMessage at h
  split at h
  · cases h
  obtain ⟨len, -, h⟩ := bind_ok_iff.1 h
  simp only at h
  split at h
  · cases h
  split at h
  · cases h
  rename_i t ht
  obtain ⟨⟨o, kw⟩, h1, h2⟩ := bind_ok_iff.1 h
  cases h2
  have := registered_command (u := msgPing) (lookup_some ht).1 (by simp [registry]) hc
  subst this
  obtain ⟨l1, v1, kw1, e1, h1, rfl⟩ := parseFields_cons h1
  cases h1
  unfold ftBytes at e1
  simp only at e1
  cases e1
  refine ⟨_, rfl, ?_⟩
  simp only [List.length_take, List.length_drop]
  omega

theorem pong_args {b : Bytes} {fields : List (String × Val)} (h : compInit msgPong.props [.bytes b] [] = .ok fields) :
    b.length = 8 := by
  unfold compInit at h
  simp only at h
  split_ifs at h
  simp only [msgPong, initLoop, List.map_cons, List.map_nil, List.zip_cons_cons, List.append_nil] at h
  obtain ⟨w1, hw1, g1⟩ := bind_ok_iff.1 h
  obtain ⟨v1, hv1, g2⟩ := bind_ok_iff.1 g1
  obtain rfl : Val.bytes b = w1 := by simpa [getField] using hw1
  split_ifs at g2 with h1
  by_contra hb
  simp only [ftBytes, if_neg hb] at hv1
  cases hv1
  exact h1 rfl

theorem checkExternalIp_conns (n : Node) : n.checkExternalIp.conns = n.conns := by
  unfold Node.checkExternalIp
  simp only
  split <;> rfl

theorem checkExternalIp_magic (n : Node) : n.checkExternalIp.magic = n.magic := by
  unfold Node.checkExternalIp
  simp only
  split <;> rfl

theorem addAddresses_conns (l : List Val) (n : Node) : (n.addAddresses l).1.conns = n.conns := by
  induction l generalizing n with
  | nil => rfl
  | cons v l ih =>
    unfold Node.addAddresses
    split
    · rfl
    · split
      · rfl
      · exact ih _

/-- What one message does to the queue. -/
theorem handleFrame_load (n : Node) (hm : n.magic.length = 4) (c : Nat) (now : Int) (f : Bytes) (hf : 24 ≤ f.length) :
    load (n.handleFrame H c now f) c ≤ load n c + f.length ∨
    (n.ver = .py2 ∧ (∃ m, parseMessage H f n.magic = .ok m ∧ m.command = "getaddr") ∧
      load (n.handleFrame H c now f) c ≤ load n c + 30027) := by
  unfold Node.handleFrame
  split
  · exact .inl (Nat.le_add_right ..)
  rename_i m hp
  have key : ∀ n' : Node, n'.magic = n.magic → n'.ver = n.ver → load n' c = load n c →
      load (n'.dispatch H c m now).1 c ≤ load n c + f.length ∨
      (n.ver = .py2 ∧ m.command = "getaddr" ∧ load (n'.dispatch H c m now).1 c ≤ load n c + 30027) := by
    intro n' h1 h2 h3
    rw [← h3, ← h2]
    rw [← h1] at hm
    unfold Node.dispatch
    split
    · rename_i hc
      left
      split
      · exact Nat.le_add_right ..
      · rename_i nonce hn
        obtain ⟨b, hb, hl⟩ := parse_ping hp hc
        rw [hb, getField_head] at hn
        cases hn
        refine sendNew_load _ _ _ _ (by simp [registry]) hm
          (fun _ h v hv => by rw [List.mem_singleton.1 hv]; exact .bytes _) _ (fun ws fields payload fields' hw hi hx => ?_)
        have := pong_length hw hx
        have := pong_args hi
        omega
    split
    · left
      refine sendNew_load _ _ _ _ (by simp [registry]) hm (by simp) _ (fun ws fields payload fields' hw hi hx => ?_)
      have : ws = [] := by simpa [sent, msgVerack] using hw
      subst this
      rw [hx.2.1]
      exact hf
    split
    · left
      unfold Node.commandVersionAck
      split
      · exact Nat.le_add_right ..
      · split <;> exact Nat.le_add_right ..
    split
    · rename_i hc
      unfold Node.commandGetAddress
      split
      · exact .inl (Nat.le_add_right ..)
      · rename_i hv
        right
        refine ⟨hv, hc, ?_⟩
        split
        · exact Nat.le_add_right ..
        · rename_i h
          refine sendNew_load _ _ _ _ (by simp [registry]) hm
            (fun _ _ v hv => by rw [List.mem_singleton.1 hv]; exact .tuple _ (collect_built (by simp) h)) _
            (fun ws fields payload fields' hw hi hx => ?_)
          have := addr_length hw hx
          omega
    split
    · left
      split
      · exact Nat.le_add_right ..
      · unfold Node.commandAddress
        split
        · rw [load_conns (n := n') (by rw [addAddresses_conns])]
          exact Nat.le_add_right ..
        · exact Nat.le_add_right ..
    · exact .inl (Nat.le_add_right ..)
  have key' : ∀ n' : Node, n'.magic = n.magic → n'.ver = n.ver → load n' c = load n c →
      load (n'.dispatch H c m now).1 c ≤ load n c + f.length ∨
      (n.ver = .py2 ∧ (∃ m', Except.ok m = (Except.ok m' : Py Msg) ∧ m'.command = "getaddr") ∧
        load (n'.dispatch H c m now).1 c ≤ load n c + 30027) := by
    intro n' h1 h2 h3
    rcases key n' h1 h2 h3 with h | ⟨h, h', h''⟩
    · exact .inl h
    · exact .inr ⟨h, ⟨m, rfl, h'⟩, h''⟩
  rw [hp]
  unfold Node.handleMessage
  split
  · split
    · exact .inl (Nat.le_add_right ..)
    · rename_i g hg
      have hl : load (n.upd c g) c = load n c := by
        unfold load
        rw [conns_upd]
        cases n.conns[c]? with
        | none => rfl
        | some k => simp [(versionInfo_core hg k).out, (versionInfo_core hg k).sendBuf]
      split
      · refine key' _ ?_ ?_ ?_
        · rw [checkExternalIp_magic]; rfl
        · unfold Node.checkExternalIp
          simp only
          split <;> rfl
        · rw [load_conns (n := n.upd c g) (by rw [checkExternalIp_conns])]
          exact hl
      · exact .inl (by rw [hl]; exact Nat.le_add_right ..)
  split
  · refine key' _ rfl rfl ?_
    unfold load
    rw [conns_upd]
    cases n.conns[c]? <;> simp
  · exact key' _ rfl rfl rfl

/-- The factor. -/
def rate (n : Node) : Nat := match n.ver with | .py2 => 1252 | .py3 => 1

theorem rate_pos (n : Node) : 1 ≤ rate n := by
  unfold rate
  split <;> omega

theorem handleFrame_rate (n : Node) (hm : n.magic.length = 4) (c : Nat) (now : Int) (f : Bytes) (hf : IsFrame f) :
    load (n.handleFrame H c now f) c ≤ load n c + rate n * f.length := by
  have h24 : 24 ≤ f.length := by rw [hf.2]; exact Nat.le_add_right ..
  have := rate_pos n
  rcases handleFrame_load (H := H) n hm c now f h24 with h | ⟨h, -, h'⟩
  · nlinarith
  · have : rate n = 1252 := by unfold rate; rw [h]
    rw [this]
    omega

theorem setRecvBuf_load (c : Nat) (n : Node) (b : Bytes) : load (Node.setRecvBuf c n b) c = load n c := by
  unfold load Node.setRecvBuf
  rw [conns_upd]
  cases n.conns[c]? <;> simp

theorem handleAll_load (fs : List Bytes) (rest : Bytes) (c : Nat) (now : Int) (n : Node) (hm : n.magic.length = 4)
    (hf : ∀ f ∈ fs, IsFrame f) :
    load (handleAll (Node.setRecvBuf c) (Node.handleFrame H c now) n fs rest) c ≤
      load n c + rate n * fs.flatten.length := by
  induction fs generalizing n with
  | nil => exact Nat.le_add_right ..
  | cons f fs ih =>
    have h1 := handleFrame_rate (H := H) (Node.setRecvBuf c n (fs.flatten ++ rest)) hm c now f (hf f (List.mem_cons_self ..))
    have ho := only_handleFrame (H := H) c (Node.setRecvBuf c n (fs.flatten ++ rest)) now f
    have h2 := ih ((Node.setRecvBuf c n (fs.flatten ++ rest)).handleFrame H c now f)
      (by rw [ho.settings.magic]; exact hm) (fun f h => hf f (List.mem_cons_of_mem _ h))
    rw [setRecvBuf_load] at h1
    have hr : rate ((Node.setRecvBuf c n (fs.flatten ++ rest)).handleFrame H c now f) = rate n := by
      unfold rate
      rw [ho.settings.ver]
      rfl
    have hr' : rate (Node.setRecvBuf c n (fs.flatten ++ rest)) = rate n := rfl
    rw [hr] at h2
    rw [hr'] at h1
    rw [List.flatten_cons, List.length_append, Nat.mul_add]
    exact h2.trans (by omega)

theorem handleClose_load (n : Node) (c : Nat) : load (n.handleClose c) c = load n c ∧ unread (n.handleClose c) c = unread n c := by
  have h : (n.handleClose c).conns = (n.upd c (fun k => { k with isOpen := false })).conns := by
    unfold Node.handleClose Node.disconnected
    split <;> rfl
  unfold load unread
  rw [h, conns_upd]
  cases n.conns[c]? <;> simp

theorem received_load (n : Node) (c : Nat) (chunk : Bytes) (now : Int) : load (n.received c chunk now) c = load n c := by
  have h : (n.received c chunk now).conns[c]? = _ := conns_upd n c c _
  unfold load
  rw [h]
  cases n.conns[c]? <;> simp

/-- What one call of `handle_read` does. -/
theorem handleRead_load (n : Node) (hm : n.magic.length = 4) (c : Nat) (chunk : Bytes) (now : Int) :
    load (n.handleRead H c (.data chunk) now).1 c + rate n * unread (n.handleRead H c (.data chunk) now).1 c ≤
      load n c + rate n * (unread n c + chunk.length) := by
  by_cases hc : chunk = []
  · subst hc
    have h : (n.handleRead H c (.data []) now).1 = (n.handleClose c).handleClose c := rfl
    rw [h, (handleClose_load ..).1, (handleClose_load ..).1, (handleClose_load ..).2, (handleClose_load ..).2]
    simp
  · cases hk : n.conns[c]? with
    | none =>
      have h : (n.handleRead H c (.data chunk) now).1 = n := by
        unfold Node.handleRead
        simp only [if_neg hc, hk]
      rw [h, Nat.mul_add]
      omega
    | some k =>
      obtain ⟨fs, rest, h1, h2, -, -, h3⟩ := read_spec (H := H) n c chunk now k hk hc
      have hl := handleAll_load (H := H) fs rest c now (n.received c chunk now) hm h1.2.1
      rw [received_load] at hl
      have hr : rate (n.received c chunk now) = rate n := rfl
      rw [hr] at hl
      have e1 : (n.received c chunk now).conns[c]? = _ := conns_upd_self n c _ hk
      have e2 : (Node.setRecvBuf c (n.received c chunk now) rest).conns[c]? = _ := conns_upd_self _ c _ e1
      obtain ⟨k', e3, e4⟩ := h3.old c _ e2
      have hu : unread (n.handleRead H c (.data chunk) now).1 c = rest.length := by
        unfold unread
        rw [e3]
        simp [e4.recvBuf]
      have hu' : unread n c = k.recvBuf.length := by
        unfold unread
        rw [hk]
        rfl
      have hlen := congrArg List.length h1.1
      rw [List.length_append, List.length_append] at hlen
      rw [hu, hu', hlen, h2, Nat.mul_add]
      simp only
      omega

/-- C153: a whole message makes the node send at most as many bytes as it has, to the peer it came from only; except
that in Python 2 `getaddr` makes it send at most 30027. -/
theorem C153_message (n : Node) (hm : n.magic.length = 4) (c : Nat) (now : Int) (f : Bytes) (hf : IsFrame f) :
    (∀ d, d ≠ c → load (n.handleFrame H c now f) d = load n d) ∧
    (load (n.handleFrame H c now f) c ≤ load n c + f.length ∨
      (n.ver = .py2 ∧ (∃ m, parseMessage H f n.magic = .ok m ∧ m.command = "getaddr") ∧
        load (n.handleFrame H c now f) c ≤ load n c + 30027)) :=
  ⟨fun d hd => load_conns ((only_handleFrame c n now f).others d hd),
    handleFrame_load n hm c now f (by rw [hf.2]; exact Nat.le_add_right ..)⟩

theorem network_step (n : Node) (hm : n.magic.length = 4) (c : Nat) (e : Event) (he : Event.network e = true) :
    load (n.step H e) c + rate n * unread (n.step H e) c ≤ load n c + rate n * (unread n c + sentBy c [e]) := by
  cases e with
  | read d r now =>
    by_cases hd : d = c
    · subst hd
      cases r with
      | raised =>
        unfold Node.step
        simp only
        split
        · have h : (n.handleRead H d .raised now).1 = n.handleClose d := rfl
          rw [h, (handleClose_load ..).1, (handleClose_load ..).2]
          simp [sentBy]
        · simp [sentBy]
      | data chunk =>
        unfold Node.step
        simp only
        split
        · have := handleRead_load (H := H) n hm d chunk now
          simpa [sentBy] using this
        · rw [Nat.mul_add]
          omega
    · have h := (C135_isolated (H := H) n (.read d r now) d rfl).others c (Ne.symm hd)
      rw [load_conns h, unread_conns h, Nat.mul_add]
      omega
  | write d r now =>
    by_cases hd : d = c
    · subst hd
      unfold Node.step
      simp only [sentBy, Nat.add_zero]
      split
      · unfold Node.handleWrite
        cases r with
        | raised => simp only; rw [(handleClose_load ..).1, (handleClose_load ..).2]
        | closed =>
          simp only
          have h1 := load_upd (n.handleClose d) d (fun k => { k with lastTx := now }) 0 (fun k => le_rfl)
          rw [unread_upd _ _ _ (by intro k; rfl), (handleClose_load ..).2]
          rw [(handleClose_load ..).1] at h1
          omega
        | sent j =>
          simp only
          split
          · exact le_rfl
          · rename_i k hk
            have e1 : (n.sent d (min j k.sendBuf.length) now).conns[d]? = _ := conns_upd_self n d _ hk
            unfold load unread
            rw [e1, hk]
            simp
      · exact le_rfl
    · have h := (C135_isolated (H := H) n (.write d r now) d rfl).others c (Ne.symm hd)
      rw [load_conns h, unread_conns h, Nat.mul_add]
      omega
  | close d =>
    by_cases hd : d = c
    · subst hd
      have h : n.step H (.close d) = n.handleClose d := rfl
      rw [h, (handleClose_load ..).1, (handleClose_load ..).2, Nat.mul_add]
      omega
    · have h := (C135_isolated (H := H) n (.close d) d rfl).others c (Ne.symm hd)
      rw [load_conns h, unread_conns h, Nat.mul_add]
      omega
  | _ => simp [Event.network] at he

/-- C153: whatever the peers send, in whatever pieces, and however the sockets behave: a peer gets at most as many bytes
as it sends (with those of the message begun before) in Python 3, and at most 1252 times as many in Python 2. -/
theorem C153_history (n : Node) (hm : n.magic.length = 4) (c : Nat) (es : List Event)
    (he : ∀ e ∈ es, Event.network e = true) :
    load (n.run H es) c + rate n * unread (n.run H es) c ≤ load n c + rate n * (unread n c + sentBy c es) := by
  induction es generalizing n with
  | nil => exact le_rfl
  | cons e es ih =>
    have h1 := network_step (H := H) n hm c e (he e (List.mem_cons_self ..))
    have hset := step_settings (H := H) n e
    have h2 := ih (n.step H e) (by rw [hset.magic]; exact hm) (fun e h => he e (List.mem_cons_of_mem _ h))
    have hr : rate (n.step H e) = rate n := by
      unfold rate
      rw [hset.ver]
    rw [hr] at h2
    rw [run_cons]
    have hs : sentBy c (e :: es) = sentBy c [e] + sentBy c es := by
      cases e with
      | read d r now => cases r <;> simp [sentBy]
      | _ => simp [sentBy]
    rw [hs]
    refine h2.trans ?_
    simp only [Nat.mul_add] at h1 ⊢
    omega

/-- The bytes queued for the peer. -/
def queued (n : Node) (c : Nat) : Nat := (n.conns[c]?).elim 0 (fun k => k.sendBuf.length)

/-- C153, false: there is no bound on what is queued for a peer: one that sends pings and reads nothing has the node
keep all the answers. -/
theorem C153_bounded_false (n : Node) (hm : n.magic.length = 4) (c : Nat) (k : Conn) (hk : n.conns[c]? = some k)
    (ho : k.isOpen = true) (hb : k.recvBuf = []) (now : Int) (nonce : Bytes) (hl : nonce.length = 8) (j : Nat) :
    queued (n.run H (List.replicate j (.read c (.data (wireFrame H n.magic "ping" nonce)) now))) c = queued n c + 32 * j := by
  induction j generalizing n k with
  | zero => rfl
  | succ j ih =>
    obtain ⟨m, h1, h2, -⟩ := C73_read (H := H) n c now nonce hl hm k hk hb
    have hs : n.step H (.read c (.data (wireFrame H n.magic "ping" nonce)) now) = m := by
      unfold Node.step
      simp only [if_pos (mem_peers.2 ⟨k, hk, ho⟩)]
      rw [h1]
    have hset := step_settings (H := H) n (.read c (.data (wireFrame H n.magic "ping" nonce)) now)
    rw [hs] at hset
    have := ih m (by rw [hset.magic]; exact hm) _ h2 ho hb
    rw [List.replicate_succ, run_cons, hs, ← hset.magic, this]
    unfold queued
    rw [h2, hk]
    simp only [Option.elim_some, List.length_append, wireFrame_length H (s := "pong") (by decide) nonce n.magic hm, hl]
    omega

theorem getaddr_frame (n : Node) (c : Nat) (now : Int) (hm : n.magic.length = 4) :
    n.handleFrame H c now (wireFrame H n.magic "getaddr" []) = (n.commandGetAddress H c).1 := by
  obtain ⟨t, -, -, -, -, -, h3⟩ := C63_message H "getaddr" [] (by simp [messages]) [] [] [] n.magic [] ⟨rfl, rfl, rfl⟩
    (by decide) hm
  rw [List.append_nil] at h3
  unfold Node.handleFrame
  rw [h3]
  simp only
  unfold Node.handleMessage
  simp only
  rw [if_neg (show ¬ "getaddr" = "version" by decide), if_neg (show ¬ "getaddr" = "verack" by decide)]
  unfold Node.dispatch
  simp only
  rw [if_neg (show ¬ "getaddr" = "ping" by decide), if_neg (show ¬ "getaddr" = "version" by decide),
    if_neg (show ¬ "getaddr" = "verack" by decide), if_pos trivial]

/-- C153, false in Python 2: a peer of a node that knows 1000 addresses gets 30027 bytes for every 24 that it sends,
again and again. -/
theorem C153_amplified_false (n : Node) (hv : n.ver = .py2) (hm : n.magic.length = 4) (c : Nat) (k : Conn)
    (hk : n.conns[c]? = some k) (ho : k.isOpen = true) (hb : k.recvBuf = [])
    (hn : 1000 ≤ (n.addresses.filter known).length)
    (hw : ∀ e ∈ replyEntries n, ∃ b v', wNetworkAddress (entryObj e) b v') (now : Int) (j : Nat) :
    let es := List.replicate j (.read c (.data (wireFrame H n.magic "getaddr" [])) now)
    sentBy c es = 24 * j ∧ queued (n.run H es) c = queued n c + 30027 * j := by
  have hlen := wireFrame_length H (s := "getaddr") (by decide) [] n.magic hm
  refine ⟨?_, ?_⟩
  · induction j with
    | zero => rfl
    | succ j ih =>
      rw [List.replicate_succ, sentBy, ih, if_pos rfl, hlen]
      simp only [List.length_nil]
      omega
  · have : Nonempty Val := ⟨.none⟩
    choose! b v' hbw using hw
    have hsize : (addrReply H n b).length = 30027 := by
      unfold addrReply
      rw [wireFrame_length H (by decide) _ n.magic hm, List.length_append]
      have h1000 : (replyEntries n).length = 1000 := by rw [(C72_reply_partial (H := H) n c hv hm).2.1]; omega
      have h30 : ∀ l : List (Addr × Val × Val), (∀ e ∈ l, (b e).length = 30) → (l.map b).flatten.length = 30 * l.length := by
        intro l hl
        induction l with
        | nil => rfl
        | cons a l ih =>
          rw [List.map_cons, List.flatten_cons, List.length_append, ih (fun e he => hl e (List.mem_cons_of_mem _ he)),
            hl a (List.mem_cons_self ..), List.length_cons]
          omega
      rw [h30 _ (fun e he => wNet_length (hbw e he)), h1000]
      decide
    generalize hF : wireFrame H n.magic "getaddr" [] = F at *
    have hFl : F.length = 24 := by rw [hlen]; rfl
    have hframe : IsFrame F := by
      refine ⟨by omega, ?_⟩
      have := firstMsgLen_frame H (s := "getaddr") (by decide) [] n.magic [] hm (by decide)
      rw [List.append_nil, hF, firstMsgLen_eq, if_neg (by omega)] at this
      have := Option.some.inj (Except.ok.inj this)
      rw [this, hFl]
    have key : ∀ (j : Nat) (m : Node) (k : Conn), m.ver = n.ver → m.magic = n.magic → m.addresses = n.addresses →
        m.conns[c]? = some k → k.isOpen = true → k.recvBuf = [] →
        queued (m.run H (List.replicate j (.read c (.data F) now))) c = queued m c + 30027 * j := by
      intro j
      induction j with
      | zero => intros; rfl
      | succ j ih =>
        intro m k h1 h2 h3 hk ho hb
        obtain ⟨fs, rest, g1, g2, -⟩ := read_spec (H := H) m c F now k hk (by intro h; rw [h] at hFl; cases hFl)
        rw [hb, List.nil_append] at g1
        have hs : Splits F [F] [] := ⟨by simp, by simpa using hframe, Or.inl (by decide)⟩
        obtain ⟨rfl, rfl⟩ := g1.unique hs
        rw [handleAll, handleAll] at g2
        let m' := Node.setRecvBuf c (m.received c F now) ([].flatten ++ [])
        have hm' : m'.magic = n.magic := h2
        have he : replyEntries m' = replyEntries n := by
          unfold replyEntries
          rw [show m'.addresses = n.addresses from h3]
        have hc := (C72_reply_partial (H := H) m' c (h1.trans hv) (by rw [hm']; exact hm)).2.2.2.1 b
          (by rw [he]; exact fun e h => ⟨_, hbw e h⟩)
        have ha : addrReply H m' b = addrReply H n b := by
          unfold addrReply
          rw [he, hm']
        have hg := getaddr_frame (H := H) m' c now (by rw [hm']; exact hm)
        rw [hm', hF, hc, ha] at hg
        have hstep : m.step H (.read c (.data F) now) =
            m'.upd c (fun k => { k with sendBuf := k.sendBuf ++ addrReply H n b }) := by
          unfold Node.step
          simp only [if_pos (mem_peers.2 ⟨k, hk, ho⟩)]
          rw [g2]
          exact hg
        have e1 : (m.received c F now).conns[c]? = _ := conns_upd_self m c _ hk
        have e2 : m'.conns[c]? = _ := conns_upd_self _ c _ e1
        have e3 := conns_upd_self m' c (fun k => { k with sendBuf := k.sendBuf ++ addrReply H n b }) e2
        rw [List.replicate_succ, run_cons, hstep, ih (m'.upd c (fun k => { k with sendBuf := k.sendBuf ++ addrReply H n b })) _ h1 h2 h3 e3 ho rfl]
        unfold queued
        rw [e3, hk]
        simp only [Option.elim_some, List.length_append, hsize]
        omega
    exact key j n k rfl rfl rfl hk ho hb

/-- A node with one peer that knows `q` addresses. -/
def nodeFull (v : Aes.PyVer) (q : Nat) : Node := { node0 v 125 with
  conns := [{ address := ("10.0.0.2".toList, 4000), incoming := true }]
  addresses := (List.range q).map (fun (p : Nat) => ((ipText someIp, (p : Int)), .int 0, .int 1)) }

/-- It meets the hypotheses of `C153_amplified_false`. -/
example (q : Nat) (hq : 1000 ≤ q) (hq' : q ≤ 65536) (j : Nat) : queued ((nodeFull .py2 q).run H
    (List.replicate j (.read 0 (.data (wireFrame H (nodeFull .py2 q).magic "getaddr" [])) 6000))) 0 = 30027 * j := by
  have h := (C153_amplified_false (H := H) (nodeFull .py2 q) rfl rfl 0 { address := ("10.0.0.2".toList, 4000), incoming := true } rfl rfl rfl ?_ ?_ 6000 j).2
  · rw [h]
    exact Nat.zero_add _
  · have hall : (nodeFull .py2 q).addresses.filter known = (nodeFull .py2 q).addresses := by
      rw [List.filter_eq_self]
      intro e he
      obtain ⟨p, -, rfl⟩ := List.mem_map.1 he
      rfl
    rw [hall]
    exact hq.trans_eq (by simp [nodeFull] : (nodeFull .py2 q).addresses.length = q).symm
  · intro e he
    have : e ∈ (nodeFull .py2 q).addresses := by
      have h1 := List.mem_of_mem_filter (List.mem_of_mem_take he)
      exact (List.mergeSort_perm _ _).mem_iff.1 h1
    obtain ⟨p, hp, rfl⟩ := List.mem_map.1 this
    exact ⟨_, _, entry_wire someIp p (by decide) (by have := List.mem_range.1 hp; omega)⟩

/-- Two pings, in pieces, and a write of part of the answers. -/
example (ping : Bytes) (hp : ping = wireFrame H [1, 2, 3, 4] "ping" [1, 2, 3, 4, 5, 6, 7, 8]) :
    let es : List Event := [.read 0 (.data (ping ++ ping.take 10)) 6000, .write 0 (.sent 20) 6001,
      .read 0 (.data (ping.drop 10)) 6002]
    (∀ e ∈ es, Event.network e = true) ∧ sentBy 0 es = 64 ∧ load ((nodeFull .py3 2000).run H es) 0 ≤ 64 := by
  have hl : ping.length = 32 := by rw [hp, wireFrame_length H (by decide) _ _ rfl]; rfl
  have h1 : ∀ e ∈ [.read 0 (.data (ping ++ ping.take 10)) 6000, .write 0 (.sent 20) 6001,
      .read 0 (.data (ping.drop 10)) 6002], Event.network e = true := by simp [Event.network]
  have h2 : sentBy 0 [.read 0 (.data (ping ++ ping.take 10)) 6000, .write 0 (.sent 20) 6001,
      .read 0 (.data (ping.drop 10)) 6002] = 64 := by simp [sentBy, hl]
  refine ⟨h1, h2, ?_⟩
  have := C153_history (H := H) (nodeFull .py3 2000) rfl 0 _ h1
  rw [h2] at this
  have e1 : rate (nodeFull .py3 2000) = 1 := rfl
  have e2 : load (nodeFull .py3 2000) 0 = 0 := rfl
  have e3 : unread (nodeFull .py3 2000) 0 = 0 := rfl
  rw [e1, e2, e3] at this
  omega

end NBC.Props
