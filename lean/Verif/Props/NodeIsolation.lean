import Verif.Props.NodeBeat
import Verif.Props.TwoNodes

/-!
# Property C135: a peer cannot touch other peers' connections
-/

namespace NBC.Props
open NBC NBC.Spec NBC.Spec.Wire NBC.Proto NBC.P2P

variable {H : Hashes}

/-! ### The methods of a connection leave the others alone -/

/-- Nothing has changed but connection `c`, the address book, the bans, the guess of the own ip and the counters. -/
structure Only (c : Nat) (n m : Node) : Prop where
  others : ∀ d, d ≠ c → m.conns[d]? = n.conns[d]?
  count : m.conns.length = n.conns.length
  settings : SameSettings n m
  listening : m.listening = n.listening
  externalIp : m.externalIp = n.externalIp
  lastHeartbeat : m.lastHeartbeat = n.lastHeartbeat

theorem Only.refl (c : Nat) (n : Node) : Only c n n := ⟨fun _ _ => rfl, rfl, .refl n, rfl, rfl, rfl⟩

theorem Only.trans {c : Nat} {a b d : Node} (h : Only c a b) (h' : Only c b d) : Only c a d :=
  ⟨fun i hi => (h'.1 i hi).trans (h.1 i hi), h'.2.trans h.2, h.3.trans h'.3, h'.4.trans h.4, h'.5.trans h.5,
    h'.6.trans h.6⟩

theorem only_upd (c : Nat) (n : Node) (f : Conn → Conn) : Only c n (n.upd c f) :=
  ⟨fun d hd => by rw [conns_upd]; simp [Ne.symm hd], by simp [Node.upd], ⟨rfl, rfl, rfl, rfl, rfl, rfl, rfl, rfl, rfl, rfl⟩,
    rfl, rfl, rfl⟩

/-- The parts of a node that the methods of a connection change besides it. -/
theorem only_parts (c : Nat) (n : Node) (a : List (Addr × Val × Val)) (b : List (BanKey × Int)) (g : List Char)
    (rx tx : Nat) : Only c n { n with addresses := a, banned := b, guessedIp := g, rx := rx, tx := tx } :=
  ⟨fun _ _ => rfl, rfl, ⟨rfl, rfl, rfl, rfl, rfl, rfl, rfl, rfl, rfl, rfl⟩, rfl, rfl, rfl⟩

theorem only_handleClose (c : Nat) (n : Node) : Only c n (n.handleClose c) := by
  unfold Node.handleClose Node.disconnected
  split
  · exact only_upd ..
  · exact (only_upd ..).trans (only_parts c _ _ _ _ _ _)

theorem only_sendMessage (c : Nat) (n : Node) (t : MsgType) (fields : List (String × Val)) :
    Only c n (n.sendMessage H c t fields).1 := by
  unfold Node.sendMessage
  split
  · exact .refl ..
  · exact only_upd ..

theorem only_sendNew (c : Nat) (n : Node) (t : MsgType) (args : List Val) : Only c n (n.sendNew H c t args).1 := by
  unfold Node.sendNew
  split
  · exact .refl ..
  · exact only_sendMessage ..

theorem addAddresses_parts (l : List Val) (n : Node) : ∃ a, (n.addAddresses l).1 = { n with addresses := a } := by
  induction l generalizing n with
  | nil => exact ⟨n.addresses, rfl⟩
  | cons v l ih =>
    unfold Node.addAddresses
    split
    · exact ⟨n.addresses, rfl⟩
    · split
      · exact ⟨n.addresses, rfl⟩
      · rename_i key value hv
        obtain ⟨a, h⟩ := ih { n with addresses := dictSet n.addresses key value }
        exact ⟨a, h⟩

theorem only_commandAddress (c : Nat) (n : Node) (l : Val) : Only c n (n.commandAddress l).1 := by
  unfold Node.commandAddress
  split
  · rename_i l
    obtain ⟨a, h⟩ := addAddresses_parts l n
    rw [h]
    exact only_parts c n _ _ _ _ _
  · exact .refl ..

theorem only_commandVersionAck (c : Nat) (n : Node) (now : Int) : Only c n (n.commandVersionAck c now).1 := by
  unfold Node.commandVersionAck
  split
  · exact .refl ..
  · split
    · exact only_parts c n _ _ _ _ _
    · exact .refl ..

theorem only_commandGetAddress (c : Nat) (n : Node) : Only c n (n.commandGetAddress H c).1 := by
  unfold Node.commandGetAddress
  split
  · exact .refl ..
  · split
    · exact .refl ..
    · exact only_sendNew ..

theorem only_dispatch (c : Nat) (n : Node) (m : Msg) (now : Int) : Only c n (n.dispatch H c m now).1 := by
  unfold Node.dispatch
  split
  · split
    · exact .refl ..
    · exact only_sendNew ..
  split
  · exact only_sendNew ..
  split
  · exact only_commandVersionAck ..
  split
  · exact only_commandGetAddress ..
  split
  · split
    · exact .refl ..
    · exact only_commandAddress ..
  · exact .refl ..

theorem checkExternalIp_parts (n : Node) : ∃ g, n.checkExternalIp = { n with guessedIp := g } := by
  unfold Node.checkExternalIp
  simp only
  split
  · exact ⟨n.guessedIp, rfl⟩
  · exact ⟨_, rfl⟩

theorem only_handleFrame (c : Nat) (n : Node) (now : Int) (f : Bytes) : Only c n (n.handleFrame H c now f) := by
  unfold Node.handleFrame
  split
  · exact .refl ..
  · unfold Node.handleMessage
    split
    · split
      · exact .refl ..
      · rename_i g _
        obtain ⟨ip, h⟩ := checkExternalIp_parts (n.upd c g)
        rw [h]
        split
        · exact ((only_upd c n g).trans (only_parts c _ _ _ _ _ _)).trans (only_dispatch ..)
        · exact only_upd c n g
    split
    · exact (only_upd c n _).trans (only_dispatch ..)
    · exact only_dispatch ..

theorem only_handleAll (c : Nat) (now : Int) (fs : List Bytes) (rest : Bytes) (n : Node) :
    Only c n (handleAll (Node.setRecvBuf c) (Node.handleFrame H c now) n fs rest) := by
  induction fs generalizing n with
  | nil => exact .refl ..
  | cons f fs ih =>
    rw [handleAll]
    exact ((only_upd c n _).trans (only_handleFrame ..)).trans (ih _)

theorem only_received (c : Nat) (n : Node) (chunk : Bytes) (now : Int) : Only c n (n.received c chunk now) :=
  (only_upd c n _).trans (only_parts c _ _ _ _ _ _)

theorem only_handleRead (c : Nat) (n : Node) (r : RecvRes) (now : Int) : Only c n (n.handleRead H c r now).1 := by
  cases r with
  | raised => exact only_handleClose ..
  | data chunk =>
    by_cases hc : chunk = []
    · have : (n.handleRead H c (.data chunk) now).1 = (n.handleClose c).handleClose c := by
        unfold Node.handleRead; simp only [if_pos hc]
      rw [this]
      exact (only_handleClose ..).trans (only_handleClose ..)
    · cases hk : n.conns[c]? with
      | none =>
        have : (n.handleRead H c (.data chunk) now).1 = n := by
          unfold Node.handleRead; simp only [if_neg hc, hk]
        rw [this]
        exact .refl ..
      | some k =>
        obtain ⟨fs, rest, -, h, -⟩ := read_spec (H := H) n c chunk now k hk hc
        rw [h]
        exact (only_received ..).trans (only_handleAll ..)

theorem only_handleWrite (c : Nat) (n : Node) (r : SendRes) (now : Int) : Only c n (n.handleWrite c r now) := by
  cases r with
  | raised => exact only_handleClose ..
  | closed => exact (only_handleClose ..).trans (only_upd ..)
  | sent j =>
    unfold Node.handleWrite
    simp only
    split
    · exact .refl ..
    · exact (only_upd c n _).trans (only_parts c _ _ _ _ _ _)

theorem only_idlePing (c : Nat) (n : Node) (k : Conn) (now now' : Int) (nonce : Bytes) :
    Only c n (n.idlePing H c k now now' nonce).1 := by
  have hs := only_sendNew (H := H) c n msgPing [.bytes nonce]
  unfold Node.idlePing
  split
  · split
    · rename_i h; rw [h] at hs; exact hs
    · rename_i h; rw [h] at hs; exact hs.trans (only_upd ..)
  · exact .refl ..

theorem only_readable (c : Nat) (n : Node) (now now' : Int) (nonce : Bytes) :
    Only c n (n.readable H c now now' nonce).1 := by
  unfold Node.readable
  split
  · exact .refl ..
  · rename_i k hk
    have hs := only_idlePing (H := H) c n k now now' nonce
    split
    · rename_i h; rw [h] at hs; exact hs
    · rename_i h
      rw [h] at hs
      split
      · exact hs.trans (only_handleClose ..)
      · exact hs

theorem only_punish (c : Nat) (n : Node) (now : Int) : Only c n (n.punishPeer c now) := by
  unfold Node.punishPeer
  simp only
  split
  · exact only_upd ..
  · split
    · exact ((only_upd c n _).trans (only_parts c _ _ _ _ _ _)).trans (only_handleClose ..)
    · exact only_upd ..

/-- The connection an event is about, if it is about one. -/
def Event.conn : Event → Option Nat
  | .read c _ _ => some c
  | .write c _ _ => some c
  | .poll c _ _ _ => some c
  | .close c => some c
  | .punish c _ => some c
  | .send c _ _ => some c
  | _ => none

/-- C135: whatever a peer sends, however its socket behaves, and whatever is done to its connection: the other
connections (their queues, buffers, counters, scores and descriptions), the settings and the listener are as before.
Only its own connection, the address book, the bans, the guess of the node's ip and the counters can change. -/
theorem C135_isolated (n : Node) (e : Event) (c : Nat) (he : Event.conn e = some c) : Only c n (n.step H e) := by
  cases e <;> simp only [Event.conn, Option.some.injEq, reduceCtorEq] at he <;> subst he <;> unfold Node.step <;>
    simp only
  · split
    · exact only_handleRead ..
    · exact .refl ..
  · split
    · exact only_handleWrite ..
    · exact .refl ..
  · split
    · exact only_readable ..
    · exact .refl ..
  · exact only_handleClose ..
  · exact only_punish ..
  · exact only_sendMessage ..

/-! ### A connection evolves as if it were alone -/

/-- Connection `c` of one node is connection `d` of the other. -/
structure SameAt (c : Nat) (n : Node) (d : Nat) (m : Node) : Prop where
  conn : n.conns[c]? = m.conns[d]?
  magic : n.magic = m.magic
  ver : n.ver = m.ver
  listening : n.listening = m.listening

theorem SameAt.only {c d i : Nat} {n n' m : Node} (h : SameAt c n d m) (ho : Only i n n') (hi : i ≠ c) :
    SameAt c n' d m :=
  ⟨(ho.others c (Ne.symm hi)).trans h.conn, ho.settings.magic.trans h.magic, ho.settings.ver.trans h.ver,
    ho.listening.trans h.listening⟩

section
variable {c d : Nat} {n m : Node}

theorem SameAt.upd (h : SameAt c n d m) (f : Conn → Conn) : SameAt c (n.upd c f) d (m.upd d f) :=
  ⟨by rw [conns_upd, conns_upd, h.conn]; simp, h.magic, h.ver, h.listening⟩

theorem SameAt.parts (h : SameAt c n d m) {n' m' : Node} (h1 : n'.conns = n.conns) (h2 : n'.magic = n.magic)
    (h3 : n'.ver = n.ver) (h1' : m'.conns = m.conns) (h2' : m'.magic = m.magic) (h3' : m'.ver = m.ver)
    (h4 : n'.listening = n.listening := by rfl) (h4' : m'.listening = m.listening := by rfl) :
    SameAt c n' d m' :=
  ⟨by rw [h1, h1', h.conn], by rw [h2, h2', h.magic], by rw [h3, h3', h.ver],
    by rw [h4, h4', h.listening]⟩

theorem SameAt.handleClose (h : SameAt c n d m) : SameAt c (n.handleClose c) d (m.handleClose d) := by
  have h' := h.upd (fun k => { k with isOpen := false })
  unfold Node.handleClose Node.disconnected
  rw [h'.conn]
  split
  · exact h'
  · exact h'.parts rfl rfl rfl rfl rfl rfl

theorem SameAt.sendMessage (h : SameAt c n d m) (t : MsgType) (fields : List (String × Val)) :
    SameAt c (n.sendMessage H c t fields).1 d (m.sendMessage H d t fields).1 ∧
      (n.sendMessage H c t fields).2 = (m.sendMessage H d t fields).2 := by
  unfold Node.sendMessage
  rw [h.magic]
  split
  · exact ⟨h, rfl⟩
  · exact ⟨h.upd _, rfl⟩

theorem SameAt.sendNew (h : SameAt c n d m) (t : MsgType) (args : List Val) :
    SameAt c (n.sendNew H c t args).1 d (m.sendNew H d t args).1 ∧
      (n.sendNew H c t args).2 = (m.sendNew H d t args).2 := by
  unfold Node.sendNew
  split
  · exact ⟨h, rfl⟩
  · exact h.sendMessage _ _

theorem SameAt.dispatch (h : SameAt c n d m) (M : Msg) (now : Int) (hg : n.ver = .py3 ∨ M.command ≠ "getaddr") :
    SameAt c (n.dispatch H c M now).1 d (m.dispatch H d M now).1 := by
  unfold Node.dispatch
  split
  · split
    · exact h
    · exact (h.sendNew _ _).1
  split
  · exact (h.sendNew _ _).1
  split
  · unfold Node.commandVersionAck
    rw [h.conn]
    split
    · exact h
    · split <;> split <;> exact h.parts rfl rfl rfl rfl rfl rfl
  split
  · rename_i hc
    have hv : n.ver = .py3 := hg.resolve_right (fun h => h hc)
    have hv' : m.ver = .py3 := h.ver ▸ hv
    unfold Node.commandGetAddress
    rw [hv, hv']
    exact h
  split
  · split
    · exact h
    · unfold Node.commandAddress
      split
      · rename_i l _
        obtain ⟨a, e1⟩ := addAddresses_parts l n
        obtain ⟨a', e2⟩ := addAddresses_parts l m
        rw [e1, e2]
        exact h.parts rfl rfl rfl rfl rfl rfl
      · exact h
  · exact h

theorem SameAt.handleFrame (h : SameAt c n d m) (now : Int) (f : Bytes)
    (hg : n.ver = .py3 ∨ ∀ M, parseMessage H f n.magic = .ok M → M.command ≠ "getaddr") :
    SameAt c (n.handleFrame H c now f) d (m.handleFrame H d now f) := by
  unfold Node.handleFrame
  rw [← h.magic]
  cases hM : parseMessage H f n.magic with
  | error => exact h
  | ok M =>
    simp only
    have hg' : n.ver = .py3 ∨ M.command ≠ "getaddr" := hg.imp id (fun h => h M hM)
    unfold Node.handleMessage
    split
    · split
      · exact h
      · rename_i g _
        obtain ⟨ip, e⟩ := checkExternalIp_parts (n.upd c g)
        obtain ⟨ip', e'⟩ := checkExternalIp_parts (m.upd d g)
        rw [e, e', h.listening]
        split
        · exact ((h.upd g).parts (n' := { n.upd c g with guessedIp := ip }) (m' := { m.upd d g with guessedIp := ip' })
            rfl rfl rfl rfl rfl rfl).dispatch M now hg'
        · exact h.upd g
    split
    · exact (h.upd _).dispatch M now hg'
    · exact h.dispatch M now hg'

theorem SameAt.handleAll (h : SameAt c n d m) (now : Int) (fs : List Bytes) (rest : Bytes)
    (hg : n.ver = .py3 ∨ ∀ f ∈ fs, ∀ M, parseMessage H f n.magic = .ok M → M.command ≠ "getaddr") :
    SameAt c (P2P.handleAll (Node.setRecvBuf c) (Node.handleFrame H c now) n fs rest) d
      (P2P.handleAll (Node.setRecvBuf d) (Node.handleFrame H d now) m fs rest) := by
  induction fs generalizing n m with
  | nil => exact h
  | cons f fs ih =>
    rw [P2P.handleAll, P2P.handleAll]
    have h1 := (h.upd (fun k => { k with recvBuf := fs.flatten ++ rest })).handleFrame (H := H) now f
      (hg.imp id fun hg M hM => hg f (List.mem_cons_self ..) M hM)
    have ho := (only_upd c n (fun k => { k with recvBuf := fs.flatten ++ rest })).trans
      (only_handleFrame (H := H) c (n.upd c (fun k => { k with recvBuf := fs.flatten ++ rest })) now f)
    refine ih h1 ?_
    rcases hg with hg | hg
    · exact .inl (ho.settings.ver.trans hg)
    · refine .inr fun f' hf' M hM => hg f' (List.mem_cons_of_mem _ hf') M ?_
      rw [← ho.settings.magic]
      exact hM

theorem SameAt.peers (h : SameAt c n d m) : c ∈ n.peers ↔ d ∈ m.peers := by
  rw [mem_peers, mem_peers, h.conn]

end

/-- What one connection sees of a history: the events about it, as connection 0, the heartbeats, and that the listener is
closed. -/
inductive Local where
  | event (e : Event)
  | beat
  | deaf

/-- The node with this connection alone: no other connections, no addresses, no bans. -/
def alone (n : Node) (k : Conn) : Node :=
  { n with conns := [k], addresses := [], banned := [], guessedIp := [], rx := 0, tx := 0 }

/-- An event about the connection 0 of a node, a heartbeat's effect on it, or the end of the listener. -/
def Local.step (H : Hashes) (n : Node) : Local → Node
  | .event e => n.step H e
  | .beat => n.upd 0 (fun k => if k.isOpen then k.reduceBanscore else k)
  | .deaf => { n with listening := false }

/-- What connection `c` sees of one event.  A heartbeat asks one of the peers for addresses if there are too few;
`removePeer` closes the first open connection with the address; an incoming connection that cannot be greeted ends the
listener. -/
def localOf (H : Hashes) (c : Nat) (n : Node) : Event → List Local
  | .read i r now => if i = c then [.event (.read 0 r now)] else []
  | .write i r now => if i = c then [.event (.write 0 r now)] else []
  | .poll i now now' nonce => if i = c then [.event (.poll 0 now now' nonce)] else []
  | .close i => if i = c then [.event (.close 0)] else []
  | .punish i now => if i = c then [.event (.punish 0 now)] else []
  | .send i t fields => if i = c then [.event (.send 0 t fields)] else []
  | .items now envs choice =>
    if now - n.lastHeartbeat > 10 * second then
      (if n.peers[choice % n.peers.length]? = some c ∧ (n.step H (.items now envs choice)).addresses.length < 50 then
        [.event (.send 0 msgGetaddr [])] else []) ++ [.beat]
    else []
  | .removePeer a =>
    if n.peers.find? (fun i => (n.conns[i]?).map (·.address) = some a) = some c then [.event (.close 0)] else []
  | .accept pair now now' nonce =>
    if n.listening ∧ (n.step H (.accept pair now now' nonce)).listening = false then [.deaf] else []
  | .addPeer .. => []
  | .setExternalIp _ => []

/-- What connection `c` sees of a history. -/
def locals (H : Hashes) (c : Nat) : Node → List Event → List Local
  | _, [] => []
  | n, e :: es => localOf H c n e ++ locals H c (n.step H e) es

theorem step_settings (n : Node) (e : Event) : SameSettings n (n.step H e) :=
  steps2_same (steps2_step (Q := fun _ _ _ => True) n e (fun _ _ _ _ => trivial))

theorem accept_old (n : Node) (pair : Option Addr) (now now' : Int) (nonce : Bytes) (i : Nat) (hi : i < n.conns.length) :
    (n.step H (.accept pair now now' nonce)).conns[i]? = n.conns[i]? := by
  have hb : ∀ a, (n.banCheck a now).1.conns = n.conns := by
    intro a
    unfold Node.banCheck
    split
    · rfl
    · split <;> rfl
  have hn : ∀ (p : Node) (a : Addr), p.conns = n.conns → (p.newIncoming H a now' nonce).1.conns[i]? = n.conns[i]? := by
    intro p a hp
    have hne : p.conns.length ≠ i := by rw [hp]; omega
    have h0 : (p.conns ++ [({ address := a, incoming := true } : Conn)])[i]? = n.conns[i]? := by
      rw [hp]; exact List.getElem?_append_left hi
    unfold Node.newIncoming Node.greet
    simp only
    split
    · exact h0
    · unfold Node.sendMessage
      split
      · exact h0
      · rw [conns_upd]
        simp only [hne, if_false, Option.map_id']
        exact h0
  have ha : (n.handleAccept H pair now now' nonce).1.conns[i]? = n.conns[i]? := by
    unfold Node.handleAccept
    split
    · rfl
    · rename_i a
      have := hb a
      split
      · rename_i p h; rw [h] at this; rw [this]
      · rename_i p h
        rw [h] at this
        split
        · rw [this]
        · exact hn p a this
  unfold Node.step
  simp only
  split
  · split <;> (rename_i h; rw [h] at ha; exact ha)
  · rfl

section
variable {c : Nat} {n m : Node}

theorem SameAt.sent (h : SameAt c n 0 m) (j : Nat) (now : Int) : SameAt c (n.sent c j now) 0 (m.sent 0 j now) :=
  (h.upd (fun k => { k with
      out := k.out ++ k.sendBuf.take j
      txBytes := k.txBytes + j
      lastTx := now
      sendBuf := k.sendBuf.drop j })).parts rfl rfl rfl rfl rfl rfl

theorem SameAt.handleWrite (h : SameAt c n 0 m) (r : SendRes) (now : Int) :
    SameAt c (n.handleWrite c r now) 0 (m.handleWrite 0 r now) := by
  cases r with
  | raised => exact h.handleClose
  | closed => exact h.handleClose.upd _
  | sent j =>
    unfold Node.handleWrite
    simp only
    rw [h.conn]
    split
    · exact h
    · exact h.sent _ _

theorem SameAt.readable (h : SameAt c n 0 m) (now now' : Int) (nonce : Bytes) :
    SameAt c (n.readable H c now now' nonce).1 0 (m.readable H 0 now now' nonce).1 := by
  have hp : ∀ k, SameAt c (n.idlePing H c k now now' nonce).1 0 (m.idlePing H 0 k now now' nonce).1 ∧
      (n.idlePing H c k now now' nonce).2 = (m.idlePing H 0 k now now' nonce).2 := by
    intro k
    have hs := h.sendNew (H := H) msgPing [.bytes nonce]
    unfold Node.idlePing
    split
    · generalize n.sendNew H c msgPing [.bytes nonce] = a at *
      generalize m.sendNew H 0 msgPing [.bytes nonce] = b at *
      obtain ⟨a1, a2⟩ := a
      obtain ⟨b1, b2⟩ := b
      obtain ⟨hs1, hs2⟩ := hs
      simp only at hs1 hs2
      subst hs2
      cases a2 with
      | none => exact ⟨hs1.upd _, rfl⟩
      | some e => exact ⟨hs1, rfl⟩
    · exact ⟨h, rfl⟩
  unfold Node.readable
  rw [h.conn]
  cases hk : m.conns[0]? with
  | none => exact h
  | some k =>
    simp only
    have hs := hp k
    generalize n.idlePing H c k now now' nonce = a at *
    generalize m.idlePing H 0 k now now' nonce = b at *
    obtain ⟨a1, a2⟩ := a
    obtain ⟨b1, b2⟩ := b
    obtain ⟨hs1, hs2⟩ := hs
    simp only at hs1 hs2
    subst hs2
    cases a2 with
    | some e => exact hs1
    | none =>
      simp only
      split
      · exact hs1.handleClose
      · exact hs1

theorem SameAt.punish (h : SameAt c n 0 m) (now : Int) : SameAt c (n.punishPeer c now) 0 (m.punishPeer 0 now) := by
  have h' := h.upd (fun k => k.addBanscore)
  unfold Node.punishPeer
  simp only
  rw [h'.conn]
  split
  · exact h'
  · split
    · exact SameAt.handleClose (h'.parts rfl rfl rfl rfl rfl rfl)
    · exact h'

theorem SameAt.handleRead (h : SameAt c n 0 m) (r : RecvRes) (now : Int) (ho : c ∈ n.peers)
    (hg : n.ver = .py3 ∨ ∀ f ∈ n.stepFrames H (.read c r now) c, ∀ M, parseMessage H f n.magic = .ok M →
      M.command ≠ "getaddr") :
    SameAt c (n.handleRead H c r now).1 0 (m.handleRead H 0 r now).1 := by
  cases r with
  | raised => exact h.handleClose
  | data chunk =>
    by_cases hc : chunk = []
    · have : ∀ (n : Node) c, (n.handleRead H c (.data chunk) now).1 = (n.handleClose c).handleClose c := by
        intro n c
        unfold Node.handleRead; simp only [if_pos hc]
      rw [this, this]
      exact h.handleClose.handleClose
    · obtain ⟨k, hk, -⟩ := mem_peers.1 ho
      have hk' : m.conns[0]? = some k := h.conn ▸ hk
      obtain ⟨fs, rest, hs, h1, h2, -⟩ := read_spec (H := H) n c chunk now k hk hc
      obtain ⟨fs', rest', hs', h1', -⟩ := read_spec (H := H) m 0 chunk now k hk' hc
      obtain ⟨rfl, rfl⟩ := hs.unique hs'
      rw [h1, h1']
      have hr : SameAt c (n.received c chunk now) 0 (m.received 0 chunk now) :=
        (h.upd (fun k => { k with
          recvBuf := k.recvBuf ++ chunk
          rxBytes := k.rxBytes + chunk.length
          lastRx := now })).parts rfl rfl rfl rfl rfl rfl
      refine hr.handleAll now fs rest (hg.imp id fun hg f hf M hM => hg f ?_ M hM)
      unfold Node.stepFrames
      simp only [hk, h2]
      rw [if_pos ⟨trivial, ho, hc⟩]
      exact hf

theorem local_step (h : SameAt c n 0 m) (hc : n.conns[c]? ≠ none) (hm : n.magic.length = 4) (e : Event)
    (hg : n.ver = .py3 ∨ ∀ f ∈ n.stepFrames H e c, ∀ M, parseMessage H f n.magic = .ok M → M.command ≠ "getaddr") :
    SameAt c (n.step H e) 0 ((localOf H c n e).foldl (Local.step H) m) := by
  have hlt : c < n.conns.length := by
    by_contra hlt
    exact hc (List.getElem?_eq_none (by omega))
  have hset := step_settings (H := H) n e
  have hlist : (∀ pair now now' nonce, e ≠ .accept pair now now' nonce) → (n.step H e).listening = n.listening :=
    fun hne => steps2_inv (P := fun m => m.listening = n.listening) (fun a b hp ha => by
      rw [← ha]
      exact listening_prim hp (fun hq => by
        cases e <;> first | exact hne _ _ _ _ rfl | exact hq))
      (steps2_step (H := H) (Q := e.stores) n e (fun _ _ _ h => h)) rfl
  have hkeep : (n.step H e).conns[c]? = n.conns[c]? → (∀ pair now now' nonce, e ≠ .accept pair now now' nonce) →
      SameAt c (n.step H e) 0 m := fun hk hne =>
    ⟨hk.trans h.conn, hset.magic.trans h.magic, hset.ver.trans h.ver, (hlist hne).trans h.listening⟩
  have hother : ∀ i, Event.conn e = some i → i ≠ c → SameAt c (n.step H e) 0 m := fun i hi hne =>
    h.only (C135_isolated n e i hi) hne
  have hpeers := h.peers
  cases e with
  | read i r now =>
    by_cases hi : i = c
    · subst hi
      simp only [localOf, if_true, List.foldl_cons, List.foldl_nil, Local.step]
      unfold Node.step
      simp only
      by_cases ho : i ∈ n.peers
      · rw [if_pos ho, if_pos (hpeers.1 ho)]
        exact h.handleRead r now ho hg
      · rw [if_neg ho, if_neg (fun h => ho (hpeers.2 h))]
        exact h
    · simp only [localOf, if_neg hi, List.foldl_nil]
      exact hother i rfl hi
  | write i r now =>
    by_cases hi : i = c
    · subst hi
      simp only [localOf, if_true, List.foldl_cons, List.foldl_nil, Local.step]
      unfold Node.step
      simp only
      by_cases ho : i ∈ n.peers
      · rw [if_pos ho, if_pos (hpeers.1 ho)]
        exact h.handleWrite r now
      · rw [if_neg ho, if_neg (fun h => ho (hpeers.2 h))]
        exact h
    · simp only [localOf, if_neg hi, List.foldl_nil]
      exact hother i rfl hi
  | poll i now now' nonce =>
    by_cases hi : i = c
    · subst hi
      simp only [localOf, if_true, List.foldl_cons, List.foldl_nil, Local.step]
      unfold Node.step
      simp only
      by_cases ho : i ∈ n.peers
      · rw [if_pos ho, if_pos (hpeers.1 ho)]
        exact h.readable now now' nonce
      · rw [if_neg ho, if_neg (fun h => ho (hpeers.2 h))]
        exact h
    · simp only [localOf, if_neg hi, List.foldl_nil]
      exact hother i rfl hi
  | close i =>
    by_cases hi : i = c
    · subst hi
      simp only [localOf, if_true, List.foldl_cons, List.foldl_nil, Local.step]
      exact h.handleClose
    · simp only [localOf, if_neg hi, List.foldl_nil]
      exact hother i rfl hi
  | punish i now =>
    by_cases hi : i = c
    · subst hi
      simp only [localOf, if_true, List.foldl_cons, List.foldl_nil, Local.step]
      exact h.punish now
    · simp only [localOf, if_neg hi, List.foldl_nil]
      exact hother i rfl hi
  | send i t fields =>
    by_cases hi : i = c
    · subst hi
      simp only [localOf, if_true, List.foldl_cons, List.foldl_nil, Local.step]
      exact (h.sendMessage t fields).1
    · simp only [localOf, if_neg hi, List.foldl_nil]
      exact hother i rfl hi
  | accept pair now now' nonce =>
    have hk := (accept_old (H := H) n pair now now' nonce c hlt).trans h.conn
    simp only [localOf]
    split
    · rename_i hd
      exact ⟨hk, hset.magic.trans h.magic, hset.ver.trans h.ver, hd.2⟩
    · rename_i hd
      refine ⟨hk, hset.magic.trans h.magic, hset.ver.trans h.ver, ?_⟩
      simp only [List.foldl_nil]
      rw [← h.listening]
      cases hl : n.listening with
      | false => exact deaf_run (H := H) [.accept pair now now' nonce] n hl
      | true => simpa [hl] using hd
  | addPeer a force connects now nonce =>
    exact hkeep (addPeer_old n a force connects now nonce c hlt) (fun _ _ _ _ => by simp)
  | setExternalIp ip => exact hkeep rfl (fun _ _ _ _ => by simp)
  | removePeer a =>
    simp only [localOf]
    cases hf : n.peers.find? (fun i => (n.conns[i]?).map (·.address) = some a) with
    | none =>
      simp only [reduceCtorEq, if_false, List.foldl_nil]
      refine hkeep ?_ (fun _ _ _ _ => by simp)
      show (n.removePeer a).conns[c]? = _
      unfold Node.removePeer
      rw [hf]
    | some i =>
      have hr : n.step H (.removePeer a) = n.handleClose i := by
        show n.removePeer a = _
        unfold Node.removePeer
        rw [hf]
      by_cases hi : i = c
      · subst hi
        simp only [if_true, List.foldl_cons, List.foldl_nil, Local.step]
        rw [hr]
        exact h.handleClose
      · simp only [Option.some.injEq, hi, if_false, List.foldl_nil]
        rw [hr]
        exact h.only (only_handleClose i n) hi
  | items now envs choice =>
    simp only [localOf]
    by_cases hd : now - n.lastHeartbeat > 10 * second
    · rw [if_pos hd]
      obtain ⟨p, hp, hs⟩ := items_spec (H := H) n hm now envs choice hd
      have hpc : p.conns[c]? = n.conns[c]? := by
        rw [hp]
        exact addSome_old _ { n with lastHeartbeat := now } c hlt
      have hnd : n.peers.Nodup := by
        unfold Node.peers
        exact List.nodup_range.filter _
      have hadr : (n.step H (.items now envs choice)).addresses = p.addresses := by
        rw [hs, (reduce_same n.peers _).2.2]
        split
        · split <;> rfl
        · rfl
      rw [hadr]
      have hmm : m.magic.length = 4 := h.magic ▸ hm
      have key : ∀ (q r : Node), q.conns[c]? = r.conns[0]? → r.magic = m.magic → r.ver = m.ver → r.listening = m.listening →
          (∀ k, q.conns[c]? = some k → (c ∈ n.peers ↔ k.isOpen = true)) →
          n.step H (.items now envs choice) = n.peers.foldl (fun n c => n.upd c (fun k => k.reduceBanscore)) q →
          SameAt c (n.step H (.items now envs choice)) 0 (Local.step H r .beat) := by
        intro q r hq hr1 hr2 hr3 hop he
        refine ⟨?_, hset.magic.trans (h.magic.trans hr1.symm), hset.ver.trans (h.ver.trans hr2.symm),
          (hlist (fun _ _ _ _ => by simp)).trans (h.listening.trans hr3.symm)⟩
        rw [he, reduce_conns n.peers hnd q c]
        show _ = (r.upd 0 _).conns[0]?
        rw [conns_upd, ← hq]
        cases hk : q.conns[c]? with
        | none => rfl
        | some k =>
          have := hop k hk
          by_cases ho : c ∈ n.peers
          · simp [ho, this.1 ho]
          · have : ¬ k.isOpen = true := fun h => ho (this.2 h)
            simp [ho, this]
      have hopen : ∀ k, n.conns[c]? = some k → (c ∈ n.peers ↔ k.isOpen = true) := by
        intro k hk
        rw [mem_peers]
        constructor
        · rintro ⟨k', h1, h2⟩
          rw [hk] at h1
          cases h1
          exact h2
        · intro h2
          exact ⟨k, hk, h2⟩
      have hsend : m.step H (.send 0 msgGetaddr []) =
          m.upd 0 (fun k => { k with sendBuf := k.sendBuf ++ wireFrame H m.magic "getaddr" [] }) := by
        have h1 := getaddr_sent (H := H) m 0 hmm
        have h2 : m.sendNew H 0 msgGetaddr [] = m.sendMessage H 0 msgGetaddr [] := rfl
        show (m.sendMessage H 0 msgGetaddr []).1 = _
        rw [← h2, h1]
      cases hch : n.peers[choice % n.peers.length]? with
      | none =>
        rw [hch] at hs
        simp only [reduceCtorEq, false_and, if_false, List.nil_append, List.foldl_cons, List.foldl_nil]
        exact key p m (hpc.trans h.conn) rfl rfl rfl (hpc ▸ hopen) hs
      | some i =>
        rw [hch] at hs
        simp only at hs
        by_cases hl : p.addresses.length < 50
        · rw [if_pos hl] at hs
          by_cases hi : i = c
          · subst hi
            rw [if_pos ⟨rfl, hl⟩]
            simp only [List.cons_append, List.nil_append, List.foldl_cons, List.foldl_nil]
            show SameAt i _ 0 (Local.step H (m.step H (.send 0 msgGetaddr [])) .beat)
            rw [hsend]
            refine key _ _ ?_ rfl rfl rfl ?_ hs
            · rw [conns_upd, conns_upd, hpc, h.conn, h.magic]
              simp
            · intro k hk
              rw [conns_upd, hpc] at hk
              obtain ⟨k0, hk0, rfl⟩ := Option.map_eq_some_iff.1 hk
              rw [hopen k0 hk0]
              simp
          · rw [if_neg (by rintro ⟨h, -⟩; exact hi (Option.some.inj h))]
            simp only [List.nil_append, List.foldl_cons, List.foldl_nil]
            have hpi : (p.upd i (fun k => { k with sendBuf := k.sendBuf ++ wireFrame H n.magic "getaddr" [] })).conns[c]? =
                n.conns[c]? := by rw [conns_upd, hpc]; simp [hi]
            exact key _ m (hpi.trans h.conn) rfl rfl rfl (hpi ▸ hopen) hs
        · rw [if_neg hl] at hs
          rw [if_neg (fun h => hl h.2)]
          simp only [List.nil_append, List.foldl_cons, List.foldl_nil]
          exact key p m (hpc.trans h.conn) rfl rfl rfl (hpc ▸ hopen) hs
    · rw [if_neg hd]
      refine hkeep ?_ (fun _ _ _ _ => by simp)
      show ((n.items H now envs choice).1).conns[c]? = _
      unfold Node.items
      rw [if_neg hd]

end

/-- C135 over a history: a connection becomes what it would become as the only one of a node without addresses that
gets the events about it and its heartbeats, among these the questions for addresses.  So nothing that other peers send
or do, and nothing that is done to them, has an effect on it, except for the answer to `getaddr` (in Python 2), for
the choice of whom a heartbeat asks, and (what is missing from the full statement, `C135_deaf_false`) for an incoming
connection that ends the listener. -/
theorem C135_alone_partial (n : Node) (hm : n.magic.length = 4) (es : List Event) (c : Nat) (k : Conn)
    (hk : n.conns[c]? = some k)
    (hg : n.ver = .py3 ∨ ∀ f ∈ n.handled H es c, ∀ M, parseMessage H f n.magic = .ok M → M.command ≠ "getaddr") :
    (n.run H es).conns[c]? = ((locals H c n es).foldl (Local.step H) (alone n k)).conns[0]? := by
  have key : ∀ (es : List Event) (n m : Node), n.magic.length = 4 → SameAt c n 0 m → n.conns[c]? ≠ none →
      (n.ver = .py3 ∨ ∀ f ∈ n.handled H es c, ∀ M, parseMessage H f n.magic = .ok M → M.command ≠ "getaddr") →
      SameAt c (n.run H es) 0 ((locals H c n es).foldl (Local.step H) m) := by
    intro es
    induction es with
    | nil => intro n m _ h _ _; exact h
    | cons e es ih =>
      intro n m hm h hc hg
      rw [run_cons]
      simp only [locals, List.foldl_append]
      have hset := step_settings (H := H) n e
      refine ih _ _ (by rw [hset.magic]; exact hm) (local_step h hc hm e (hg.imp id fun hg f hf => hg f ?_)) ?_ ?_
      · intro hn
        obtain ⟨k, hk⟩ := Option.ne_none_iff_exists'.1 hc
        exact stays (H := H) (steps2_step (Q := fun _ _ _ => True) n e (fun _ _ _ _ => trivial)) c k hk hn
      · rw [hset.ver, hset.magic]
        refine hg.imp id fun hg f hf => hg f ?_
        unfold Node.handled
        exact List.mem_append_right _ hf
      · unfold Node.handled
        exact List.mem_append_left _ hf
  refine (key es n (alone n k) hm ⟨by rw [hk]; rfl, rfl, rfl, rfl⟩ (by rw [hk]; simp) hg).conn

/-- C135: a connection of a node that goes on listening never sees the end of the listener.  (By `C98_listening_partial` a
node that is bound to an ip does.) -/
theorem C135_awake (n : Node) (es : List Event) (c : Nat) (hl : (n.run H es).listening = true) :
    Local.deaf ∉ locals H c n es := by
  induction es generalizing n with
  | nil => simp [locals]
  | cons e es ih =>
    rw [run_cons] at hl
    rw [locals, List.mem_append, not_or]
    refine ⟨fun hd => ?_, ih _ hl⟩
    have hs : (n.step H e).listening = true := listened es _ hl
    cases e with
    | accept pair now now' nonce =>
      simp only [localOf] at hd
      split at hd
      · rename_i h
        rw [h.2] at hs
        cases hs
      · cases hd
    | items now envs choice =>
      simp only [localOf] at hd
      split at hd
      · split at hd <;> simp at hd
      · cases hd
    | addPeer => simp [localOf] at hd
    | setExternalIp => simp [localOf] at hd
    | _ =>
      simp only [localOf] at hd
      split at hd <;> simp at hd

/-- **C135 is false of a node that is bound to a name** (or to all interfaces): it has called a peer, whose version message
it would acknowledge.  When another peer connects first, the node is closed by that, and the version message of the peer
that was called is not acknowledged. -/
theorem C135_deaf_false :
    let n := (Node.init .py3 [1, 2, 3, 4] 70002 0 "/nbc/".toList ("localhost".toList, 9333) true 16 125 []).run Hashes.toy
      [.addPeer ("10.0.0.2".toList, 9333) true true 5000 [0, 0, 0, 0, 0, 0, 0, 1]]
    let hello := Event.read 0 (.data (outOf ((node0 .py3 125).run Hashes.toy callA) 0)) 6000
    let other := Event.accept (some ("10.0.0.9".toList, 4000)) 5500 5500 [0, 0, 0, 0, 0, 0, 0, 2]
    n.peers = [0] ∧ (n.run Hashes.toy [hello]).conns.map (·.sendBuf) = [wireFrame Hashes.toy [1, 2, 3, 4] "verack" []] ∧
    ((n.run Hashes.toy [other, hello]).conns.map (·.sendBuf))[0]? = some [] := by
  decide +kernel

/-- A node with two connections. -/
def twoPeers : Node := (node0 .py3 125).run Hashes.toy
  [.accept (some ("10.0.0.2".toList, 4000)) 5000 5000 [0, 0, 0, 0, 0, 0, 0, 1],
   .accept (some ("10.0.0.3".toList, 4000)) 5000 5000 [0, 0, 0, 0, 0, 0, 0, 2]]

/-- The second peer sends a ping and breaks off, the first sends a verack; the heartbeat asks the second. -/
def twoEvents : List Event :=
  [.read 1 (.data (wireFrame Hashes.toy twoPeers.magic "ping" [1, 2, 3, 4, 5, 6, 7, 8])) 6000,
   .read 0 (.data (wireFrame Hashes.toy twoPeers.magic "verack" [])) 7000, .items (11 * second) [] 1,
   .read 1 .raised 8000, .write 0 (.sent 10) 9000]

example : twoPeers.ver = .py3 ∧ twoPeers.magic.length = 4 ∧ twoPeers.peers = [0, 1] ∧
    (locals Hashes.toy 0 twoPeers twoEvents).length = 3 ∧ (locals Hashes.toy 1 twoPeers twoEvents).length = 4 ∧
    ((twoPeers.run Hashes.toy twoEvents).conns.map (fun k => (k.isOpen, k.verack))) = [(true, true), (false, false)] := by
  decide +kernel

end NBC.Props
