import Verif.Model.Messages
import Verif.Model.Aes

/-!
# `nbc/node/connection.py` and `nbc/node/basenode.py`: connections and the node

The node is single-threaded: `asyncore` calls one method at a time, and each call here maps a node to the node
after it.  A call that raises gives the exception beside the state it leaves behind.

* Clock readings are integers in units of `2 ^ -22` seconds.  Between 2004 and 2038 every reading of
  `time.time()` is a multiple of that unit and differences of readings are exact.
* The system's part (what `recv` and `send` return, whether `connect` succeeds, clock readings, random numbers)
  is an argument.
* `log` and `print` are taken not to raise, and the log level is above `LOG_LEVEL_DEBUG` (the default is
  `LOG_LEVEL_ERROR`), so that messages are not formatted for the log.
* Objects of class `Connection` are numbered in the order of their creation and never forgotten; the dictionary
  `_peers` (the `asyncore` map, from file numbers to dispatchers) is the listener, while it is open, and the
  connections that are open.  Dictionaries are in the order of insertion.
-/

namespace NBC.P2P
open NBC NBC.Proto

/-- `(ip, port)`; for `connection.py:23-35` -/
abbrev Addr := List Char × Int

/-- One second of the clock. For `connection.py:14-16`. -/
def second : Int := 2 ^ 22

/-- A clock reading, or a difference of readings, as a Python float. For `connection.py:61-70,96`. -/
def stamp (t : Int) : Val := .float t 22

/-- A `Connection`, `connection.py:23-58`.  `out` is not an attribute: it is what the socket has taken. -/
structure Conn where
  address : Addr
  incoming : Bool
  isOpen : Bool := true
  sendBuf : Bytes := []
  recvBuf : Bytes := []
  out : Bytes := []
  txBytes : Nat := 0
  rxBytes : Nat := 0
  lastTx : Int := 0
  lastPing : Int := 0
  lastRx : Int := 0
  externalIp : Option (List Char) := none
  services : Val := .none
  startHeight : Val := .none
  userAgent : Val := .none
  version : Val := .none
  relay : Val := .none
  banscore : Int := 0
  verack : Bool := false

/-- A key of `_banned`: `punish_peer` stores under an ip, `handle_accept` looks up an address.
For `basenode.py:54,180-184,249-260`. -/
inductive BanKey where
  | ip (s : List Char)
  | addr (a : Addr)
  deriving DecidableEq, Repr

/-- A `BaseNode`, `basenode.py:33-73`, with the attributes its methods use; `listening` is whether the node itself
is in the map, that is whether it has not been closed.  `coin.magic`, `coin.protocol_version` and `blockchain_height` are the next three. -/
structure Node where
  ver : Aes.PyVer
  magic : Bytes
  protocolVersion : Int
  height : Int
  userAgent : List Char
  address : Addr
  listen : Bool
  listening : Bool
  seekPeers : Int
  maxPeers : Int
  bootstrap : List Addr
  conns : List Conn
  addresses : List (Addr × Val × Val)
  banned : List (BanKey × Int)
  guessedIp : List Char
  externalIp : List Char
  rx : Nat
  tx : Nat
  lastHeartbeat : Int

/-- The result of a method without a value. For `connection.py:213-220`, `connection.py:60-71`. -/
abbrev Res := Node × Option PyErr

/-! ### Dictionaries -/

/-- `d[key] = value`; for `basenode.py:180-184`, `basenode.py:187-193` -/
def dictSet {α β : Type} [DecidableEq α] (d : List (α × β)) (key : α) (value : β) : List (α × β) :=
  if key ∈ d.map (·.1) then d.map (fun e => if e.1 = key then (key, value) else e) else d ++ [(key, value)]

/-- `del d[key]`, for a key that may be absent; for `basenode.py:150-152`, `basenode.py:256-260` -/
def dictDel {α β : Type} [DecidableEq α] (d : List (α × β)) (key : α) : List (α × β) :=
  d.filter (fun e => e.1 ≠ key)

/-- `d.get(key)`; for `basenode.py:187-193`, `basenode.py:256-260` -/
def dictGet {α β : Type} [DecidableEq α] (d : List (α × β)) (key : α) : Option β :=
  (d.find? (fun e => e.1 = key)).map (·.2)

/-! ### The node's view of its peers -/

/-- Change the object `c`. For `connection.py:179-184`, `connection.py:213-220`. -/
def Node.upd (n : Node) (c : Nat) (f : Conn → Conn) : Node := { n with conns := n.conns.modify c f }

/-- The property `peers`, `basenode.py:174-176` (by number) -/
def Node.peers (n : Node) : List Nat :=
  (List.range n.conns.length).filter (fun c => ((n.conns[c]?).map (·.isOpen)).getD false)

/-- The connections that are open. For `basenode.py:157`, `basenode.py:186-197`. -/
def Node.openConns (n : Node) : List Conn := n.conns.filter (·.isOpen)

/-- `len(self._peers)`, which counts the listener; for `basenode.py:154-165` -/
def Node.mapSize (n : Node) : Nat := (if n.listening then 1 else 0) + n.openConns.length

/-- `[n.address for n in self.values()]`, `basenode.py:157` -/
def Node.allAddresses (n : Node) : List Addr :=
  (if n.listening then [n.address] else []) ++ n.openConns.map (·.address)

/-- The property `external_ip`, `basenode.py:98-104` (an unset `_external_ip` is the empty text) -/
def Node.shownIp (n : Node) : List Char := if n.externalIp ≠ [] then n.externalIp else n.guessedIp

/-! ### Closing -/

/-- `BaseNode.disconnected`, `basenode.py:150-152` -/
def Node.disconnected (n : Node) (c : Nat) : Node :=
  match n.conns[c]? with
  | none => n
  | some k => { n with addresses := dictDel n.addresses k.address }

/-- `Connection.handle_close`, `connection.py:179-184`.  `asyncore.dispatcher.close` takes the object out of the
map and closes the socket; what it raises is ignored. -/
def Node.handleClose (n : Node) (c : Nat) : Node :=
  (n.upd c (fun k => { k with isOpen := false })).disconnected c

/-! ### Sending -/

/-- `Connection.send_message`, `connection.py:213-220`, for a message of class `t` -/
def Node.sendMessage (H : Hashes) (n : Node) (c : Nat) (t : MsgType) (fields : List (String × Val)) : Res :=
  match t.binary H fields n.magic with
  | .error e => (n, some e)
  | .ok b => (n.upd c (fun k => { k with sendBuf := k.sendBuf ++ b }), none)

/-- The same for a message that is constructed first. For `basenode.py:328-341`, `connection.py:206-211`. -/
def Node.sendNew (H : Hashes) (n : Node) (c : Nat) (t : MsgType) (args : List Val) : Res :=
  match compInit t.props args [] with
  | .error e => (n, some e)
  | .ok fields => n.sendMessage H c t fields

/-- What `self.send` does: takes some of the bytes (none if the socket would block), or finds the connection
closed, in which case `asyncore` calls `handle_close` and returns 0, or raises. For `connection.py:159-168`. -/
inductive SendRes where
  | sent (k : Nat)
  | closed
  | raised

/-- `Connection.writable`, `connection.py:156-157` -/
def Conn.writable (k : Conn) : Bool := decide (k.sendBuf.length > 0)

/-- The socket takes the first `j` bytes: `connection.py:161-164,168` -/
def Node.sent (n : Node) (c : Nat) (j : Nat) (now : Int) : Node :=
  { n.upd c (fun k => { k with
      out := k.out ++ k.sendBuf.take j
      txBytes := k.txBytes + j
      lastTx := now
      sendBuf := k.sendBuf.drop j }) with tx := n.tx + j }

/-- `Connection.handle_write`, `connection.py:159-168`; the socket never takes more than it is given. -/
def Node.handleWrite (n : Node) (c : Nat) (r : SendRes) (now : Int) : Node :=
  match r with
  | .raised => n.handleClose c
  | .closed => (n.handleClose c).upd c (fun k => { k with lastTx := now })
  | .sent j =>
    match n.conns[c]? with
    | none => n
    | some k => n.sent c (min j k.sendBuf.length) now

/-! ### The constructor of a connection -/

/-- `Connection.SERVICES`, `connection.py:21`, `protocol/__init__.py:2` -/
def services : Int := 1

/-- `protocol.NetworkAddress(..)`, as a value; for `connection.py:61-70`, `basenode.py:332-339` -/
def newNetworkAddress (timestamp services : Val) (ip : List Char) (port : Int) : Py Val := do
  let f ← compInit networkAddress.props [timestamp, services, .str ip, .int port] []
  .ok (.obj "NetworkAddress" f)

/-- The `Version` message of `connection.py:61-70` -/
def Node.versionFields (n : Node) (address : Addr) (now : Int) (nonce : Bytes) : Py (List (String × Val)) := do
  let recv ← newNetworkAddress (stamp now) (.int services) address.1 address.2
  let frm ← newNetworkAddress (stamp now) (.int services) n.shownIp n.address.2
  compInit msgVersion.props []
    [("version", .int n.protocolVersion), ("services", .int services), ("timestamp", stamp now),
      ("addr_recv", recv), ("addr_from", frm), ("nonce", .bytes nonce), ("user_agent", .str n.userAgent),
      ("start_height", .int n.height), ("relay", .int 0)]

/-- The end of the constructor, `connection.py:60-71`, for the object `c` -/
def Node.greet (H : Hashes) (n : Node) (c : Nat) (address : Addr) (now : Int) (nonce : Bytes) : Res :=
  match n.versionFields address now nonce with
  | .error e => (n, some e)
  | .ok fields => n.sendMessage H c msgVersion fields

/-- `Connection.__init__` with a socket, `connection.py:23-71` -/
def Node.newIncoming (H : Hashes) (n : Node) (address : Addr) (now : Int) (nonce : Bytes) : Res :=
  let c := n.conns.length
  let k : Conn := { address := address, incoming := true }
  { n with conns := n.conns ++ [k] }.greet H c address now nonce

/-- `Connection.__init__` without a socket, `connection.py:23-71`; `connects`: whether `create_socket` and
`connect` succeed. -/
def Node.newOutgoing (H : Hashes) (n : Node) (address : Addr) (connects : Bool) (now : Int) (nonce : Bytes) : Res :=
  let c := n.conns.length
  let k : Conn := { address := address, incoming := false }
  let n : Node := { n with conns := n.conns ++ [k] }
  if connects then n.greet H c address now nonce
  else (n.handleClose c, some .exception)

/-! ### Ban score -/

/-- `Connection.add_banscore`, `connection.py:98-99` -/
def Conn.addBanscore (k : Conn) (penalty : Int := 1) : Conn := { k with banscore := k.banscore + penalty }

/-- `Connection.reduce_banscore`, `connection.py:101-103` -/
def Conn.reduceBanscore (k : Conn) (penalty : Int := 1) : Conn :=
  let i := k.banscore - penalty
  { k with banscore := if i < 0 then 0 else i }

/-- `BaseNode.punish_peer`, `basenode.py:180-184` -/
def Node.punishPeer (n : Node) (c : Nat) (now : Int) : Node :=
  let n := n.upd c (fun k => k.addBanscore)
  match n.conns[c]? with
  | none => n
  | some k =>
    if k.banscore > 5 then
      { n with banned := dictSet n.banned (.ip k.address.1) now }.handleClose c
    else n

/-! ### The external ip -/

/-- `basenode.py:187-193`: count the reports. -/
def countReports : List (Option (List Char)) → List (List Char × Nat) → List (List Char × Nat)
  | [], counter => counter
  | none :: rest, counter => countReports rest counter
  | some a :: rest, counter => countReports rest (dictSet counter a ((dictGet counter a).getD 0 + 1))

/-- `≤` of tuples `(count, address)`; for `basenode.py:186-197` -/
def pairLe (a b : Nat × List Char) : Bool := decide (a.1 < b.1 ∨ (a.1 = b.1 ∧ ¬ b.2 < a.2))

/-- `BaseNode._check_external_ip`, `basenode.py:186-197` -/
def Node.checkExternalIp (n : Node) : Node :=
  let counter := countReports (n.openConns.map (·.externalIp)) []
  match ((counter.map (fun e => (e.2, e.1))).mergeSort pairLe).getLast? with
  | none => n
  | some e => { n with guessedIp := e.2 }

/-! ### Handlers -/

/-- `MAX_ADDRESSES`, `basenode.py:20` -/
def maxAddresses : Nat := 2500

/-- `ADDRESSES_PER_ASK`, `basenode.py:21` -/
def addressesPerAsk : Nat := 1000

/-- The property `timestamp`, `connection.py:96` (the time *since* the last reception) -/
def Conn.timestamp (k : Conn) (now : Int) : Val := stamp (now - k.lastRx)

/-- `command_version_ack`, `basenode.py:324-326` -/
def Node.commandVersionAck (n : Node) (c : Nat) (now : Int) : Res :=
  match n.conns[c]? with
  | none => (n, none)
  | some k =>
    if n.addresses.length < maxAddresses then
      ({ n with addresses := dictSet n.addresses k.address (k.timestamp now, k.services) }, none)
    else (n, none)

/-- A number `m / 2 ^ k`, as the pair `(m, k)` (other values are not stored, `C72_numbers`); for `basenode.py:329-330` -/
def numOf : Val → Int × Nat
  | .int a => (a, 0)
  | .float m k => (m, k)
  | _ => (0, 0)

/-- `a < b` for numbers; for `basenode.py:329-330` -/
def numLt (a b : Val) : Bool := decide ((numOf a).1 * 2 ^ (numOf b).2 < (numOf b).1 * 2 ^ (numOf a).2)

/-- The order of `sortAddr`, `basenode.py:329-330`: decreasing time stamps -/
def newerFirst (a b : Addr × Val × Val) : Bool := !numLt a.2.1 b.2.1

/-- The loop `basenode.py:332-339`, over the entries still to come, with the list so far. -/
def collect : List (Addr × Val × Val) → List Val → Py (List Val)
  | [], acc => .ok acc
  | (address, timestamp, services) :: rest, acc =>
    if services.isNone then collect rest acc
    else do
      let a ← newNetworkAddress timestamp services address.1 address.2
      if (acc ++ [a]).length ≥ addressesPerAsk then .ok (acc ++ [a])
      else collect rest (acc ++ [a])

/-- `command_get_address`, `basenode.py:328-341`.  In Python 3 `sorted` takes no second positional argument. -/
def Node.commandGetAddress (H : Hashes) (n : Node) (c : Nat) : Res :=
  match n.ver with
  | .py3 => (n, some .typeError)
  | .py2 =>
    match collect (n.addresses.mergeSort newerFirst) [] with
    | .error e => (n, some e)
    | .ok addresses => n.sendNew H c msgAddr [.tuple addresses]

/-- `obj.name` for an attribute made from `properties`; for `basenode.py:346`, `connection.py:195-200` -/
def attr (v : Val) (name : String) : Py Val :=
  match v with
  | .obj _ fields => getField fields name
  | _ => .error .attributeError

/-- The key and value of `basenode.py:346` -/
def bookEntry (v : Val) : Py (Addr × Val × Val) := do
  let address ← attr v "address"
  let port ← attr v "port"
  let timestamp ← attr v "timestamp"
  let services ← attr v "services"
  match address, port with
  | .str ip, .int p => .ok ((ip, p), timestamp, services)
  | _, _ => .error .typeError

/-- The loop of `command_address`, `basenode.py:344-346` -/
def Node.addAddresses (n : Node) : List Val → Res
  | [] => (n, none)
  | v :: rest =>
    if n.addresses.length > maxAddresses then (n, none)
    else
      match bookEntry v with
      | .error e => (n, some e)
      | .ok (key, value) => { n with addresses := dictSet n.addresses key value }.addAddresses rest

/-- `command_address`, `basenode.py:343-346` -/
def Node.commandAddress (n : Node) (addrList : Val) : Res :=
  match addrList with
  | .tuple l => n.addAddresses l
  | _ => (n, some .typeError)

/-- The text of an ip. For `connection.py:195-200`. -/
def textOf : Val → Py (List Char)
  | .str s => .ok s
  | _ => .error .typeError

/-- The attributes set from a `Version` message, `connection.py:195-200`.  (The fields of a parsed message all
exist, so that nothing is raised between the assignments.) -/
def versionInfo (fields : List (String × Val)) : Py (Conn → Conn) := do
  let services ← getField fields "services"
  let startHeight ← getField fields "start_height"
  let userAgent ← getField fields "user_agent"
  let version ← getField fields "version"
  let relay ← getField fields "relay"
  let recv ← getField fields "addr_recv"
  let address ← attr recv "address"
  let ip ← textOf address
  .ok (fun k => { k with
    services := services, startHeight := startHeight, userAgent := userAgent, version := version, relay := relay,
    externalIp := some ip })

/-- The method call of `connection.py:206-211`: the handlers are those named in `basenode.py:315-346`, by the
message's `name`; other messages are logged. -/
def Node.dispatch (H : Hashes) (n : Node) (c : Nat) (m : Msg) (now : Int) : Res :=
  if m.command = "ping" then
    match getField m.fields "nonce" with
    | .error e => (n, some e)
    | .ok nonce => n.sendNew H c msgPong [nonce]
  else if m.command = "version" then n.sendNew H c msgVerack []
  else if m.command = "verack" then n.commandVersionAck c now
  else if m.command = "getaddr" then n.commandGetAddress H c
  else if m.command = "addr" then
    match getField m.fields "addr_list" with
    | .error e => (n, some e)
    | .ok l => n.commandAddress l
  else (n, none)

/-- `Connection.handle_message`, `connection.py:186-211`.  Line 202 calls `self.node.connected`, the method of
`basenode.py:147-148`, while the node listens; `asyncore.dispatcher.close` assigns `self.connected = False` to the node, and
then the call is a `TypeError`. -/
def Node.handleMessage (H : Hashes) (n : Node) (c : Nat) (m : Msg) (now : Int) : Res :=
  if m.command = "version" then
    match versionInfo m.fields with
    | .error e => (n, some e)
    | .ok f =>
      if n.listening then ((n.upd c f).checkExternalIp).dispatch H c m now
      else (n.upd c f, some .typeError)
  else if m.command = "verack" then
    (n.upd c (fun k => { k with verack := true })).dispatch H c m now
  else n.dispatch H c m now

/-! ### Receiving -/

/-- One frame, `connection.py:146-154`: whatever is raised is caught and logged. -/
def Node.handleFrame (H : Hashes) (c : Nat) (now : Int) (n : Node) (frame : Bytes) : Node :=
  match parseMessage H frame n.magic with
  | .error _ => n
  | .ok m => (n.handleMessage H c m now).1

/-- The loop `connection.py:137-154`, over any kind of state: `setBuf` assigns `_recv_buffer` and `onFrame` handles
one frame.  The receive buffer is also an argument (the handlers leave it alone, `handleFrame_recvBuf`).  An empty
frame would be found again and again; there is none (`C68_total`). -/
def readLoop {σ : Type} (setBuf : σ → Bytes → σ) (onFrame : σ → Bytes → σ) (s : σ) (buf : Bytes) :
    σ × Option PyErr :=
  match firstMsgLen buf with
  | .error e => (s, some e)
  | .ok none => (s, none)
  | .ok (some length) =>
    if length > buf.length then (s, none)
    else if length = 0 then (s, some .recursionError)
    else
      let payload := buf.take length
      let rest := buf.drop length
      readLoop setBuf onFrame (onFrame (setBuf s rest) payload) rest
termination_by buf.length
decreasing_by
  simp only [List.length_drop]
  omega

/-- `self._recv_buffer = b`; for `connection.py:122-154` -/
def Node.setRecvBuf (c : Nat) (n : Node) (b : Bytes) : Node := n.upd c (fun k => { k with recvBuf := b })

/-- What `self.recv` does: some bytes (none if the connection is closed, in which case `asyncore` has called
`handle_close`), or raises. For `connection.py:122-154`. -/
inductive RecvRes where
  | data (b : Bytes)
  | raised

/-- `connection.py:132-135` -/
def Node.received (n : Node) (c : Nat) (chunk : Bytes) (now : Int) : Node :=
  { n.upd c (fun k => { k with
      recvBuf := k.recvBuf ++ chunk
      rxBytes := k.rxBytes + chunk.length
      lastRx := now }) with rx := n.rx + chunk.length }

/-- `Connection.handle_read`, `connection.py:122-154` -/
def Node.handleRead (H : Hashes) (n : Node) (c : Nat) (r : RecvRes) (now : Int) : Res :=
  match r with
  | .raised => (n.handleClose c, none)
  | .data chunk =>
    if chunk = [] then ((n.handleClose c).handleClose c, none)
    else
      match n.conns[c]? with
      | none => (n, none)
      | some k =>
        readLoop (Node.setRecvBuf c) (Node.handleFrame H c now) (n.received c chunk now) (k.recvBuf ++ chunk)

/-! ### Polling -/

/-- The ping of `connection.py:111-114` -/
def Node.idlePing (H : Hashes) (n : Node) (c : Nat) (k : Conn) (now now' : Int) (nonce : Bytes) : Res :=
  if k.lastTx ≠ 0 ∧ now - k.lastTx > 1800 * second ∧ now - k.lastPing > 300 * second then
    match n.sendNew H c msgPing [.bytes nonce] with
    | (n, some e) => (n, some e)
    | (n, none) => (n.upd c (fun k => { k with lastPing := now' }), none)
  else (n, none)

/-- `Connection.readable`, `connection.py:105-120`; `now'` is the second reading of the clock.  With the value that
is returned. -/
def Node.readable (H : Hashes) (n : Node) (c : Nat) (now now' : Int) (nonce : Bytes) : Node × Py Bool :=
  match n.conns[c]? with
  | none => (n, .ok false)
  | some k =>
    match n.idlePing H c k now now' nonce with
    | (n, some e) => (n, .error e)
    | (n, none) =>
      if k.lastRx ≠ 0 ∧ now - k.lastRx > 10800 * second then (n.handleClose c, .ok false)
      else (n, .ok true)

/-! ### Peers -/

/-- `BaseNode.add_peer`, `basenode.py:154-165`, with the value that is returned -/
def Node.addPeer (H : Hashes) (n : Node) (address : Addr) (force connects : Bool) (now : Int) (nonce : Bytes) :
    Node × Bool :=
  if !force ∧ (n.mapSize : Int) ≥ n.maxPeers then (n, false)
  else if address ∈ n.allAddresses then (n, false)
  else
    match n.newOutgoing H address connects now nonce with
    | (n, some _) => (n, false)
    | (n, none) => (n, true)

/-- `BaseNode.remove_peer`, `basenode.py:167-172` -/
def Node.removePeer (n : Node) (address : Addr) : Node :=
  match n.peers.find? (fun c => (n.conns[c]?).map (·.address) = some address) with
  | none => n
  | some c => n.handleClose c

/-- The random numbers and the outcomes of one call of `add_any_peer`: whether `randint(0, 199) == 1`, the seed's
index, whether `connect` succeeds, the clock, the nonce. For `basenode.py:199-211`, `basenode.py:231-232`. -/
structure AnyEnv where
  lucky : Bool
  seed : Nat
  connects : Bool
  now : Int
  nonce : Bytes

/-- `BaseNode.add_any_peer`, `basenode.py:199-211`; `randint(0, len - 1)` is `seed % len`. -/
def Node.addAnyPeer (H : Hashes) (n : Node) (e : AnyEnv) : Node :=
  if n.addresses = [] ∨ e.lucky then
    match n.bootstrap[e.seed % n.bootstrap.length]? with
    | none => n
    | some addr => (n.addPeer H addr false e.connects e.now e.nonce).1
  else
    match n.addresses.find? (fun a => a.1 ∉ n.openConns.map (·.address)) with
    | none => n
    | some a => (n.addPeer H a.1 true e.connects e.now e.nonce).1

/-- The first loop of `heartbeat`, `basenode.py:231-232`: at most as many rounds as there are in the list. -/
def Node.addSome (H : Hashes) (n : Node) : List AnyEnv → Node
  | [] => n
  | e :: es => (n.addAnyPeer H e).addSome H es

/-- `basenode.py:234-237`: ask one of the peers for addresses. -/
def Node.askOne (H : Hashes) (n : Node) (peers : List Nat) (choice : Nat) : Res :=
  match peers[choice % peers.length]? with
  | some c => if n.addresses.length < 50 then n.sendNew H c msgGetaddr [] else (n, none)
  | none => (n, none)

/-- `BaseNode.heartbeat`, `basenode.py:227-242`, where `choice` is what `random.choice` draws, and `envs` has an entry
for every round of the first loop (further ones are not used). -/
def Node.heartbeat (H : Hashes) (n : Node) (envs : List AnyEnv) (choice : Nat) : Res :=
  let peers := n.peers
  let n := n.addSome H (envs.take (min (n.seekPeers - peers.length) 5).toNat)
  match n.askOne H peers choice with
  | (n, some e) => (n, some e)
  | (n, none) => (peers.foldl (fun n c => n.upd c (fun k => k.reduceBanscore)) n, none)

/-- `BaseNode.items`, `basenode.py:273-281`, called by the `asyncore` loop -/
def Node.items (H : Hashes) (n : Node) (now : Int) (envs : List AnyEnv) (choice : Nat) : Res :=
  if now - n.lastHeartbeat > 10 * second then { n with lastHeartbeat := now }.heartbeat H envs choice
  else (n, none)

/-- The ban check of `handle_accept`, `basenode.py:256-260`: whether the connection is refused. -/
def Node.banCheck (n : Node) (address : Addr) (now : Int) : Node × Bool :=
  match dictGet n.banned (.addr address) with
  | none => (n, false)
  | some t =>
    if now - t < 3600 * second then (n, true)
    else ({ n with banned := dictDel n.banned (.addr address) }, false)

/-- `BaseNode.handle_accept`, `basenode.py:249-266`; `now` is read by the ban check, `now'` by the constructor. -/
def Node.handleAccept (H : Hashes) (n : Node) (pair : Option Addr) (now now' : Int) (nonce : Bytes) : Res :=
  match pair with
  | none => (n, none)
  | some address =>
    match n.banCheck address now with
    | (n, true) => (n, none)
    | (n, false) =>
      if !n.listen then (n, none)
      else n.newIncoming H address now' nonce

/-! ### Histories -/

/-- What can happen to a node: the calls `asyncore` makes, and the calls of its owner.
For `basenode.py:127-141,249-281`, `connection.py:105-184`. -/
inductive Event where
  | read (c : Nat) (r : RecvRes) (now : Int)
  | write (c : Nat) (r : SendRes) (now : Int)
  | poll (c : Nat) (now now' : Int) (nonce : Bytes)
  | close (c : Nat)
  | items (now : Int) (envs : List AnyEnv) (choice : Nat)
  | accept (pair : Option Addr) (now now' : Int) (nonce : Bytes)
  | addPeer (address : Addr) (force connects : Bool) (now : Int) (nonce : Bytes)
  | removePeer (address : Addr)
  | punish (c : Nat) (now : Int)
  | send (c : Nat) (t : MsgType) (fields : List (String × Val))
  | setExternalIp (ip : List Char)

/-- The node after an event.  `asyncore` calls the methods of a connection only while it is in the map, and asks for
incoming connections only while the listener is.  What `handle_accept` raises makes `asyncore` call `handle_error` of
the listener, which closes it.  Simplified: there is always a free file (`Model/NodeFiles` puts the limit back).
For `basenode.py:127-141,249-281`, `connection.py:105-184`. -/
def Node.step (H : Hashes) (n : Node) : Event → Node
  | .read c r now => if c ∈ n.peers then (n.handleRead H c r now).1 else n
  | .write c r now => if c ∈ n.peers then n.handleWrite c r now else n
  | .poll c now now' nonce => if c ∈ n.peers then (n.readable H c now now' nonce).1 else n
  | .close c => n.handleClose c
  | .items now envs choice => (n.items H now envs choice).1
  | .accept pair now now' nonce =>
    if n.listening then
      match n.handleAccept H pair now now' nonce with
      | (n, none) => n
      | (n, some _) => { n with listening := false }
    else n
  | .addPeer address force connects now nonce => (n.addPeer H address force connects now nonce).1
  | .removePeer address => n.removePeer address
  | .punish c now => n.punishPeer c now
  | .send c t fields => (n.sendMessage H c t fields).1
  | .setExternalIp ip => { n with externalIp := ip }

/-- The node after a history. For `basenode.py:127-141,249-281`, `connection.py:105-184`. -/
def Node.run (H : Hashes) (n : Node) (es : List Event) : Node := es.foldl (Node.step H) n

/-- `BaseNode.__init__`, `basenode.py:33-86`, for the address the socket is bound to -/
def Node.init (ver : Aes.PyVer) (magic : Bytes) (protocolVersion height : Int) (userAgent : List Char)
    (address : Addr) (listen : Bool) (seekPeers maxPeers : Int) (bootstrap : List Addr) : Node :=
  { ver, magic, protocolVersion, height, userAgent, address, listen, listening := true, seekPeers, maxPeers, bootstrap,
    conns := [], addresses := [], banned := [], guessedIp := address.1, externalIp := [], rx := 0, tx := 0,
    lastHeartbeat := 0 }

end NBC.P2P
