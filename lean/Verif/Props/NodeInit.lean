import Verif.Model.NodeInit
import Verif.Props.TwoNodes

/-!
# Property C167: making a node
-/

namespace NBC.Props
open NBC NBC.Spec NBC.Spec.Wire NBC.Proto NBC.P2P

variable {H : Hashes}

/-- The system does what it is asked for. -/
structure Grants (os : Answers) : Prop where
  socket : os.socket = none
  bind : os.bind = none
  listen : os.listen = none

/-- A coin with which a node can describe itself: `name` are the bytes of its name. -/
structure Sound (coin : NetCoin) (name : Bytes) : Prop where
  magic : coin.magic.length = 4
  version : inRange .i coin.protocolVersion
  latin : coin.name = latin name
  short : name.length < 2 ^ 31 - 13
  seeds : ∀ a ∈ coin.dnsSeeds, IsAddr a

/-- The user agent of a node of a coin, in bytes: `/nbc:0.0.1(name)/`. -/
def agentBytes (name : Bytes) : Bytes :=
  [47, 110, 98, 99, 58, 48, 46, 48, 46, 49, 40] ++ name ++ [41, 47]

theorem userAgent_latin {coin : NetCoin} {name : Bytes} (h : coin.name = latin name) :
    userAgentOf coin = latin (agentBytes name) := by
  unfold userAgentOf agentBytes
  rw [h]
  unfold latin
  rw [List.map_append, List.map_append]
  rfl

/-- What is expected of a new node: the address it tells is `a`; it listens, has no peers and knows no addresses; its limits are those
given, and its seeds those of the coin if it was to have them; and it can take part in the protocol (`Starts`, from which C98,
C100, C124 and others go on). -/
structure Fresh (n : Node) (a : Addr) (listen : Bool) (seekPeers maxPeers : Int) (seeds : List Addr) (name : Bytes) : Prop where
  address : n.address = a
  listen : n.listen = listen
  peers : n.peers = []
  size : n.mapSize = 1
  banned : n.banned = []
  counts : n.rx = 0 ∧ n.tx = 0
  seekPeers : n.seekPeers = seekPeers
  maxPeers : n.maxPeers = maxPeers
  seeds : n.bootstrap = seeds
  starts : Starts n (agentBytes name)

theorem init_fresh (ver : Aes.PyVer) {coin : NetCoin} {name : Bytes} (hc : Sound coin name) {height : Int}
    (hh : inRange .i height) (given bound : Addr) (hg : IsIp given.1) (hb : inRange .H bound.2) (listen : Bool)
    (seekPeers maxPeers : Int) (bootstrap : Bool) :
    Fresh { Node.init ver coin.magic coin.protocolVersion height (userAgentOf coin) given listen seekPeers maxPeers
      (if bootstrap then coin.dnsSeeds else []) with address := bound } bound listen seekPeers maxPeers
      (if bootstrap then coin.dnsSeeds else []) name where
  address := rfl
  listen := rfl
  peers := rfl
  size := rfl
  banned := rfl
  counts := ⟨rfl, rfl⟩
  seekPeers := rfl
  maxPeers := rfl
  seeds := rfl
  starts := {
    present := {
      magic := hc.magic
      version := hc.version
      height := hh
      ua := userAgent_latin hc.latin
      short := by
        have := hc.short
        simp only [agentBytes, List.length_append, List.length_cons, List.length_nil]
        omega
      port := hb }
    conns := rfl
    addresses := rfl
    bootstrap := by
      intro a ha
      simp only [Node.init] at ha
      cases bootstrap with
      | true => exact hc.seeds a ha
      | false => cases ha
    guessed := hg
    external := rfl
    listening := rfl }

/-- C167, what holds: with an ip and a port other than 0 that the system grants, the constructor gives a new node at that address.
Missing are port 0 and no address (`C167_any_port_partial`, `C167_default_false`), and hosts that are no ips
(`C98_listening_false`). -/
theorem C167_address_partial (py : Runtime) (os : Answers) (ho : Grants os) {coin : NetCoin} {name : Bytes} (hc : Sound coin name)
    {height : Int} (hh : inRange .i height) (a : Addr) (ha : IsAddr a) (hp : a.2 ≠ 0) (seekPeers maxPeers : Int)
    (bootstrap : Bool) :
    ∃ n, makeNode py os coin height (some a) seekPeers maxPeers bootstrap = .node n ∧
      Fresh n a true seekPeers maxPeers (if bootstrap then coin.dnsSeeds else []) name := by
  refine ⟨_, ?_, init_fresh py.ver hc hh a a ha.1 ha.2 true seekPeers maxPeers bootstrap⟩
  unfold makeNode
  simp only [ho.socket, ho.bind, ho.listen, Option.getD_some, Option.isSome_some, if_neg hp]
  rfl

/-- C167, where `asyncore` looks for missing attributes in the socket: with port 0, or without an address, the node tells the address
the system chose; without an address it is on 127.0.0.1, and `listen` is false. -/
theorem C167_any_port_partial (py : Runtime) (hpy : py.delegates = true) (os : Answers) (ho : Grants os)
    (hn : inRange .H os.name.2) {coin : NetCoin} {name : Bytes} (hc : Sound coin name)
    {height : Int} (hh : inRange .i height) (a : Option Addr) (ha : ∀ x, a = some x → IsIp x.1 ∧ x.2 = 0)
    (seekPeers maxPeers : Int) (bootstrap : Bool) :
    ∃ n, makeNode py os coin height a seekPeers maxPeers bootstrap = .node n ∧
      Fresh n os.name a.isSome seekPeers maxPeers (if bootstrap then coin.dnsSeeds else []) name := by
  have hl : IsIp "127.0.0.1".toList :=
    ⟨[0, 0, 0, 0, 0, 0, 0, 0, 0, 0, 255, 255, 127, 0, 0, 1], rfl, by decide +kernel⟩
  have hg : IsIp (a.getD ("127.0.0.1".toList, 0)).1 ∧ (a.getD ("127.0.0.1".toList, 0)).2 = 0 := by
    cases a with
    | none => exact ⟨hl, rfl⟩
    | some x => exact ha x rfl
  refine ⟨_, ?_, init_fresh py.ver hc hh _ os.name hg.1 hn a.isSome seekPeers maxPeers bootstrap⟩
  unfold makeNode
  simp only [ho.socket, ho.bind, ho.listen, if_pos hg.2, if_pos hpy]

theorem make_node {py : Runtime} {os : Answers} {coin : NetCoin} {height : Int} {a : Option Addr} {seekPeers maxPeers : Int}
    {bootstrap : Bool} {n : Node} (h : makeNode py os coin height a seekPeers maxPeers bootstrap = .node n) :
    n.listen = a.isSome ∧
      if (a.getD ("127.0.0.1".toList, 0)).2 = 0 then py.delegates = true ∧ n.address = os.name
      else n.address = a.getD ("127.0.0.1".toList, 0) := by
  unfold makeNode at h
  simp only at h
  generalize hn : Node.init py.ver coin.magic coin.protocolVersion height (userAgentOf coin)
    (a.getD ("127.0.0.1".toList, 0)) a.isSome seekPeers maxPeers (if bootstrap then coin.dnsSeeds else []) = n0 at h
  have h1 : n0.listen = a.isSome := by rw [← hn]; rfl
  have h2 : n0.address = a.getD ("127.0.0.1".toList, 0) := by rw [← hn]; rfl
  generalize a.getD ("127.0.0.1".toList, 0) = b at *
  clear hn
  split at h
  · cases h
  · split at h
    · cases h
    · split at h
      · cases h
      · split at h
        · rename_i hb
          split at h
          · rename_i hd
            injection h with h
            rw [if_pos hb, ← h]
            exact ⟨h1, hd, rfl⟩
          · cases h
        · rename_i hb
          injection h with h
          rw [if_neg hb, ← h]
          exact ⟨h1, h2⟩

/-- **C167 is false of Python 3.11** (and any whose `asyncore` does not look for missing attributes in the socket): without an address,
or with port 0, no node can be made, whatever the system does.  `BaseNode()` always raises. -/
theorem C167_default_false (py : Runtime) (hpy : py.delegates = false) (os : Answers) (coin : NetCoin) (height : Int)
    (a : Option Addr) (ha : ∀ x, a = some x → x.2 = 0) (seekPeers maxPeers : Int) (bootstrap : Bool) :
    (∀ n, makeNode py os coin height a seekPeers maxPeers bootstrap ≠ .node n) ∧
    (Grants os → makeNode py os coin height a seekPeers maxPeers bootstrap = .raised .attributeError true) := by
  have hp : (a.getD ("127.0.0.1".toList, 0)).2 = 0 := by
    cases a with
    | none => rfl
    | some x => exact ha x rfl
  constructor
  · intro n h
    have hd := (make_node h).2
    rw [if_pos hp, hpy] at hd
    exact absurd hd.1 (by decide)
  · intro ho
    unfold makeNode
    simp only [ho.socket, ho.bind, ho.listen, if_pos hp, hpy]
    rfl

/-- C167, the address in use: on darwin it is `AddrInUseError`.  Missing: other systems, `C167_in_use_false`. -/
theorem C167_in_use_partial (py : Runtime) (os : Answers) (hs : os.socket = none) (hb : os.bind = some System.darwin.addrInUse)
    (coin : NetCoin) (height : Int) (a : Option Addr) (seekPeers maxPeers : Int) (bootstrap : Bool) :
    makeNode py os coin height a seekPeers maxPeers bootstrap = .raised .addrInUse true := by
  unfold makeNode
  simp only [hs, hb]
  rfl

/-- **C167 is false elsewhere**: on Linux and Windows the exception for an address in use is the plain socket error, never
`AddrInUseError`. -/
theorem C167_in_use_false (py : Runtime) (sys : System) (hsys : sys ≠ .darwin) (os : Answers) (hs : os.socket = none)
    (hb : os.bind = some sys.addrInUse) (coin : NetCoin) (height : Int) (a : Option Addr) (seekPeers maxPeers : Int)
    (bootstrap : Bool) :
    makeNode py os coin height a seekPeers maxPeers bootstrap = .raised (.socketError sys.addrInUse) true := by
  unfold makeNode
  simp only [hs, hb]
  cases sys with
  | darwin => exact absurd rfl hsys
  | linux => rfl
  | windows => rfl

/-- **C167 is false of what is left behind**: an exception from `bind`, from `listen` or from line 81 leaves the socket open (until the
garbage collector finds the node, whose map holds itself). -/
theorem C167_left_open_false (py : Runtime) (os : Answers) (hs : os.socket = none) (coin : NetCoin) (height : Int) (a : Option Addr)
    (seekPeers maxPeers : Int) (bootstrap : Bool) (e : MakeErr) (o : Bool)
    (h : makeNode py os coin height a seekPeers maxPeers bootstrap = .raised e o) : o = true := by
  unfold makeNode at h
  simp only [hs] at h
  split at h
  · injection h with _ h; exact h.symm
  · split at h
    · injection h with _ h; exact h.symm
    · split at h
      · split at h
        · cases h
        · injection h with _ h; exact h.symm
      · cases h

theorem run_listen (es : List Event) (n : Node) : (n.run H es).listen = n.listen := by
  induction es generalizing n with
  | nil => rfl
  | cons e es ih =>
    rw [run_cons, ih]
    exact (steps2_same (steps2_step (H := H) (Q := fun _ _ _ => True) n e (fun _ _ _ _ => trivial))).listen

/-- C167: a node made without an address takes no incoming connection, whatever happened before and whoever connects. -/
theorem C167_refuses (py : Runtime) (os : Answers) (coin : NetCoin) (height : Int) (seekPeers maxPeers : Int) (bootstrap : Bool)
    (n : Node) (h : makeNode py os coin height none seekPeers maxPeers bootstrap = .node n) (es : List Event)
    (pair : Option Addr) (now now' : Int) (nonce : Bytes) :
    ((n.run H es).step H (.accept pair now now' nonce)).conns = (n.run H es).conns ∧
    ((n.run H es).step H (.accept pair now now' nonce)).listening = (n.run H es).listening := by
  have hl : n.listen = false := (make_node h).1
  have hr := run_listen (H := H) es n
  rw [hl] at hr
  generalize n.run H es = m at hr
  rw [Node.step]
  by_cases hm : m.listening = true
  · rw [if_pos hm]
    unfold Node.handleAccept
    cases pair with
    | none => exact ⟨rfl, rfl⟩
    | some a =>
      simp only
      unfold Node.banCheck
      cases dictGet m.banned (.addr a) with
      | none => simp [hr]
      | some t =>
        simp only
        by_cases ht : now - t < 3600 * second
        · rw [if_pos ht]; exact ⟨rfl, rfl⟩
        · rw [if_neg ht]; simp [hr]
  · rw [if_neg hm]
    exact ⟨rfl, rfl⟩

/-- The coin of the package. -/
theorem newbitcoin_sound : Sound newbitcoinNet [110, 101, 119, 98, 105, 116, 99, 111, 105, 110] where
  magic := rfl
  version := by unfold inRange; decide
  latin := by decide +kernel
  short := by decide
  seeds := by
    intro a ha
    rw [List.mem_singleton.1 ha]
    exact ⟨⟨[0, 0, 0, 0, 0, 0, 0, 0, 0, 0, 255, 255, 127, 0, 0, 1], rfl, by decide +kernel⟩, by unfold inRange; decide⟩

/-- C167: `BaseNode(address=(ip, port))` and `RawNode(address=(ip, port))`, as in the comments at the foot of the two files, with
any ip and any port but 0: a new node with the seed of the coin, and one without seeds. -/
theorem C167_newbitcoin (py : Runtime) (os : Answers) (ho : Grants os) (a : Addr) (ha : IsAddr a) (hp : a.2 ≠ 0) :
    (∃ n, baseNode py os (some a) = .node n ∧
      Fresh n a true 16 125 [("127.0.0.1".toList, 20303)] [110, 101, 119, 98, 105, 116, 99, 111, 105, 110]) ∧
    ∃ n, rawNode py os (some a) = .node n ∧ Fresh n a true 16 125 [] [110, 101, 119, 98, 105, 116, 99, 111, 105, 110] :=
  ⟨C167_address_partial py os ho newbitcoin_sound (by unfold inRange; decide) a ha hp 16 125 true,
    C167_address_partial py os ho newbitcoin_sound (by unfold inRange; decide) a ha hp 16 125 false⟩

/-- C167 with C98: such a node goes on listening, whatever its peers send. -/
theorem C167_lasts (py : Runtime) (os : Answers) (ho : Grants os) (a : Addr) (ha : IsAddr a) (hp : a.2 ≠ 0)
    (es : List Event) (he : ∀ e ∈ es, Fair e) (n : Node) (hn : baseNode py os (some a) = .node n) :
    (n.run H es).listening = true := by
  obtain ⟨⟨m, hm, hf⟩, -⟩ := C167_newbitcoin py os ho a ha hp
  have : m = n := by rw [hm] at hn; injection hn
  subst this
  exact C98_listening_partial m _ hf.starts.present hf.starts.conns hf.starts.guessed hf.starts.external hf.starts.listening es he

/-! ### Cases -/

/-- The system grants the address of the comment at the foot of `basenode.py`. -/
def granted : Answers := ⟨none, none, none, ("127.0.0.1".toList, 54321)⟩

example : Grants granted ∧ IsAddr ("127.0.0.1".toList, 30303) ∧ inRange .H granted.name.2 :=
  ⟨⟨rfl, rfl, rfl⟩, ⟨⟨[0, 0, 0, 0, 0, 0, 0, 0, 0, 0, 255, 255, 127, 0, 0, 1], rfl, by decide +kernel⟩, by unfold inRange; decide⟩,
    by unfold inRange; decide⟩

/-- `BaseNode()` with an old and with a new `asyncore`, and an address in use on darwin and on Linux. -/
example :
    (∃ n, baseNode ⟨.py2, true⟩ granted none = .node n ∧ n.address.2 = 54321 ∧ n.listen = false) ∧
    baseNode ⟨.py3, false⟩ granted none = .raised .attributeError true ∧
    baseNode ⟨.py3, false⟩ { granted with bind := some 48 } (some ("127.0.0.1".toList, 30303)) = .raised .addrInUse true ∧
    baseNode ⟨.py3, false⟩ { granted with bind := some 98 } (some ("127.0.0.1".toList, 30303)) =
      .raised (.socketError 98) true :=
  ⟨⟨_, rfl, rfl, rfl⟩, rfl, rfl, rfl⟩

end NBC.Props
