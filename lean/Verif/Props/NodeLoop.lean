import Verif.Props.NodeIdle

/-!
# Properties C98 to C100: the node keeps listening, new connections, the first message
-/

namespace NBC.Props
open NBC NBC.Spec NBC.Spec.Wire NBC.Proto NBC.P2P

variable {H : Hashes} {Q : Clock → Nat → Int → Prop}

/-! ### The version message -/

/-- The byte string of a text of code points below 256. -/
def latin (s : Bytes) : List Char := s.map (fun x => Char.ofNat x.toNat)

/-- Settings with which a node can describe itself to its peers; `agent` are the bytes of the user agent. -/
structure Presentable (n : Node) (agent : Bytes) : Prop where
  magic : n.magic.length = 4
  version : inRange .i n.protocolVersion
  height : inRange .i n.height
  ua : n.userAgent = latin agent
  short : agent.length < 2 ^ 31
  port : inRange .H n.address.2

/-- A clock reading between 1970 and 2106. -/
def Current (now : Int) : Prop := 0 ≤ now ∧ now < 2 ^ 32 * second

theorem varSize_length (n : Nat) : (varSize n).length ≤ 9 := by
  unfold varSize
  split
  · simp
  split
  · simp [beBytes_length]
  split
  · simp [beBytes_length]
  · simp [beBytes_length]

theorem stamp_wire {now : Int} (h : Current now) (f : Fmt) (hf : hi f = 2 ^ 32 ∨ 2 ^ 32 ≤ hi f) (hl : lo f ≤ 0) :
    wNumber f false true (stamp now) (numBytes f false (now / second)) (.int (now / second)) := by
  have ht : trunc now 22 = now / second := by
    unfold trunc
    rw [if_pos h.1]
    rfl
  refine .inr ⟨rfl, now, 22, rfl, ?_, ?_, by rw [ht], by rw [ht]⟩
  · have := h.1
    have : lo f * 2 ^ 22 ≤ 0 := Int.mul_nonpos_of_nonpos_of_nonneg hl (by decide)
    omega
  · have h2 := h.2
    unfold second at h2
    have : (2 : Int) ^ 32 ≤ hi f := by rcases hf with h | h <;> omega
    have := Int.mul_le_mul_of_nonneg_right this (show (0 : Int) ≤ 2 ^ 22 by decide)
    omega

/-- A network address as the constructor builds it. -/
def netVal (now : Int) (ip : Bytes) (port : Int) : List (String × Val) :=
  [("timestamp", stamp now), ("services", .int 1), ("address", .str (ipText ip)), ("port", .int port)]

theorem netTail_wire (ip : Bytes) (port : Int) (h16 : ip.length = 16) (hp : inRange .H port) :
    wFields wNetTail [("services", .int 1), ("address", .str (ipText ip)), ("port", .int port)] (netBytes 1 ip port)
      [("services", .int 1), ("address", .str (ipText ip)), ("port", .int port)] := by
  refine ⟨_, _, _, _, _, _, .inl ⟨1, rfl, by unfold inRange; decide, rfl, rfl⟩,
    ⟨_, ip, _, _, _, _, ⟨h16, rfl, rfl⟩, ⟨_, _, _, _, _, _, .inl ⟨port, rfl, hp, rfl, rfl⟩, ⟨rfl, rfl, rfl⟩, rfl, rfl, rfl⟩,
      rfl, rfl, rfl⟩, rfl, ?_, rfl⟩
  unfold netBytes
  rw [List.append_nil]

theorem net_new {now : Int} (h : Current now) (ip : Bytes) (port : Int) (h16 : ip.length = 16) (hp : inRange .H port) :
    newNetworkAddress (stamp now) (.int services) (ipText ip) port = .ok (.obj "NetworkAddress" (netVal now ip port)) := by
  have hw : wFields (("timestamp", wNumber .I false true) :: wNetTail) (netVal now ip port) _ _ :=
    ⟨_, _, _, _, _, _, stamp_wire h .I (.inl (by decide)) (by decide), netTail_wire ip port h16 hp, rfl, rfl, rfl⟩
  have := compInit_positional netAddr_refAll (by decide) hw
  unfold newNetworkAddress
  rw [show [stamp now, Val.int services, Val.str (ipText ip), Val.int port] = (netVal now ip port).map (·.2) from rfl, this,
    ok_bind]

theorem net_wire {now : Int} (h : Current now) (ip : Bytes) (port : Int) (h16 : ip.length = 16) (hp : inRange .H port) :
    wNetworkAddressNoTimestamp (.obj "NetworkAddress" (netVal now ip port)) (netBytes 1 ip port)
      (.obj "NetworkAddress" (("timestamp", .int 0) :: [("services", .int 1), ("address", .str (ipText ip)), ("port", .int port)])) :=
  ⟨_, _, _, _, _, stamp_wire h .I (.inl (by decide)) (by decide), netTail_wire ip port h16 hp, rfl, rfl⟩

theorem numBytes_len (f : Fmt) (big : Bool) (i : Int) : (numBytes f big i).length ≤ 8 := by
  rw [numBytes_length]
  cases f <;> decide

/-- The greeting: a version message with the settings of the node, the peer's address and the node's. -/
def greeting (H : Hashes) (n : Node) (agent : Bytes) (peer own : Bytes) (port now : Int) (nonce : Bytes) : Bytes :=
  wireFrame H n.magic "version"
    (versionPayload n.protocolVersion 1 (now / second) (peer, port) (own, n.address.2) nonce agent n.height)

theorem greet_ok {n : Node} {agent : Bytes} (hn : Presentable n agent) (c : Nat) {peer own : Bytes} (hp : peer.length = 16)
    (ho : own.length = 16) (hs : n.shownIp = ipText own) {port now : Int} (hport : inRange .H port) (hnow : Current now)
    {nonce : Bytes} (hl : nonce.length = 8) :
    n.greet H c (ipText peer, port) now nonce =
      (n.upd c (fun k => { k with sendBuf := k.sendBuf ++ greeting H n agent peer own port now nonce }), none) := by
  have hw : ∃ vs', wFields versionSpec
      [("version", .int n.protocolVersion), ("services", .int services), ("timestamp", stamp now),
      ("addr_recv", .obj "NetworkAddress" (netVal now peer port)),
      ("addr_from", .obj "NetworkAddress" (netVal now own n.address.2)), ("nonce", .bytes nonce),
      ("user_agent", .str n.userAgent), ("start_height", .int n.height), ("relay", .int 0)]
      (versionPayload n.protocolVersion 1 (now / second) (peer, port) (own, n.address.2) nonce agent n.height) vs' := by
    refine ⟨_, _, _, _, _, _, _, .inl ⟨n.protocolVersion, rfl, hn.version, rfl, rfl⟩,
      ⟨_, _, _, _, _, _, .inl ⟨1, rfl, by unfold inRange; decide, rfl, rfl⟩,
      ⟨_, _, _, _, _, _, stamp_wire hnow .q (.inr (by decide)) (by decide),
      ⟨_, _, _, _, _, _, net_wire hnow peer port hp hport,
      ⟨_, _, _, _, _, _, net_wire hnow own n.address.2 ho hn.port,
      ⟨_, nonce, _, _, _, _, ⟨hl, rfl, rfl⟩,
      ⟨_, _, _, _, _, _, ⟨agent, by have := hn.short; unfold varLimit; omega, .inr (by rw [hn.ua]; rfl), rfl, rfl⟩,
      ⟨_, _, _, _, _, _, .inl ⟨n.height, rfl, hn.height, rfl, rfl⟩,
      ⟨_, _, _, _, _, _, .inl ⟨0, rfl, by unfold inRange; decide, rfl, rfl⟩, ⟨rfl, rfl, rfl⟩, rfl, rfl, rfl⟩,
      rfl, rfl, rfl⟩, rfl, rfl, rfl⟩, rfl, rfl, rfl⟩, rfl, rfl, rfl⟩, rfl, rfl, rfl⟩, rfl, rfl, rfl⟩, rfl, rfl, rfl⟩,
      rfl, ?_, rfl⟩
    unfold versionPayload
    simp only [List.append_nil]
  have hlen : (versionPayload n.protocolVersion 1 (now / second) (peer, port) (own, n.address.2) nonce agent
      n.height).length < 2 ^ 32 := by
    unfold versionPayload netBytes
    simp only [List.length_append]
    have h1 := numBytes_len .i false n.protocolVersion
    have h2 := numBytes_len .Q false 1
    have h3 := numBytes_len .q false (now / second)
    have h4 := numBytes_len .H true port
    have h5 := numBytes_len .H true n.address.2
    have h6 := varSize_length agent.length
    have h7 := numBytes_len .i false n.height
    have h8 := numBytes_len .B false 0
    have := hn.short
    omega
  obtain ⟨vs', hw⟩ := hw
  obtain ⟨t, ht, htc, -, h1, h2, -⟩ := C63_message H "version" versionSpec (List.mem_cons_self ..) _ _ _ n.magic [] hw hlen
    hn.magic
  have := registered_command (u := msgVersion) ht (by simp [registry]) htc
  subst this
  have h1 := h1 _ (List.Perm.refl _)
  unfold Node.greet Node.versionFields
  rw [net_new hnow peer port hp hport, ok_bind, hs, net_new hnow own n.address.2 ho hn.port, ok_bind, h1]
  simp only
  unfold Node.sendMessage
  rw [h2]
  rfl

/-! ### What histories preserve -/

/-- The settings of a node. -/
structure SameSettings (n m : Node) : Prop where
  ver : m.ver = n.ver
  magic : m.magic = n.magic
  protocolVersion : m.protocolVersion = n.protocolVersion
  height : m.height = n.height
  userAgent : m.userAgent = n.userAgent
  address : m.address = n.address
  listen : m.listen = n.listen
  seekPeers : m.seekPeers = n.seekPeers
  maxPeers : m.maxPeers = n.maxPeers
  bootstrap : m.bootstrap = n.bootstrap

theorem SameSettings.refl (n : Node) : SameSettings n n := ⟨rfl, rfl, rfl, rfl, rfl, rfl, rfl, rfl, rfl, rfl⟩

theorem SameSettings.trans {a b c : Node} (h : SameSettings a b) (h' : SameSettings b c) : SameSettings a c :=
  ⟨h'.1.trans h.1, h'.2.trans h.2, h'.3.trans h.3, h'.4.trans h.4, h'.5.trans h.5, h'.6.trans h.6, h'.7.trans h.7,
    h'.8.trans h.8, h'.9.trans h.9, h'.10.trans h.10⟩

theorem prim_same {n m : Node} (h : Prim H Q n m) : SameSettings n m := by
  cases h <;> exact ⟨rfl, rfl, rfl, rfl, rfl, rfl, rfl, rfl, rfl, rfl⟩

theorem prim2_same {n m : Node} (h : Prim2 H Q n m) : SameSettings n m := by
  cases h with
  | prim _ h => exact prim_same h
  | recv c k chunk now hk hq => exact ⟨rfl, rfl, rfl, rfl, rfl, rfl, rfl, rfl, rfl, rfl⟩
  | setBuf c b => exact ⟨rfl, rfl, rfl, rfl, rfl, rfl, rfl, rfl, rfl, rfl⟩

theorem steps2_same {n m : Node} (h : Steps2 H Q n m) : SameSettings n m := by
  induction h with
  | refl => exact .refl n
  | tail _ h ih => exact ih.trans (prim2_same h)

theorem Presentable.same {n m : Node} {agent : Bytes} (hn : Presentable n agent) (h : SameSettings n m) : Presentable m agent :=
  ⟨by rw [h.magic]; exact hn.magic, by rw [h.protocolVersion]; exact hn.version, by rw [h.height]; exact hn.height,
    by rw [h.userAgent]; exact hn.ua, hn.short, by rw [h.address]; exact hn.port⟩

theorem steps2_inv {P : Node → Prop} (hP : ∀ n m, Prim2 H Q n m → P n → P m) {n m : Node} (h : Steps2 H Q n m) (hn : P n) :
    P m := by
  induction h with
  | refl => exact hn
  | tail _ h ih => exact hP _ _ h ih

/-- What the node believes its ip to be, and what its peers have told it, are ips. -/
structure Reports (n : Node) : Prop where
  guessed : IsIp n.guessedIp
  told : ∀ k ∈ n.conns, ∀ ip, k.externalIp = some ip → IsIp ip

theorem mem_modify {l : List Conn} {c : Nat} {f : Conn → Conn} {k' : Conn} (h : k' ∈ l.modify c f) :
    ∃ k ∈ l, k' = k ∨ k' = f k := by
  obtain ⟨i, hi⟩ := List.mem_iff_getElem?.1 h
  rw [List.getElem?_modify] at hi
  obtain ⟨k, hk, rfl⟩ := Option.map_eq_some_iff.1 hi
  refine ⟨k, List.mem_of_getElem? hk, ?_⟩
  split
  · exact .inr rfl
  · exact .inl rfl

theorem Reports.upd {n m : Node} (h : Reports n) (c : Nat) {f : Conn → Conn} (hm : m.guessedIp = n.guessedIp)
    (hc : m.conns = n.conns.modify c f) (hf : ∀ k ip, (f k).externalIp = some ip → k.externalIp = some ip ∨ IsIp ip) :
    Reports m := by
  refine ⟨by rw [hm]; exact h.guessed, fun k' hk' ip hi => ?_⟩
  rw [hc] at hk'
  obtain ⟨k, hk, rfl | rfl⟩ := mem_modify hk'
  · exact h.told _ hk ip hi
  · rcases hf k ip hi with hi | hi
    · exact h.told _ hk ip hi
    · exact hi

theorem reports_prim {n m : Node} (hp : Prim2 H Q n m) (h : Reports n) : Reports m := by
  cases hp with
  | prim _ hp =>
    cases hp with
    | queue c t fields b hb => exact h.upd c rfl rfl (fun k ip hi => .inl hi)
    | close c => exact h.upd c rfl rfl (fun k ip hi => .inl hi)
    | sent c k j now hk hj hq => exact h.upd c rfl rfl (fun k ip hi => .inl hi)
    | tx c t hq => exact h.upd c rfl rfl (fun k ip hi => .inl hi)
    | info c f hf hx _ => exact h.upd c rfl rfl hx
    | ping c t hq => exact h.upd c rfl rfl (fun k ip hi => .inl hi)
    | new a inc h1 ho =>
      refine ⟨h.guessed, fun k hk ip hi => ?_⟩
      rcases List.mem_append.1 hk with hk | hk
      · exact h.told k hk ip hi
      · rw [List.mem_singleton.1 hk] at hi
        cases hi
    | add c h1 hq => exact h.upd c rfl rfl (fun k ip hi => .inl hi)
    | reduce c => exact h.upd c rfl rfl (fun k ip hi => .inl hi)
    | guess ip hg =>
      obtain ⟨k, hk, hi⟩ := hg
      exact ⟨h.told k hk ip hi, h.told⟩
    | _ => exact ⟨h.guessed, h.told⟩
  | recv c k chunk now hk hq => exact h.upd c rfl rfl (fun k ip hi => .inl hi)
  | setBuf c b => exact h.upd c rfl rfl (fun k ip hi => .inl hi)

theorem ext_prim {n m : Node} (hp : Prim2 H Q n m) (hq : ¬ Q .ext 0 0) : m.externalIp = n.externalIp := by
  cases hp with
  | prim _ hp =>
    cases hp with
    | ext ip h => exact absurd h hq
    | _ => rfl
  | _ => rfl

theorem listening_prim {n m : Node} (hp : Prim2 H Q n m) (hq : ¬ Q .deaf 0 0) : m.listening = n.listening := by
  cases hp with
  | prim _ hp =>
    cases hp with
    | deaf h => exact absurd h hq
    | _ => rfl
  | _ => rfl

/-- All addresses the node knows are pairs of ip and port. -/
structure Numeric (n : Node) : Prop where
  peers : ∀ k ∈ n.conns, IsAddr k.address
  book : ∀ e ∈ n.addresses, IsAddr e.1
  seeds : ∀ a ∈ n.bootstrap, IsAddr a

theorem Numeric.upd {n m : Node} (h : Numeric n) (c : Nat) {f : Conn → Conn} (ha : m.addresses = n.addresses)
    (hb : m.bootstrap = n.bootstrap) (hc : m.conns = n.conns.modify c f) (hf : ∀ k, (f k).address = k.address) :
    Numeric m := by
  refine ⟨fun k' hk' => ?_, by rw [ha]; exact h.book, by rw [hb]; exact h.seeds⟩
  rw [hc] at hk'
  obtain ⟨k, hk, rfl | rfl⟩ := mem_modify hk'
  · exact h.peers _ hk
  · rw [hf]
    exact h.peers _ hk

theorem dictSet_key {α β : Type} [DecidableEq α] {d : List (α × β)} {a : α} {b : β} {e : α × β} (h : e ∈ dictSet d a b) :
    e.1 = a ∨ e ∈ d := by
  unfold dictSet at h
  split at h
  · obtain ⟨x, hx, rfl⟩ := List.mem_map.1 h
    split
    · exact .inl rfl
    · exact .inr hx
  · rcases List.mem_append.1 h with h | h
    · exact .inr h
    · rw [List.mem_singleton.1 h]
      exact .inl rfl

theorem numeric_prim {n m : Node} (hp : Prim2 H Q n m) (hq : ∀ a, Q (.dial a) 0 0 → IsAddr a) (h : Numeric n) :
    Numeric m := by
  cases hp with
  | prim _ hp =>
    cases hp with
    | queue c t fields b hb => exact h.upd c rfl rfl rfl (fun k => rfl)
    | close c => exact h.upd c rfl rfl rfl (fun k => rfl)
    | sent c k j now hk hj _ => exact h.upd c rfl rfl rfl (fun k => rfl)
    | tx c t _ => exact h.upd c rfl rfl rfl (fun k => rfl)
    | info c f hf hx _ => exact h.upd c rfl rfl rfl (fun k => (hf k).address)
    | ping c t _ => exact h.upd c rfl rfl rfl (fun k => rfl)
    | new a inc h1 ho =>
      refine ⟨fun k hk => ?_, h.book, h.seeds⟩
      rcases List.mem_append.1 hk with hk | hk
      · exact h.peers k hk
      · rw [List.mem_singleton.1 hk]
        rcases ho with ho | ⟨-, ho | ho⟩
        · exact hq a ho
        · exact h.seeds a ho
        · obtain ⟨e, he, rfl⟩ := List.mem_map.1 ho
          exact h.book e he
    | add c h1 _ => exact h.upd c rfl rfl rfl (fun k => rfl)
    | reduce c => exact h.upd c rfl rfl rfl (fun k => rfl)
    | addrSet a v h1 hv ha =>
      refine ⟨h.peers, fun e he => ?_, h.seeds⟩
      rcases dictSet_key he with he | he
      · rw [he]
        rcases ha with ha | ha
        · obtain ⟨k, hk, rfl⟩ := List.mem_map.1 ha
          exact h.peers k hk
        · exact ha
      · exact h.book e he
    | addrDel a => exact ⟨h.peers, fun e he => h.book e (List.mem_of_mem_filter he), h.seeds⟩
    | _ => exact ⟨h.peers, h.book, h.seeds⟩
  | recv c k chunk now hk _ => exact h.upd c rfl rfl rfl (fun k => rfl)
  | setBuf c b => exact h.upd c rfl rfl rfl (fun k => rfl)

/-! ### C98 -/

theorem getaddr_sent (n : Node) (c : Nat) (hm : n.magic.length = 4) :
    n.sendNew H c msgGetaddr [] =
      (n.upd c (fun k => { k with sendBuf := k.sendBuf ++ wireFrame H n.magic "getaddr" [] }), none) := by
  obtain ⟨t, ht, htc, h1, -, h2, -⟩ := C63_message H "getaddr" [] (by simp [messages]) [] [] [] n.magic []
    ⟨rfl, rfl, rfl⟩ (by decide) hm
  have := registered_command (u := msgGetaddr) ht (by simp [registry]) htc
  subst this
  exact sendNew_ok n c msgGetaddr _ _ _ h1 h2

theorem steps_same {n m : Node} (h : Steps H Q n m) : SameSettings n m := steps2_same h.two

/-- C98: what `asyncore` calls outside of its exception handlers, `items` of the node and `readable` of a connection, does
not raise (`os.urandom(8)` gives the nonce), in any state. -/
theorem C98_loop (n : Node) (hm : n.magic.length = 4) :
    (∀ now envs choice, (n.items H now envs choice).2 = none) ∧
    ∀ c now now' nonce, nonce.length = 8 → ∃ b, (n.readable H c now now' nonce).2 = .ok b := by
  refine ⟨fun now envs choice => ?_, fun c now now' nonce hl => ?_⟩
  · unfold Node.items
    split
    · unfold Node.heartbeat
      simp only
      rw [show n.seekPeers = ({ n with lastHeartbeat := now } : Node).seekPeers from rfl]
      generalize hx : ({ n with lastHeartbeat := now } : Node) = x
      have hxm : x.magic.length = 4 := by rw [← hx]; exact hm
      have hs := (steps_same (steps_addSome (H := H) (Q := fun _ _ _ => True)
        (envs.take (min (x.seekPeers - x.peers.length) 5).toNat) x trivial)).magic
      generalize x.addSome H (envs.take (min (x.seekPeers - x.peers.length) 5).toNat) = y at hs
      have : (y.askOne H x.peers choice).2 = none := by
        unfold Node.askOne
        split
        · split
          · rw [getaddr_sent y _ (by rw [hs]; exact hxm)]
          · rfl
        · rfl
      split
      · rename_i h
        rw [h] at this
        cases this
      · rfl
    · rfl
  · cases hk : n.conns[c]? with
    | none =>
      unfold Node.readable
      rw [hk]
      exact ⟨false, rfl⟩
    | some k => exact ⟨_, (C78_poll n c k now now' nonce hl hm hk).1⟩

/-- What the system and the owner may do: incoming connections have an ip and a port as their address, the clock is
current, `os.urandom(8)` gives 8 bytes, and an external ip that is set is one. -/
def Fair : Event → Prop
  | .accept pair _ now' nonce => (∀ a, pair = some a → IsAddr a) ∧ Current now' ∧ nonce.length = 8
  | .setExternalIp ip => ip = [] ∨ IsIp ip
  | _ => True

/-- The ip that is shown is one. -/
structure Shows (n : Node) : Prop where
  reports : Reports n
  ext : n.externalIp = [] ∨ IsIp n.externalIp

theorem Shows.ip {n : Node} (h : Shows n) : IsIp n.shownIp := by
  unfold Node.shownIp
  split
  · rename_i hne
    exact h.ext.resolve_left hne
  · exact h.reports.guessed

theorem shows_step {n : Node} (h : Shows n) (e : Event) (he : ∀ ip, e = .setExternalIp ip → ip = [] ∨ IsIp ip) :
    Shows (n.step H e) := by
  have hs := steps2_step (H := H) (Q := e.stores) n e (fun _ _ _ h => h)
  refine ⟨steps2_inv (fun _ _ => reports_prim) hs h.reports, ?_⟩
  by_cases hx : ∃ ip, e = .setExternalIp ip
  · obtain ⟨ip, rfl⟩ := hx
    exact he ip rfl
  · have : (n.step H e).externalIp = n.externalIp :=
      steps2_inv (P := fun m => m.externalIp = n.externalIp) (fun a b hp ha => by
        rw [← ha]
        exact ext_prim hp (fun hq => by
          cases e <;> first | exact hq | exact hx ⟨_, rfl⟩)) hs rfl
    rw [this]
    exact h.ext

theorem shows_run {n : Node} (h : Shows n) (es : List Event) (he : ∀ ip, .setExternalIp ip ∈ es → ip = [] ∨ IsIp ip) :
    Shows (n.run H es) := by
  induction es generalizing n with
  | nil => exact h
  | cons e es ih =>
    exact ih (shows_step h e (fun ip hi => he ip (hi ▸ List.mem_cons_self ..)))
      (fun ip hi => he ip (List.mem_cons_of_mem _ hi))

theorem banCheck_fields (n : Node) (a : Addr) (now : Int) :
    SameSettings n (n.banCheck a now).1 ∧ (n.banCheck a now).1.guessedIp = n.guessedIp ∧
    (n.banCheck a now).1.externalIp = n.externalIp ∧ (n.banCheck a now).1.conns = n.conns ∧
    (n.banCheck a now).1.listening = n.listening := by
  unfold Node.banCheck
  split
  · exact ⟨.refl n, rfl, rfl, rfl, rfl⟩
  · split
    · exact ⟨.refl n, rfl, rfl, rfl, rfl⟩
    · exact ⟨⟨rfl, rfl, rfl, rfl, rfl, rfl, rfl, rfl, rfl, rfl⟩, rfl, rfl, rfl, rfl⟩

theorem modify_last {α : Type} (l : List α) (k : α) (f : α → α) : (l ++ [k]).modify l.length f = l ++ [f k] := by
  induction l with
  | nil => rfl
  | cons a l ih => rw [List.cons_append, List.length_cons, List.modify_succ_cons, ih]; rfl

theorem newIncoming_ok {n : Node} {agent : Bytes} (hn : Presentable n agent) (hs : IsIp n.shownIp) {a : Addr} (ha : IsAddr a)
    {now : Int} (hnow : Current now) {nonce : Bytes} (hl : nonce.length = 8) :
    ∃ peer own, peer.length = 16 ∧ a.1 = ipText peer ∧ own.length = 16 ∧ n.shownIp = ipText own ∧
    n.newIncoming H a now nonce = ({ n with conns := n.conns ++
      [{ address := a, incoming := true, sendBuf := greeting H n agent peer own a.2 now nonce }] }, none) := by
  obtain ⟨peer, hp, hpe⟩ := ha.1
  obtain ⟨own, ho, hoe⟩ := hs
  refine ⟨peer, own, hp, hpe, ho, hoe, ?_⟩
  unfold Node.newIncoming
  simp only
  have hn' : Presentable { n with conns := n.conns ++ [{ address := a, incoming := true }] } agent :=
    hn.same ⟨rfl, rfl, rfl, rfl, rfl, rfl, rfl, rfl, rfl, rfl⟩
  have := greet_ok (H := H) hn' n.conns.length hp ho hoe ha.2 hnow hl
  rw [← hpe] at this
  rw [show a = (a.1, a.2) from rfl, this]
  unfold Node.upd
  simp only [modify_last]
  rfl

theorem accept_ok {n : Node} {agent : Bytes} (hn : Presentable n agent) (hs : IsIp n.shownIp) {pair : Option Addr}
    (ha : ∀ a, pair = some a → IsAddr a) (now : Int) {now' : Int} (hnow : Current now') {nonce : Bytes}
    (hl : nonce.length = 8) : ∃ m, n.handleAccept H pair now now' nonce = (m, none) ∧ m.listening = n.listening := by
  unfold Node.handleAccept
  cases pair with
  | none => exact ⟨n, rfl, rfl⟩
  | some a =>
    simp only
    obtain ⟨h1, h2, h3, -, h4⟩ := banCheck_fields n a now
    generalize n.banCheck a now = r at h1 h2 h3 h4
    obtain ⟨m, b⟩ := r
    simp only at h1 h2 h3 h4 ⊢
    cases b with
    | true => exact ⟨m, rfl, h4⟩
    | false =>
      simp only
      split
      · exact ⟨m, rfl, h4⟩
      · have hm : IsIp m.shownIp := by
          unfold Node.shownIp at hs ⊢
          rw [h2, h3]
          exact hs
        obtain ⟨peer, own, -, -, -, -, h5⟩ := newIncoming_ok (H := H) (hn.same h1) hm (ha a rfl) hnow hl
        exact ⟨_, h5, h4⟩

/-- C98, what holds: a node that is bound to an ip, with presentable settings, listens after every fair history, whatever
its peers send.  What is missing is a node that is bound to a name or to all interfaces, `C98_listening_false`. -/
theorem C98_listening_partial (n : Node) (agent : Bytes) (hn : Presentable n agent) (hc : n.conns = [])
    (hg : IsIp n.guessedIp) (hx : n.externalIp = []) (hl : n.listening = true) (es : List Event) (he : ∀ e ∈ es, Fair e) :
    (n.run H es).listening = true := by
  have hs : Shows n := ⟨⟨hg, by rw [hc]; intro k hk; cases hk⟩, .inl hx⟩
  clear hc hg hx
  induction es generalizing n with
  | nil => exact hl
  | cons e es ih =>
    have hst := steps2_step (H := H) (Q := e.stores) n e (fun _ _ _ h => h)
    have hfe := he e (List.mem_cons_self ..)
    refine ih (n.step H e) (hn.same (steps2_same hst)) ?_ (fun e he' => he e (List.mem_cons_of_mem _ he'))
      (shows_step hs e (fun ip hi => by subst hi; exact hfe))
    by_cases hx : ∃ pair now now' nonce, e = .accept pair now now' nonce
    · obtain ⟨pair, now, now', nonce, rfl⟩ := hx
      obtain ⟨m, h1, h2⟩ := accept_ok (H := H) hn hs.ip hfe.1 now hfe.2.1 hfe.2.2
      unfold Node.step
      simp only [hl, if_true, h1, h2]
    · have : (n.step H e).listening = n.listening :=
        steps2_inv (P := fun m => m.listening = n.listening) (fun a b hp ha => by
          rw [← ha]
          exact listening_prim hp (fun hq => by
            cases e <;> first | exact hq | exact hx ⟨_, _, _, _, rfl⟩)) hst rfl
      rw [this, hl]

theorem net_bad {t sv : Val} {ip : List Char} {port : Int} (h : ipValidate ip ≠ .ok true) :
    ∃ e, newNetworkAddress t sv ip port = .error e := by
  cases hx : newNetworkAddress t sv ip port with
  | error e => exact ⟨e, rfl⟩
  | ok v =>
    exfalso
    unfold newNetworkAddress at hx
    obtain ⟨f, hf, -⟩ := bind_ok_iff.1 hx
    unfold compInit networkAddress at hf
    simp only at hf
    split at hf
    · cases hf
    split at hf
    · cases hf
    split at hf
    · cases hf
    unfold initLoop at hf
    obtain ⟨_, -, hf⟩ := bind_ok_iff.1 hf
    obtain ⟨_, -, hf⟩ := bind_ok_iff.1 hf
    split at hf
    · cases hf
    obtain ⟨_, hf, -⟩ := bind_ok_iff.1 hf
    unfold initLoop at hf
    obtain ⟨_, -, hf⟩ := bind_ok_iff.1 hf
    obtain ⟨_, -, hf⟩ := bind_ok_iff.1 hf
    split at hf
    · cases hf
    obtain ⟨_, hf, -⟩ := bind_ok_iff.1 hf
    unfold initLoop at hf
    obtain ⟨v, hv, hf⟩ := bind_ok_iff.1 hf
    obtain ⟨w, hw, hf⟩ := bind_ok_iff.1 hf
    have : v = .str ip := by
      simp only [List.map_cons, List.map_nil, List.zip_cons_cons, List.zip_nil_right, List.append_nil] at hv
      rw [getField_cons_ne (by decide), getField_cons_ne (by decide), getField_head] at hv
      cases hv
      rfl
    subst this
    unfold ftIPAddress at hw
    simp only at hw
    obtain ⟨b, hb, hw⟩ := bind_ok_iff.1 hw
    cases b with
    | true => exact h hb
    | false =>
      cases hw
      cases hf

theorem greet_bad (n : Node) (c : Nat) (a : Addr) (now : Int) (nonce : Bytes)
    (h : ipValidate n.shownIp ≠ .ok true ∨ ipValidate a.1 ≠ .ok true) : ∃ e, n.greet H c a now nonce = (n, some e) := by
  have : ∃ e, n.versionFields a now nonce = .error e := by
    unfold Node.versionFields
    cases h1 : newNetworkAddress (stamp now) (.int services) a.1 a.2 with
    | error e => exact ⟨e, rfl⟩
    | ok v =>
      rw [ok_bind]
      rcases h with h | h
      · obtain ⟨e, he⟩ := net_bad (t := stamp now) (sv := .int services) (port := n.address.2) h
        rw [he]
        exact ⟨e, rfl⟩
      · obtain ⟨e, he⟩ := net_bad (t := stamp now) (sv := .int services) (port := a.2) h
        rw [he] at h1
        cases h1
  obtain ⟨e, he⟩ := this
  unfold Node.greet
  rw [he]
  exact ⟨e, rfl⟩

/-- C98 is false of a node that is bound to a name or, as is usual, to all interfaces: the first incoming connection,
whoever makes it, stops it listening. -/
theorem C98_listening_false (H : Hashes) (host : List Char) (h : host = "localhost".toList ∨ host = []) (a : Addr)
    (now now' : Int) (nonce : Bytes) :
    ((Node.init .py3 [1, 2, 3, 4] 70002 0 "/nbc/".toList (host, 9333) true 16 125 []).step H
      (.accept (some a) now now' nonce)).listening = false := by
  have hv : ipValidate host ≠ .ok true := by
    rcases h with rfl | rfl
    · decide
    · decide
  generalize hn : Node.init .py3 [1, 2, 3, 4] 70002 0 "/nbc/".toList (host, 9333) true 16 125 [] = n
  have h1 : n.shownIp = host := by rw [← hn]; rfl
  have h2 : n.banned = [] := by rw [← hn]; rfl
  have h3 : n.listen = true := by rw [← hn]; rfl
  have h4 : n.listening = true := by rw [← hn]; rfl
  have h5 : ∃ m e, n.newIncoming H a now' nonce = (m, some e) := by
    obtain ⟨e, he⟩ := greet_bad (H := H) { n with conns := n.conns ++ [{ address := a, incoming := true }] } n.conns.length a
      now' nonce (.inl (by rw [← h1] at hv; exact hv))
    exact ⟨_, e, he⟩
  obtain ⟨m, e, h5⟩ := h5
  unfold Node.step Node.handleAccept Node.banCheck
  simp only [h2, h4, if_true, dictGet, List.find?_nil, Option.map_none, h3, Bool.not_true, Bool.false_eq_true, if_false, h5]

/-- The settings of `node0`. -/
theorem node0_presentable (ver : Aes.PyVer) (m : Int) : Presentable (node0 ver m) [47, 110, 98, 99, 47] :=
  ⟨rfl, show inRange .i 70002 by unfold inRange; decide, show inRange .i 0 by unfold inRange; decide,
    show "/nbc/".toList = latin [47, 110, 98, 99, 47] by decide, by decide, show inRange .H 9333 by unfold inRange; decide⟩

theorem ip_10_0_0_1 : IsIp "10.0.0.1".toList := ⟨v4Prefix ++ [10, 0, 0, 1], by decide, by decide⟩

/-- A fair history with connections, garbage and a punished peer. -/
example : ∀ es : List Event, (∀ e ∈ es, Fair e) → ((node0 .py3 125).run Hashes.toy es).listening = true :=
  C98_listening_partial (node0 .py3 125) _ (node0_presentable _ _) rfl ip_10_0_0_1 rfl rfl

example : ∀ e ∈ comesBack ++ [.read 1 (.data [1, 2, 3]) 7000], Fair e := by
  have hip : IsAddr ("10.0.0.2".toList, 4000) :=
    ⟨⟨v4Prefix ++ [10, 0, 0, 2], by decide, by decide⟩, by unfold inRange; decide⟩
  intro e he
  simp only [comesBack, List.range, List.range.loop, List.map_cons, List.map_nil, List.cons_append, List.nil_append,
    List.mem_cons, List.not_mem_nil, or_false] at he
  rcases he with rfl | rfl | rfl | rfl | rfl | rfl | rfl | rfl | rfl
  · exact ⟨fun a h => by cases h; exact hip, by unfold Current; decide, rfl⟩
  · trivial
  · trivial
  · trivial
  · trivial
  · trivial
  · trivial
  · exact ⟨fun a h => by cases h; exact hip, by unfold Current; decide, rfl⟩
  · trivial

/-! ### C99 -/

theorem newOutgoing_ok {n : Node} {agent : Bytes} (hn : Presentable n agent) (hs : IsIp n.shownIp) {a : Addr} (ha : IsAddr a)
    {now : Int} (hnow : Current now) {nonce : Bytes} (hl : nonce.length = 8) :
    ∃ peer own, peer.length = 16 ∧ a.1 = ipText peer ∧ own.length = 16 ∧ n.shownIp = ipText own ∧
    n.newOutgoing H a true now nonce = ({ n with conns := n.conns ++
      [{ address := a, incoming := false, sendBuf := greeting H n agent peer own a.2 now nonce }] }, none) := by
  obtain ⟨peer, hp, hpe⟩ := ha.1
  obtain ⟨own, ho, hoe⟩ := hs
  refine ⟨peer, own, hp, hpe, ho, hoe, ?_⟩
  unfold Node.newOutgoing
  simp only [if_true]
  have hn' : Presentable { n with conns := n.conns ++ [{ address := a, incoming := false }] } agent :=
    hn.same ⟨rfl, rfl, rfl, rfl, rfl, rfl, rfl, rfl, rfl, rfl⟩
  have := greet_ok (H := H) hn' n.conns.length hp ho hoe ha.2 hnow hl
  rw [← hpe] at this
  rw [show a = (a.1, a.2) from rfl, this]
  unfold Node.upd
  simp only [modify_last]
  rfl

/-- The address is that of the listener or of an open connection. -/
def Connected (n : Node) (a : Addr) : Prop :=
  (n.listening = true ∧ a = n.address) ∨ ∃ k ∈ n.conns, k.isOpen = true ∧ k.address = a

theorem connected_iff (n : Node) (a : Addr) : a ∈ n.allAddresses ↔ Connected n a := by
  unfold Node.allAddresses Connected Node.openConns
  rw [List.mem_append]
  refine or_congr ?_ ?_
  · cases n.listening <;> simp
  · simp only [List.mem_map, List.mem_filter]
    constructor
    · rintro ⟨k, ⟨h1, h2⟩, h3⟩
      exact ⟨k, h1, h2, h3⟩
    · rintro ⟨k, h1, h2, h3⟩
      exact ⟨k, ⟨h1, h2⟩, h3⟩

/-- C99, what holds: for an address with an ip, `add_peer` returns `True` exactly when there is room (or it is forced), the
address is new and the connection succeeds.  Then there is one more connection, open, with the version message queued, and
nothing else has changed; otherwise the open connections are those there were.  What is missing is an address with a name,
`C99_addPeer_false`. -/
theorem C99_addPeer_partial (n : Node) (agent : Bytes) (hn : Presentable n agent) (hs : IsIp n.shownIp) (a : Addr)
    (ha : IsAddr a) (force connects : Bool) (now : Int) (hnow : Current now) (nonce : Bytes) (hl : nonce.length = 8) :
    let r := n.addPeer H a force connects now nonce
    (r.2 = true ↔ (force = true ∨ (mapCount n : Int) < n.maxPeers) ∧ ¬ Connected n a ∧ connects = true) ∧
    (r.2 = false → r.1.conns.filter (·.isOpen) = n.conns.filter (·.isOpen)) ∧
    (r.2 = true → ∃ peer own, peer.length = 16 ∧ a.1 = ipText peer ∧ own.length = 16 ∧ n.shownIp = ipText own ∧
      r.1 = { n with conns := n.conns ++
        [{ address := a, incoming := false, sendBuf := greeting H n agent peer own a.2 now nonce }] }) := by
  intro r
  have hr : r = n.addPeer H a force connects now nonce := rfl
  unfold Node.addPeer at hr
  rw [mapSize_eq] at hr
  split at hr
  · rename_i h
    rw [hr]
    refine ⟨⟨fun h => (Bool.noConfusion h), fun h' => ?_⟩, fun _ => rfl, fun h => (Bool.noConfusion h)⟩
    obtain ⟨h1, h2⟩ := h
    rcases h'.1 with h3 | h3
    · rw [h3] at h1
      cases h1
    · omega
  rename_i h0
  split at hr
  · rename_i h
    rw [hr]
    exact ⟨⟨fun h => (Bool.noConfusion h), fun h' => absurd ((connected_iff n a).1 h) h'.2.1⟩, fun _ => rfl,
      fun h => (Bool.noConfusion h)⟩
  rename_i h1
  have hroom : force = true ∨ (mapCount n : Int) < n.maxPeers := by
    cases force with
    | true => exact .inl rfl
    | false =>
      right
      simp only [Bool.not_false, true_and] at h0
      omega
  cases connects with
  | true =>
    obtain ⟨peer, own, e1, e2, e3, e4, e5⟩ := newOutgoing_ok (H := H) hn hs ha hnow hl
    rw [e5] at hr
    simp only at hr
    rw [hr]
    exact ⟨⟨fun _ => ⟨hroom, fun h => h1 ((connected_iff n a).2 h), rfl⟩, fun _ => rfl⟩, fun h => (Bool.noConfusion h),
      fun _ => ⟨peer, own, e1, e2, e3, e4, rfl⟩⟩
  | false =>
    unfold Node.newOutgoing at hr
    simp only [Bool.false_eq_true, if_false] at hr
    rw [hr]
    refine ⟨⟨fun h => (Bool.noConfusion h), fun h => Bool.noConfusion h.2.2⟩, fun _ => ?_, fun h => (Bool.noConfusion h)⟩
    simp only
    have : ∀ (x : Node) (c : Nat), (x.handleClose c).conns = x.conns.modify c (fun k => { k with isOpen := false }) := by
      intro x c
      unfold Node.handleClose Node.disconnected
      split <;> rfl
    rw [this]
    simp only [modify_last]
    rw [List.filter_append]
    simp

/-- C99 is false of an address with a name (as the seeds of other coins are): the connection is made, the version message
cannot be, and `add_peer` returns `False` leaving an open connection that has not been greeted. -/
theorem C99_addPeer_false (H : Hashes) (now : Int) (nonce : Bytes) :
    ∃ m, (node0 .py3 125).addPeer H ("seed.example.org".toList, 8333) true true now nonce = (m, false) ∧
      m.conns.map (fun k => (k.address, k.isOpen, k.sendBuf)) = [(("seed.example.org".toList, 8333), true, [])] := by
  have h1 : ("seed.example.org".toList, (8333 : Int)) ∉ (node0 .py3 125).allAddresses := by decide
  have h2 : ∃ e, (node0 .py3 125).newOutgoing H ("seed.example.org".toList, 8333) true now nonce =
      ({ node0 .py3 125 with conns := [{ address := ("seed.example.org".toList, 8333), incoming := false }] }, some e) := by
    unfold Node.newOutgoing
    simp only [if_true]
    exact greet_bad _ _ _ _ _ (.inr (by decide))
  obtain ⟨e, h2⟩ := h2
  unfold Node.addPeer
  simp only [Bool.not_true, Bool.false_eq_true, false_and, if_false, if_neg h1, h2]
  exact ⟨_, rfl, rfl⟩

example : IsIp (node0 .py3 125).shownIp ∧ ¬ Connected (node0 .py3 125) ("10.0.0.2".toList, 4000) ∧
    ((node0 .py3 125).addPeer Hashes.toy ("10.0.0.2".toList, 4000) false true 5000 [0, 0, 0, 0, 0, 0, 0, 1]).2 = true := by
  refine ⟨ip_10_0_0_1, ?_, by decide +kernel⟩
  rw [← connected_iff]
  decide

/-! ### C100 -/

/-- The connection was greeted, by a node with the settings of `n`, before anything else was queued. -/
def Greeted (H : Hashes) (n : Node) (agent : Bytes) (k : Conn) : Prop :=
  ∃ (peer own : Bytes) (port now : Int) (nonce : Bytes), peer.length = 16 ∧ own.length = 16 ∧ nonce.length = 8 ∧
    inRange .H port ∧ Current now ∧ k.address = (ipText peer, port) ∧ greeting H n agent peer own port now nonce <+: k.out ++ k.sendBuf

/-- As `Fair`, also for outgoing connections. -/
def Fair2 : Event → Prop
  | .accept pair _ now' nonce => (∀ a, pair = some a → IsAddr a) ∧ Current now' ∧ nonce.length = 8
  | .addPeer a _ _ now nonce => IsAddr a ∧ Current now ∧ nonce.length = 8
  | .items _ envs _ => ∀ e ∈ envs, Current e.now ∧ e.nonce.length = 8
  | .setExternalIp ip => ip = [] ∨ IsIp ip
  | _ => True

theorem greeted_event {n : Node} {agent magic : Bytes} {k k' : Conn} (h : ConnEvent H magic k k')
    (hk : k.isOpen = true → Greeted H n agent k) (ho : k'.isOpen = true) : Greeted H n agent k' := by
  obtain ⟨peer, own, port, now, nonce, h1, h2, h3, hp, hn, h4, h5⟩ := hk (h.isOpen ho)
  refine ⟨peer, own, port, now, nonce, h1, h2, h3, hp, hn, by rw [h.address, h4], h5.trans ?_⟩
  obtain ⟨fs, -, hq⟩ := h.queue
  rw [hq]
  exact List.prefix_append _ _

theorem prim2_length {n m : Node} (h : Prim2 H Q n m) (h1 : ∀ a, ¬ Q (.dial a) 0 0) (h2 : ¬ Q .any 0 0) :
    m.conns.length = n.conns.length := by
  cases h with
  | prim _ h =>
    cases h with
    | new a inc _ ho =>
      rcases ho with ho | ho
      · exact absurd ho (h1 a)
      · exact absurd ho.1 h2
    | sent => unfold Node.sent Node.upd; simp
    | _ => first | rfl | (unfold Node.upd; simp)
  | recv c k chunk now hk hq => unfold Node.received Node.upd; simp
  | setBuf c b => unfold Node.setRecvBuf Node.upd; simp

/-- All open connections were greeted. -/
def AllGreeted (H : Hashes) (n0 : Node) (agent : Bytes) (n : Node) : Prop :=
  ∀ k ∈ n.conns, k.isOpen = true → Greeted H n0 agent k

theorem greeted_steps {n0 : Node} {agent : Bytes} {n m : Node} (h : Steps2 H Q n m) (h1 : ∀ a, ¬ Q (.dial a) 0 0)
    (h2 : ¬ Q .any 0 0) (hn : AllGreeted H n0 agent n) : AllGreeted H n0 agent m := by
  refine steps2_inv (fun a b hp ha k' hk' ho => ?_) h hn
  obtain ⟨i, hi⟩ := List.mem_iff_getElem?.1 hk'
  have hl := prim2_length hp h1 h2
  have : i < a.conns.length := by
    have := (List.getElem?_eq_some_iff.1 hi).1
    omega
  obtain ⟨k2, e1, e2⟩ := (prim2_event hp).old i _ (List.getElem?_eq_getElem this)
  rw [hi] at e1
  cases e1
  exact greeted_event e2 (ha _ (List.getElem_mem this)) ho

/-- A node that can greet, all of whose connections were greeted. -/
structure Ready (H : Hashes) (n0 : Node) (agent : Bytes) (n : Node) : Prop where
  present : Presentable n0 agent
  same : SameSettings n0 n
  shows : Shows n
  numeric : Numeric n
  greeted : AllGreeted H n0 agent n

theorem greeting_same {n n0 : Node} (h : SameSettings n0 n) (agent peer own : Bytes) (port now : Int) (nonce : Bytes) :
    greeting H n agent peer own port now nonce = greeting H n0 agent peer own port now nonce := by
  unfold greeting
  rw [h.magic, h.protocolVersion, h.address, h.height]

theorem ready_quiet {n0 n m : Node} {agent : Bytes} (hn : Ready H n0 agent n) (h : Steps2 H Q n m)
    (h1 : ∀ a, ¬ Q (.dial a) 0 0) (h2 : ¬ Q .any 0 0) (h3 : ¬ Q .ext 0 0) : Ready H n0 agent m :=
  ⟨hn.present, hn.same.trans (steps2_same h),
    ⟨steps2_inv (fun _ _ => reports_prim) h hn.shows.reports, by
      have : m.externalIp = n.externalIp := steps2_inv (P := fun m => m.externalIp = n.externalIp) (fun a b hp ha => by
        rw [← ha]
        exact ext_prim hp h3) h rfl
      rw [this]
      exact hn.shows.ext⟩,
    steps2_inv (fun _ _ hp => numeric_prim hp (fun a ha => absurd ha (h1 a))) h hn.numeric,
    greeted_steps h h1 h2 hn.greeted⟩

theorem ready_new {n0 n : Node} {agent : Bytes} (hn : Ready H n0 agent n) (k : Conn) (ha : IsAddr k.address)
    (hx : k.externalIp = none) (hk : k.isOpen = true → Greeted H n0 agent k) :
    Ready H n0 agent { n with conns := n.conns ++ [k] } := by
  refine ⟨hn.present, hn.same.trans ⟨rfl, rfl, rfl, rfl, rfl, rfl, rfl, rfl, rfl, rfl⟩,
    ⟨⟨hn.shows.reports.guessed, fun k' hk' ip hi => ?_⟩, hn.shows.ext⟩, ⟨fun k' hk' => ?_, hn.numeric.book, hn.numeric.seeds⟩,
    fun k' hk' ho => ?_⟩
  · rcases List.mem_append.1 hk' with hk' | hk'
    · exact hn.shows.reports.told k' hk' ip hi
    · rw [List.mem_singleton.1 hk', hx] at hi
      cases hi
  · rcases List.mem_append.1 hk' with hk' | hk'
    · exact hn.numeric.peers k' hk'
    · rw [List.mem_singleton.1 hk']
      exact ha
  · rcases List.mem_append.1 hk' with hk' | hk'
    · exact hn.greeted k' hk' ho
    · rw [List.mem_singleton.1 hk'] at ho ⊢
      exact hk ho

theorem ready_greeted {n0 n : Node} {agent : Bytes} (hn : Ready H n0 agent n) {peer own : Bytes} {a : Addr}
    (hp : peer.length = 16) (ha : a.1 = ipText peer) (ho : own.length = 16) (hr : inRange .H a.2) (inc : Bool)
    {now : Int} (hnow : Current now) {nonce : Bytes} (hl : nonce.length = 8) :
    Greeted H n0 agent { address := a, incoming := inc, sendBuf := greeting H n agent peer own a.2 now nonce } :=
  ⟨peer, own, a.2, now, nonce, hp, ho, hl, hr, hnow, by rw [← ha], by
    rw [greeting_same hn.same]
    exact List.prefix_refl _⟩

theorem ready_addPeer {n0 n : Node} {agent : Bytes} (hn : Ready H n0 agent n) {a : Addr} (ha : IsAddr a)
    (force connects : Bool) {now : Int} (hnow : Current now) {nonce : Bytes} (hl : nonce.length = 8) :
    Ready H n0 agent (n.addPeer H a force connects now nonce).1 := by
  unfold Node.addPeer
  split
  · exact hn
  split
  · exact hn
  cases connects with
  | true =>
    obtain ⟨peer, own, e1, e2, e3, e4, e5⟩ := newOutgoing_ok (H := H) (hn.present.same hn.same) hn.shows.ip ha hnow hl
    rw [e5]
    exact ready_new hn _ ha rfl (fun _ => ready_greeted hn e1 e2 e3 ha.2 false hnow hl)
  | false =>
    unfold Node.newOutgoing
    simp only [Bool.false_eq_true, if_false]
    have : ∀ (x : Node) (c : Nat), ∃ b, x.handleClose c = { x with
        conns := x.conns.modify c (fun k => { k with isOpen := false }), addresses := b } ∧ ∀ e ∈ b, e ∈ x.addresses := by
      intro x c
      unfold Node.handleClose Node.disconnected
      split
      · exact ⟨_, rfl, fun e he => he⟩
      · exact ⟨_, rfl, fun e he => List.mem_of_mem_filter he⟩
    obtain ⟨b, h1, h2⟩ := this { n with conns := n.conns ++ [{ address := a, incoming := false }] } n.conns.length
    rw [h1]
    simp only [modify_last]
    have hr := ready_new hn { address := a, incoming := false, isOpen := false } ha rfl (fun h => (Bool.noConfusion h))
    exact ⟨hr.present, hr.same.trans ⟨rfl, rfl, rfl, rfl, rfl, rfl, rfl, rfl, rfl, rfl⟩, ⟨⟨hr.shows.reports.guessed,
      hr.shows.reports.told⟩, hr.shows.ext⟩, ⟨hr.numeric.peers, fun e he => hr.numeric.book e (h2 e he), hr.numeric.seeds⟩,
      hr.greeted⟩

theorem ready_addSome {n0 : Node} {agent : Bytes} (es : List AnyEnv) (n : Node) (hn : Ready H n0 agent n)
    (he : ∀ e ∈ es, Current e.now ∧ e.nonce.length = 8) : Ready H n0 agent (n.addSome H es) := by
  induction es generalizing n with
  | nil => exact hn
  | cons e es ih =>
    refine ih _ ?_ (fun e he' => he e (List.mem_cons_of_mem _ he'))
    obtain ⟨h1, h2⟩ := he e (List.mem_cons_self ..)
    unfold Node.addAnyPeer
    split
    · split
      · exact hn
      · rename_i h
        exact ready_addPeer hn (hn.numeric.seeds _ (List.mem_of_getElem? h)) _ _ h1 h2
    · split
      · exact hn
      · rename_i h
        exact ready_addPeer hn (hn.numeric.book _ (List.mem_of_find?_eq_some h)) _ _ h1 h2

theorem ready_items {n0 n : Node} {agent : Bytes} (hn : Ready H n0 agent n) (now : Int) (envs : List AnyEnv) (choice : Nat)
    (he : ∀ e ∈ envs, Current e.now ∧ e.nonce.length = 8) : Ready H n0 agent (n.items H now envs choice).1 := by
  unfold Node.items
  split
  · unfold Node.heartbeat
    simp only
    have h1 : Ready H n0 agent { n with lastHeartbeat := now } :=
      ready_quiet (Q := fun w _ _ => w = .beat) hn (Prim.beat n now rfl).one.two (fun _ h => nomatch h) (fun h => nomatch h)
        (fun h => nomatch h)
    generalize ({ n with lastHeartbeat := now } : Node) = x at h1
    generalize x.peers = peers
    have h2 := ready_addSome (envs.take (min (n.seekPeers - peers.length) 5).toNat) x h1
      (fun e h => he e (List.mem_of_mem_take h))
    generalize x.addSome H (envs.take (min (n.seekPeers - peers.length) 5).toNat) = y at h2
    have h3 : Ready H n0 agent (y.askOne H peers choice).1 := by
      refine ready_quiet (Q := fun _ _ _ => False) h2 ?_ (fun _ h => h) id id
      unfold Node.askOne
      split
      · split
        · exact (steps_sendNew _ _ _ _ (by simp [registry]) (by simp) (by decide)).two
        · exact .refl
      · exact .refl
    split
    · rename_i h
      rw [h] at h3
      exact h3
    · rename_i h
      rw [h] at h3
      exact ready_quiet (Q := fun _ _ _ => False) h3 (steps_reduce peers _).two (fun _ h => h) id id
  · exact hn

theorem ready_accept {n0 n : Node} {agent : Bytes} (hn : Ready H n0 agent n) {pair : Option Addr}
    (ha : ∀ a, pair = some a → IsAddr a) (now : Int) {now' : Int} (hnow : Current now') {nonce : Bytes}
    (hl : nonce.length = 8) : Ready H n0 agent (n.step H (.accept pair now now' nonce)) := by
  unfold Node.step
  simp only
  split
  · rename_i hlis
    obtain ⟨m, h1, -⟩ := accept_ok (H := H) (hn.present.same hn.same) hn.shows.ip ha now hnow hl
    rw [h1]
    simp only
    unfold Node.handleAccept at h1
    cases pair with
    | none =>
      cases h1
      exact hn
    | some a =>
      simp only at h1
      have hb := ready_quiet (Q := fun _ _ _ => False) hn (steps_banCheck n a now).two (fun _ h => h) id id
      generalize n.banCheck a now = r at h1 hb
      obtain ⟨x, b⟩ := r
      cases b with
      | true =>
        cases h1
        exact hb
      | false =>
        simp only at h1 hb
        split at h1
        · cases h1
          exact hb
        · obtain ⟨peer, own, e1, e2, e3, e4, e5⟩ := newIncoming_ok (H := H) (hb.present.same hb.same) hb.shows.ip
            (ha a rfl) hnow hl
          rw [e5] at h1
          cases h1
          exact ready_new hb _ (ha a rfl) rfl (fun _ => ready_greeted hb e1 e2 e3 (ha a rfl).2 true hnow hl)
  · exact hn

theorem ready_step {n0 n : Node} {agent : Bytes} (hn : Ready H n0 agent n) (e : Event) (he : Fair2 e) :
    Ready H n0 agent (n.step H e) := by
  have hs := steps2_step (H := H) (Q := e.stores) n e (fun _ _ _ h => h)
  cases e with
  | accept pair now now' nonce => exact ready_accept hn he.1 now he.2.1 he.2.2
  | addPeer a force connects now nonce => exact ready_addPeer hn he.1 _ _ he.2.1 he.2.2
  | items now envs choice => exact ready_items hn now envs choice he
  | setExternalIp ip =>
    exact ⟨hn.present, hn.same.trans (steps2_same hs), shows_step hn.shows _ (fun ip' h => by cases h; exact he),
      ⟨hn.numeric.peers, hn.numeric.book, hn.numeric.seeds⟩, hn.greeted⟩
  | _ => exact ready_quiet hn hs (fun _ h => h) (fun h => h) (fun h => h)

/-- C100, what holds: when all addresses that the node is given have an ip, the bytes for every connection that is open,
sent and still to be sent, begin with the version message, which names the peer's address and the settings of the node. -/
theorem C100_first_partial (n : Node) (agent : Bytes) (hn : Presentable n agent) (hc : n.conns = []) (ha : n.addresses = [])
    (hb : ∀ a ∈ n.bootstrap, IsAddr a) (hg : IsIp n.guessedIp) (hx : n.externalIp = []) (es : List Event)
    (he : ∀ e ∈ es, Fair2 e) : ∀ k ∈ (n.run H es).conns, k.isOpen = true → Greeted H n agent k := by
  have hr : Ready H n agent n := ⟨hn, .refl n, ⟨⟨hg, by rw [hc]; intro k hk; cases hk⟩, .inl hx⟩,
    ⟨(by rw [hc]; intro k hk; cases hk), (by rw [ha]; intro k hk; cases hk), hb⟩, by unfold AllGreeted; rw [hc]; intro k hk; cases hk⟩
  have key : ∀ (es : List Event) (m : Node), Ready H n agent m → (∀ e ∈ es, Fair2 e) → Ready H n agent (m.run H es) := by
    intro es
    induction es with
    | nil => exact fun m hm _ => hm
    | cons e es ih =>
      intro m hm he
      exact ih _ (ready_step hm e (he e (List.mem_cons_self ..))) (fun e he' => he e (List.mem_cons_of_mem _ he'))
  exact (key es n hr he).greeted

/-- A history with connections of both kinds, one of them found by the heartbeat after a peer sent its address. -/
def threePeers : List Event :=
  [.accept (some ("10.0.0.2".toList, 4000)) 5000 5000 [0, 0, 0, 0, 0, 0, 0, 1],
    .addPeer ("10.0.0.3".toList, 8333) false true 5500 [0, 0, 0, 0, 0, 0, 0, 2],
    .read 0 (.data (addrFrame Hashes.toy [1, 2, 3, 4] someIp 8333)) 6000,
    .items (11 * second) [⟨false, 0, true, 7000, [0, 0, 0, 0, 0, 0, 0, 3]⟩] 0]

example : (((node0 .py3 125).run Hashes.toy threePeers).conns.map (fun k => (k.address.1, k.isOpen))) =
    [("10.0.0.2".toList, true), ("10.0.0.3".toList, true), ("1.2.3.4".toList, true)] := by
  decide +kernel

example : ∀ e ∈ threePeers, Fair2 e := by
  intro e he
  simp only [threePeers, List.mem_cons, List.not_mem_nil, or_false] at he
  rcases he with rfl | rfl | rfl | rfl
  · refine ⟨fun a h => ?_, by unfold Current; decide, rfl⟩
    cases h
    exact ⟨⟨v4Prefix ++ [10, 0, 0, 2], by decide, by decide⟩, by unfold inRange; decide⟩
  · exact ⟨⟨⟨v4Prefix ++ [10, 0, 0, 3], by decide, by decide⟩, by unfold inRange; decide⟩, by unfold Current; decide, rfl⟩
  · trivial
  · intro e he
    rw [List.mem_singleton.1 he]
    exact ⟨by unfold Current; decide, rfl⟩

/-- C100 is false of an address with a name: the connection stays open and is asked for addresses, unintroduced. -/
theorem C100_first_false :
    let m := (node0 .py3 125).run Hashes.toy [.addPeer ("seed.example.org".toList, 8333) true true 5000
      [0, 0, 0, 0, 0, 0, 0, 1], .items (11 * second) [] 0]
    m.conns.map (fun k => (k.isOpen, k.out ++ k.sendBuf)) = [(true, wireFrame Hashes.toy [1, 2, 3, 4] "getaddr" [])] := by
  decide +kernel

end NBC.Props
