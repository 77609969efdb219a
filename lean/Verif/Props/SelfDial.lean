import Verif.Props.TwoNodes
import Verif.Props.Gossip

/-!
# C161: who is at the other end

The version message carries a random nonce, by which a node can recognise a connection to itself, and opens the handshake.
What does the node make of it?
-/

namespace NBC.Props
open NBC NBC.Spec NBC.Spec.Wire NBC.Proto NBC.P2P

variable {H : Hashes}

theorem says_info {m : Msg} {ip : List Char} {s h u v r : Val} (hs : Says m ip s h u v r) :
    versionInfo m.fields = .ok (fun k => { k with
      services := s, startHeight := h, userAgent := u, version := v, relay := r, externalIp := some ip }) := by
  obtain ⟨⟨fields, h1, h2⟩, h3, h4, h5, h6, h7⟩ := hs
  unfold versionInfo
  rw [h3, ok_bind, h4, ok_bind, h5, ok_bind, h6, ok_bind, h7, ok_bind, h1, ok_bind]
  unfold attr
  simp only [h2, ok_bind]
  rfl

/-- Two version messages that say the same, whatever their nonces, times and senders' addresses, do the same. -/
theorem version_same (n : Node) (c : Nat) (now : Int) (f f' : Bytes) (m m' : Msg) (hp : parseMessage H f n.magic = .ok m)
    (hp' : parseMessage H f' n.magic = .ok m') (hc : m.command = "version") (hc' : m'.command = "version") {ip : List Char}
    {s h u v r : Val} (hs : Says m ip s h u v r) (hs' : Says m' ip s h u v r) :
    n.handleFrame H c now f = n.handleFrame H c now f' := by
  unfold Node.handleFrame
  rw [hp, hp']
  simp only
  unfold Node.handleMessage Node.dispatch
  simp only [hc, hc', if_true, says_info hs, says_info hs', show ("version" : String) ≠ "ping" by decide, if_false]

/-- **C161 is false**: the nonce is not looked at.  A node that receives a greeting with its own nonce does what it does for
any other nonce. -/
theorem C161_nonce_false (n m : Node) (agent : Bytes) (hm : Presentable m agent) (hn : n.magic = m.magic) (c : Nat) (now : Int)
    (peer own : Bytes) (hp : peer.length = 16) (ho : own.length = 16) (port at' : Int) (hport : inRange .H port)
    (hat : Current at') (nonce nonce' : Bytes) (hl : nonce.length = 8) (hl' : nonce'.length = 8) :
    n.handleFrame H c now (greeting H m agent peer own port at' nonce) =
      n.handleFrame H c now (greeting H m agent peer own port at' nonce') := by
  obtain ⟨-, a, ha, hav, has⟩ := greeting_parsed (H := H) hm hp ho hport hat hl
  obtain ⟨-, b, hb, hbv, hbs⟩ := greeting_parsed (H := H) hm hp ho hport hat hl'
  rw [← hn] at ha hb
  exact version_same n c now _ _ a b ha hb hav hbv has hbs

/-- **C161 is false**: two connections of one node that lead to each other complete the handshake, and the node knows itself
as a peer at both ends. -/
theorem C161_self_false (n : Node) (agent : Bytes) (hn : Starts n agent) (es : List Event) (hes : ∀ e ∈ es, Fair2 e) (a b : Nat)
    (ho : Owner (fun t => t.command ≠ "version") a es) (ho' : Owner (fun t => t.command ≠ "version") b es) (k k' : Conn)
    (hk : (n.run H es).conns[a]? = some k) (hk' : (n.run H es).conns[b]? = some k') (hop : k.isOpen = true)
    (hop' : k'.isOpen = true) (hs : n.stream H es b = k.out) (hs' : n.stream H es a = k'.out) (hb : k.sendBuf = [])
    (hb' : k'.sendBuf = []) : k.verack = true ∧ k'.verack = true ∧ Knows k n agent k'.address ∧ Knows k' n agent k.address :=
  C124_handshake n n agent agent hn hn rfl es es hes hes a b ho ho' k k' hk hk' hop hop' hs hs' hb hb'

/-- **C161 is false**: a peer that has not said a word of the handshake is heard.  It fills the address book and its pings
are answered. -/
theorem C161_early_false (n : Node) (c : Nat) (now : Int) (k : Conn) (hk : n.conns[c]? = some k) (_ : k.version = .none)
    (_ : k.verack = false) (hm : n.magic.length = 4) (t : Told) (ht : t.Fits) (hr : n.addresses.length ≤ 2500) (nonce : Bytes)
    (hl : nonce.length = 8) :
    dictGet (n.handleFrame H c now (addrMany H n.magic [t])).addresses t.key = some t.value ∧
    (n.handleFrame H c now (wireFrame H n.magic "ping" nonce)).conns[c]? =
      some { k with sendBuf := k.sendBuf ++ wireFrame H n.magic "pong" nonce } := by
  constructor
  · have := (C143_told (H := H) n c now hm [t] (by simpa using ht) (by simp) (by simp; omega)).2 t.key
    rw [this]
    simp [lastTold]
  · rw [C73_pong n c now nonce hl hm, conns_upd, hk]
    simp

/-- C161, what holds: a node never dials the address it is bound to while it listens there, whatever happens to it and
whoever names that address. -/
theorem C161_bound_partial (n : Node) (hn : n.conns = []) (es : List Event) (c : Nat) (k : Conn)
    (hk : (n.run H es).conns[c]? = some k) (ho : k.isOpen = true) (hi : k.incoming = false)
    (hl : (n.run H es).listening = true) : k.address ≠ n.address := by
  have h := (C77_distinct (H := H) n hn es).2 c k hk ho hi hl
  have ha : (n.run H es).address = n.address :=
    run_invariant (H := H) (fun m => m.address = n.address) (fun _ _ hp h => (prim2_same hp).address.trans h) n es rfl
  rwa [ha] at h

/-! ### A node that meets itself -/

/-- A node bound to 10.0.0.1 that dials the address under which its router shows it, and is connected to itself. -/
def meet1 : List Event :=
  [.addPeer ("10.0.0.2".toList, 9333) false true 5000 [0, 0, 0, 0, 0, 0, 0, 1],
    .accept (some ("10.0.0.2".toList, 40000)) 5000 5000 [0, 0, 0, 0, 0, 0, 0, 2], .write 0 (.sent 1000) 5000,
    .write 1 (.sent 1000) 5000]

/-- Each end reads what the other sent, and answers. -/
def meet2 : List Event :=
  meet1 ++ [.read 1 (.data (outOf ((node0 .py3 125).run Hashes.toy meet1) 0)) 6000,
    .read 0 (.data (outOf ((node0 .py3 125).run Hashes.toy meet1) 1)) 6000, .write 0 (.sent 1000) 6000,
    .write 1 (.sent 1000) 6000]

/-- The answers arrive. -/
def meet3 : List Event :=
  meet2 ++ [.read 1 (.data ((outOf ((node0 .py3 125).run Hashes.toy meet2) 0).drop
      (outOf ((node0 .py3 125).run Hashes.toy meet1) 0).length)) 6000,
    .read 0 (.data ((outOf ((node0 .py3 125).run Hashes.toy meet2) 1).drop
      (outOf ((node0 .py3 125).run Hashes.toy meet1) 1).length)) 6000]

/-- All that `C161_self_false` asks for but the fairness of the events, and the book now names the node itself. -/
example :
    let m := (node0 .py3 125).run Hashes.toy meet3
    m.conns.map (fun k => (k.isOpen, k.incoming, k.verack, k.sendBuf)) = [(true, false, true, []), (true, true, true, [])] ∧
    (node0 .py3 125).stream Hashes.toy meet3 1 = outOf m 0 ∧ (node0 .py3 125).stream Hashes.toy meet3 0 = outOf m 1 ∧
    m.addresses.map (·.1) = [("10.0.0.2".toList, 40000), ("10.0.0.2".toList, 9333)] := by
  decide +kernel

example : (∀ e ∈ meet3, Fair2 e) ∧ Owner (fun t => t.command ≠ "version") 0 meet3 ∧
    Owner (fun t => t.command ≠ "version") 1 meet3 := by
  refine ⟨fun e he => ?_, fun t f h => ?_, fun t f h => ?_⟩
  · simp only [meet3, meet2, meet1, List.cons_append, List.nil_append, List.mem_cons, List.not_mem_nil, or_false] at he
    rcases he with rfl | rfl | rfl | rfl | rfl | rfl | rfl | rfl | rfl | rfl
    · exact ⟨⟨ip_10_0_0_2, by unfold inRange; decide⟩, by unfold Current; decide, rfl⟩
    · refine ⟨fun a ha => ?_, by unfold Current; decide, rfl⟩
      cases ha
      exact ⟨ip_10_0_0_2, by unfold inRange; decide⟩
    all_goals trivial
  · simp [meet3, meet2, meet1] at h
  · simp [meet3, meet2, meet1] at h

/-- A connection whose peer has said nothing, for `C161_early_false` -/
example : let m := (node0 .py3 125).run Hashes.toy (meet1.take 2)
    (m.conns[1]?).map (fun k => (k.verack, match k.version with | .none => true | _ => false)) = some (false, true) ∧
    m.magic.length = 4 ∧ m.addresses.length ≤ 2500 := by
  decide +kernel

end NBC.Props
