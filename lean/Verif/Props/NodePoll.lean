import Verif.Model.NodePoll
import Verif.Props.NodeBeat

/-!
# Property C149: the event loop goes on
-/

namespace NBC.Props
open NBC NBC.Spec NBC.Spec.Wire NBC.Proto NBC.P2P

variable {H : Hashes}

theorem readable_magic (n : Node) (c : Nat) (now now' : Int) (nonce : Bytes) :
    (n.readable H c now now' nonce).1.magic = n.magic := by
  have h := steps_same (steps_readable (H := H) (Q := fun _ _ _ => True) n c now now' nonce trivial)
  exact h.magic

/-- What `readable` leaves of a connection. -/
def Conn.polled (H : Hashes) (magic : Bytes) (t : Reading) (k : Conn) : Conn :=
  { k with
    sendBuf := if Idle k t.now then k.sendBuf ++ wireFrame H magic "ping" t.nonce else k.sendBuf
    lastPing := if Idle k t.now then t.now' else k.lastPing
    isOpen := if Silent k t.now then false else k.isOpen }

theorem askAll_spec (reads : Nat → Reading) (hl : ∀ c, (reads c).nonce.length = 8) (cs : List Nat) (hd : cs.Nodup)
    (n : Node) (hm : n.magic.length = 4) (hc : ∀ c ∈ cs, ∃ k, n.conns[c]? = some k) :
    ∃ m asked, n.askAll H reads cs = (m, .ok asked) ∧ m.magic = n.magic ∧
      (∀ c ∈ cs, ∀ k, n.conns[c]? = some k → m.conns[c]? = some (Conn.polled H n.magic (reads c) k)) ∧
      (∀ c, c ∉ cs → m.conns[c]? = n.conns[c]?) ∧
      ∀ c, c ∈ asked ↔ c ∈ cs ∧ ∃ k, n.conns[c]? = some k ∧
        (¬ Silent k (reads c).now ∨ (Conn.polled H n.magic (reads c) k).sendBuf ≠ []) := by
  induction cs generalizing n with
  | nil => exact ⟨n, [], rfl, rfl, (fun c hc => by cases hc), (fun _ _ => rfl), fun c => by simp⟩
  | cons c cs ih =>
    obtain ⟨k, hk⟩ := hc c (List.mem_cons_self ..)
    have hp := C78_poll (H := H) n c k (reads c).now (reads c).now' (reads c).nonce (hl c) hm hk
    have hmag := readable_magic (H := H) n c (reads c).now (reads c).now' (reads c).nonce
    obtain ⟨h1, h2, h3⟩ := hp
    rw [List.nodup_cons] at hd
    rw [Node.askAll, Node.ask]
    generalize hr : n.readable H c (reads c).now (reads c).now' (reads c).nonce = r at h1 h2 h3 hmag
    obtain ⟨n1, b⟩ := r
    simp only at h1 h2 h3 hmag
    subst h1
    have hw : ((n1.conns[c]?).map Conn.writable).getD false =
        decide ((Conn.polled H n.magic (reads c) k).sendBuf ≠ []) := by
      rw [h2, Option.map_some, Option.getD_some, Bool.eq_iff_iff, C69_writable, decide_eq_true_eq]
      rfl
    have hne : ∀ i ∈ cs, i ≠ c := fun i hi e => hd.1 (e ▸ hi)
    obtain ⟨m, asked, e1, e0, e2, e3, e4⟩ := ih hd.2 n1 (by rw [hmag]; exact hm) (fun i hi => by
      rw [h3 i (hne i hi)]
      exact hc i (List.mem_cons_of_mem _ hi))
    simp only [e1, hw]
    refine ⟨_, _, rfl, e0.trans hmag, ?_, ?_, ?_⟩
    · intro i hi ki hki
      rcases List.mem_cons.1 hi with rfl | hi'
      · rw [e3 i hd.1, h2]
        rw [hk] at hki
        cases hki
        rfl
      · rw [← hmag]
        exact e2 i hi' ki (by rw [h3 i (hne i hi')]; exact hki)
    · intro i hi
      rw [List.mem_cons, not_or] at hi
      rw [e3 i hi.2, h3 i hi.1]
    · intro i
      have hcond : (!decide (Silent k (reads c).now) || decide ((Conn.polled H n.magic (reads c) k).sendBuf ≠ [])) = true ↔
          (¬ Silent k (reads c).now ∨ (Conn.polled H n.magic (reads c) k).sendBuf ≠ []) := by
        rw [Bool.or_eq_true, Bool.not_eq_true', decide_eq_false_iff_not, decide_eq_true_eq]
      have htail : i ∈ asked ↔ i ∈ cs ∧ ∃ k, n.conns[i]? = some k ∧
          (¬ Silent k (reads i).now ∨ (Conn.polled H n.magic (reads i) k).sendBuf ≠ []) := by
        rw [e4 i, hmag]
        constructor
        · rintro ⟨hi, k', hk', h⟩
          exact ⟨hi, k', by rw [← h3 i (hne i hi)]; exact hk', h⟩
        · rintro ⟨hi, k', hk', h⟩
          exact ⟨hi, k', by rw [h3 i (hne i hi)]; exact hk', h⟩
      by_cases hcc : (!decide (Silent k (reads c).now) || decide ((Conn.polled H n.magic (reads c) k).sendBuf ≠ [])) = true
      · rw [if_pos hcc, List.mem_cons, htail, List.mem_cons]
        constructor
        · rintro (rfl | ⟨hi, h⟩)
          · exact ⟨.inl rfl, k, hk, hcond.1 hcc⟩
          · exact ⟨.inr hi, h⟩
        · rintro ⟨rfl | hi, h⟩
          · exact .inl rfl
          · exact .inr ⟨hi, h⟩
      · rw [if_neg hcc, htail, List.mem_cons]
        constructor
        · rintro ⟨hi, h⟩
          exact ⟨.inr hi, h⟩
        · rintro ⟨rfl | hi, h⟩
          · obtain ⟨k', hk', h⟩ := h
            rw [hk] at hk'
            cases hk'
            exact absurd (hcond.2 h) hcc
          · exact ⟨hi, h⟩

theorem peers_nodup (n : Node) : n.peers.Nodup := by
  unfold Node.peers
  exact List.nodup_range.filter _

/-- A connection that is closed by its poll while something is to be sent: three hours silent, and with output that
the socket has not taken or due for a ping. -/
def Fatal (k : Conn) (now : Int) : Prop := Silent k now ∧ (k.sendBuf ≠ [] ∨ Idle k now)

theorem polled_sendBuf (magic : Bytes) (t : Reading) (k : Conn) :
    (Conn.polled H magic t k).sendBuf ≠ [] ↔ k.sendBuf ≠ [] ∨ Idle k t.now := by
  unfold Conn.polled
  by_cases h : Idle k t.now
  · simp only [if_pos h]
    refine ⟨fun _ => .inr h, fun _ he => ?_⟩
    have := congrArg List.length he
    rw [List.length_append] at this
    have h2 : (wireFrame H magic "ping" t.nonce).length ≠ 0 := by
      unfold wireFrame
      simp
    simp at this
    exact h2 (by rw [this.2]; rfl)
  · simp only [if_neg h]
    exact ⟨.inl, fun h' => h'.resolve_right h⟩

theorem poll_spec (n : Node) (hm : n.magic.length = 4) (t : Turn) (hl : ∀ c, (t.reads c).nonce.length = 8) :
    let m := n.step H (.items t.now t.envs t.choice)
    (n.poll H t).1.magic = n.magic ∧
    ((∃ c ∈ m.peers, ∃ k, m.conns[c]? = some k ∧ Fatal k (t.reads c).now) →
      (n.poll H t).2 = .error .ioError) ∧
    ((∀ c ∈ m.peers, ∀ k, m.conns[c]? = some k → ¬ Fatal k (t.reads c).now) →
      ∃ asked, (n.poll H t).2 = .ok asked ∧ ∀ c, c ∈ asked ↔ c ∈ (n.poll H t).1.peers) := by
  intro m
  have hi := (C98_loop (H := H) n hm).1 t.now t.envs t.choice
  have hmm' : m.magic = n.magic := by
    exact (steps2_same (steps2_step (H := H) (Q := fun _ _ _ => True) n (.items t.now t.envs t.choice)
      (fun _ _ _ _ => trivial))).magic
  have hmm : m.magic.length = 4 := by rw [hmm']; exact hm
  have hpoll : n.poll H t = match m.askAll H t.reads m.peers with
      | (n, .error e) => (n, .error e)
      | (n, .ok asked) =>
        match n.select asked with
        | .error e => (n, .error e)
        | .ok _ => (n, .ok asked) := by
    have hm1 : m = (n.items H t.now t.envs t.choice).1 := rfl
    unfold Node.poll
    generalize n.items H t.now t.envs t.choice = r at hi hm1
    obtain ⟨n1, e⟩ := r
    cases hi
    rw [hm1]
    rfl
  obtain ⟨m1, asked, e1, e0, e2, e3, e4⟩ := askAll_spec (H := H) t.reads hl m.peers (peers_nodup m) m hmm
    (fun c hc => by obtain ⟨k, hk, -⟩ := mem_peers.1 hc; exact ⟨k, hk⟩)
  rw [e1] at hpoll
  simp only at hpoll
  have hopen : ∀ c ∈ asked, ∃ k, m.conns[c]? = some k ∧
      ((((m1.conns[c]?).map (·.isOpen)).getD false = true) ↔ ¬ Silent k (t.reads c).now) := by
    intro c hc
    obtain ⟨hcp, k, hk, -⟩ := (e4 c).1 hc
    refine ⟨k, hk, ?_⟩
    obtain ⟨k', hk', ho⟩ := mem_peers.1 hcp
    rw [hk] at hk'
    cases hk'
    rw [e2 c hcp k hk]
    unfold Conn.polled
    by_cases hs : Silent k (t.reads c).now
    · simp [hs]
    · simp [hs, ho]
  refine ⟨?_, ?_, ?_⟩
  · rw [hpoll]
    have : ∀ r : Py Unit, (match r with
        | .error e => (m1, (.error e : Py (List Nat)))
        | .ok _ => (m1, .ok asked)).1 = m1 := fun r => by cases r <;> rfl
    rw [this, e0, hmm']
  · rintro ⟨c, hc, k, hk, hs, hf⟩
    have hca : c ∈ asked := (e4 c).2 ⟨hc, k, hk, .inr ((polled_sendBuf _ _ _).2 hf)⟩
    have : m1.select asked = .error .ioError := by
      unfold Node.select
      rw [if_neg]
      intro hall
      obtain ⟨k', hk', h⟩ := hopen c hca
      rw [hk] at hk'
      cases hk'
      exact h.1 (List.all_eq_true.1 hall c hca) hs
    rw [hpoll, this]
  · intro hno
    have hall : m1.select asked = .ok () := by
      unfold Node.select
      rw [if_pos]
      rw [List.all_eq_true]
      intro c hc
      obtain ⟨hcp, k, hk, hor⟩ := (e4 c).1 hc
      obtain ⟨k', hk', h⟩ := hopen c hc
      rw [hk] at hk'
      cases hk'
      refine h.2 (fun hs => hno c hcp k hk ⟨hs, ?_⟩)
      rcases hor with h | h
      · exact absurd hs h
      · exact (polled_sendBuf _ _ _).1 h
    rw [hpoll, hall]
    refine ⟨asked, rfl, fun c => ?_⟩
    show c ∈ asked ↔ c ∈ m1.peers
    constructor
    · intro hc
      obtain ⟨hcp, k, hk, hor⟩ := (e4 c).1 hc
      obtain ⟨k', hk', h⟩ := hopen c hc
      rw [hk] at hk'
      cases hk'
      have hns : ¬ Silent k (t.reads c).now := fun hs => hno c hcp k hk ⟨hs, by
        rcases hor with h | h
        · exact absurd hs h
        · exact (polled_sendBuf _ _ _).1 h⟩
      have := h.2 hns
      refine mem_peers.2 ⟨_, e2 c hcp k hk, ?_⟩
      rw [e2 c hcp k hk] at this
      simpa using this
    · intro hc
      obtain ⟨k1, hk1, ho1⟩ := mem_peers.1 hc
      by_cases hcp : c ∈ m.peers
      · obtain ⟨k, hk, ho⟩ := mem_peers.1 hcp
        rw [e2 c hcp k hk] at hk1
        cases hk1
        refine (e4 c).2 ⟨hcp, k, hk, .inl (fun hs => ?_)⟩
        unfold Conn.polled at ho1
        simp [hs] at ho1
      · rw [e3 c hcp] at hk1
        exact absurd (mem_peers.2 ⟨k1, hk1, ho1⟩) hcp

/-- C149, exactly: a turn of the loop raises if and only if some connection, as it is after `items`, is fatal at its
poll; otherwise `select` waits for all connections that are still open, and for no others. -/
theorem C149_poll (n : Node) (hm : n.magic.length = 4) (t : Turn) (hl : ∀ c, (t.reads c).nonce.length = 8) :
    let m := n.step H (.items t.now t.envs t.choice)
    ((∃ c ∈ m.peers, ∃ k, m.conns[c]? = some k ∧ Fatal k (t.reads c).now) →
      (n.poll H t).2 = .error .ioError) ∧
    ((∀ c ∈ m.peers, ∀ k, m.conns[c]? = some k → ¬ Fatal k (t.reads c).now) →
      ∃ asked, (n.poll H t).2 = .ok asked ∧ ∀ c, c ∈ asked ↔ c ∈ (n.poll H t).1.peers) :=
  (poll_spec n hm t hl).2

/-- What `items` leaves of a connection there is. -/
theorem items_conn (n : Node) (hm : n.magic.length = 4) (now : Int) (envs : List AnyEnv) (choice : Nat)
    (c : Nat) (k : Conn) (hk : n.conns[c]? = some k) :
    let m := n.step H (.items now envs choice)
    ∃ b extra, m.conns[c]? = some { k with sendBuf := k.sendBuf ++ extra, banscore := b } ∧
      (now - n.lastHeartbeat > 10 * second → n.peers[choice % n.peers.length]? = some c → m.addresses.length < 50 →
        extra ≠ []) := by
  intro m
  by_cases h : now - n.lastHeartbeat > 10 * second
  · obtain ⟨p, hp, hs⟩ := items_spec (H := H) n hm now envs choice h
    have hpk : p.conns[c]? = some k := by
      rw [hp]
      exact (addSome_old _ { n with lastHeartbeat := now } c (List.getElem?_eq_some_iff.1 hk).1).trans hk
    have key : ∀ q : Node, m = n.peers.foldl (fun n c => n.upd c (fun k => k.reduceBanscore)) q →
        ∀ extra, q.conns[c]? = some { k with sendBuf := k.sendBuf ++ extra } →
        ∃ b, m.conns[c]? = some { k with sendBuf := k.sendBuf ++ extra, banscore := b } := by
      intro q hq extra hkq
      have := reduce_conns n.peers (peers_nodup n) q c
      rw [← hq, hkq] at this
      by_cases hc : c ∈ n.peers
      · simp only [Option.map_some, if_pos hc] at this
        exact ⟨_, this⟩
      · simp only [Option.map_some, if_neg hc] at this
        exact ⟨_, this⟩
    have hadr : m.addresses = p.addresses := by
      have hs : m = _ := hs
      rw [hs, (reduce_same n.peers _).2.2]
      split
      · split <;> rfl
      · rfl
    rw [hadr]
    have h0 : ({ k with sendBuf := k.sendBuf ++ [] } : Conn) = k := by rw [List.append_nil]
    by_cases hx : n.peers[choice % n.peers.length]? = some c ∧ p.addresses.length < 50
    · rw [hx.1] at hs
      simp only [if_pos hx.2] at hs
      obtain ⟨b, hb⟩ := key _ hs _ (conns_upd_self p c _ hpk)
      refine ⟨b, _, hb, fun _ _ _ he => ?_⟩
      have := congrArg List.length he
      unfold wireFrame at this
      simp at this
    · have : ∃ b, m.conns[c]? = some { k with sendBuf := k.sendBuf ++ [], banscore := b } := by
        refine key _ hs [] ?_
        rw [h0]
        cases hc : n.peers[choice % n.peers.length]? with
        | none => exact hpk
        | some c' =>
          simp only
          split
          · rename_i hlt
            have hne : c' ≠ c := fun e => hx ⟨by rw [hc, e], hlt⟩
            rw [conns_upd, hpk]
            simp [hne]
          · exact hpk
      obtain ⟨b, hb⟩ := this
      exact ⟨b, [], hb, fun _ h1 h2 => absurd ⟨h1, h2⟩ hx⟩
  · have : m = n := (C101_items n now envs choice).1 (by omega)
    rw [this]
    exact ⟨k.banscore, [], by rw [List.append_nil]; exact hk, fun h' => absurd h' h⟩

/-- C149, false: a peer that is connected, reads, and says nothing for three hours ends the loop if the heartbeat of
that turn chooses it to ask for addresses: always if it is the only peer, and otherwise with probability one over the
number of peers. -/
theorem C149_heartbeat_false (n : Node) (hm : n.magic.length = 4) (t : Turn) (hl : ∀ c, (t.reads c).nonce.length = 8)
    (hb : t.now - n.lastHeartbeat > 10 * second)
    (ha : (n.step H (.items t.now t.envs t.choice)).addresses.length < 50) (c : Nat) (k : Conn)
    (hk : n.conns[c]? = some k) (ho : k.isOpen = true) (hs : Silent k (t.reads c).now)
    (hc : n.peers[t.choice % n.peers.length]? = some c) :
    (n.poll H t).2 = .error .ioError := by
  obtain ⟨b, extra, h1, h2⟩ := items_conn (H := H) n hm t.now t.envs t.choice c k hk
  refine (C149_poll n hm t hl).1 ⟨c, mem_peers.2 ⟨_, h1, ho⟩, _, h1, hs, .inl ?_⟩
  intro he
  exact h2 hb hc ha (List.append_eq_nil_iff.1 he).2

/-- C149, false: a peer that stops reading and says nothing for three hours ends the loop, whatever else happens. -/
theorem C149_unread_false (n : Node) (hm : n.magic.length = 4) (t : Turn) (hl : ∀ c, (t.reads c).nonce.length = 8)
    (c : Nat) (k : Conn) (hk : n.conns[c]? = some k) (ho : k.isOpen = true) (hs : Silent k (t.reads c).now)
    (hq : k.sendBuf ≠ []) : (n.poll H t).2 = .error .ioError := by
  obtain ⟨b, extra, h1, -⟩ := items_conn (H := H) n hm t.now t.envs t.choice c k hk
  refine (C149_poll n hm t hl).1 ⟨c, mem_peers.2 ⟨_, h1, ho⟩, _, h1, hs, .inl ?_⟩
  intro he
  exact hq (List.append_eq_nil_iff.1 he).1

/-- C149, false: a computer that sleeps for more than three hours has lost its node: the first turn after it raises,
if there is any connection on which something was received, something was sent and, if pings were sent, no ping since. -/
theorem C149_sleep_false (n : Node) (hm : n.magic.length = 4) (t : Turn) (hl : ∀ c, (t.reads c).nonce.length = 8)
    (T : Int) (hT : ∀ c, (t.reads c).now - T > 3 * 60 * 60 * second) (c : Nat) (k : Conn) (hk : n.conns[c]? = some k)
    (ho : k.isOpen = true) (hr : k.lastRx ≠ 0 ∧ k.lastRx ≤ T) (hx : k.lastTx ≠ 0 ∧ k.lastTx ≤ T) (hp : k.lastPing ≤ T) :
    (n.poll H t).2 = .error .ioError := by
  obtain ⟨b, extra, h1, -⟩ := items_conn (H := H) n hm t.now t.envs t.choice c k hk
  have hTc := hT c
  unfold second at hTc
  refine (C149_poll n hm t hl).1 ⟨c, mem_peers.2 ⟨_, h1, ho⟩, _, h1, ⟨hr.1, ?_⟩, .inr ⟨hx.1, ?_, ?_⟩⟩
  · show (t.reads c).now - k.lastRx > _
    unfold second
    omega
  · show (t.reads c).now - k.lastTx > _
    unfold second
    omega
  · show (t.reads c).now - k.lastPing > _
    unfold second
    omega

/-- Every open connection has been heard within three hours of its polls, or never; and the listener is open. -/
def Heard (H : Hashes) : Node → List Turn → Prop
  | _, [] => True
  | n, t :: ts => n.listening = true ∧
      (∀ c k, (n.step H (.items t.now t.envs t.choice)).conns[c]? = some k → k.isOpen = true →
        ¬ Silent k (t.reads c).now) ∧
      Heard H ((n.poll H t).1.run H t.calls) ts

/-- C149, what holds: while the listener is open and no connection goes silent for three hours, the loop goes on,
whatever is sent and called.  What is missing is a connection that does, as above. -/
theorem C149_loop_partial (n : Node) (hm : n.magic.length = 4) (ts : List Turn)
    (hl : ∀ t ∈ ts, ∀ c, (t.reads c).nonce.length = 8) (hh : Heard H n ts) : (n.loop H ts).2 = .running := by
  induction ts generalizing n with
  | nil => rfl
  | cons t ts ih =>
    obtain ⟨h1, h2, h3⟩ := hh
    have ht : n.truthy = true := by
      unfold Node.truthy Node.mapSize
      rw [h1]
      split
      · rfl
      · exact decide_eq_true (by simp only [if_true]; omega)
    obtain ⟨asked, ha, -⟩ := (C149_poll n hm t (hl t (List.mem_cons_self ..))).2 (fun c hc k hk hf => by
      obtain ⟨k', hk', ho⟩ := mem_peers.1 hc
      rw [hk] at hk'
      cases hk'
      exact h2 c k hk ho hf.1)
    rw [Node.loop, if_pos ht]
    have hmag := (poll_spec (H := H) n hm t (hl t (List.mem_cons_self ..))).1
    generalize n.poll H t = r at ha h3 hmag
    obtain ⟨n1, a⟩ := r
    cases ha
    refine ih _ ?_ (fun t ht => hl t (List.mem_cons_of_mem _ ht)) h3
    rw [(run_event (H := H) n1 t.calls).magic]
    exact hmag ▸ hm

theorem ask_ver (n : Node) (c : Nat) (t : Reading) : (n.ask H c t).1.ver = n.ver := by
  have h := (steps_same (steps_readable (H := H) (Q := fun _ _ _ => True) n c t.now t.now' t.nonce trivial)).ver
  unfold Node.ask
  generalize n.readable H c t.now t.now' t.nonce = r at h
  obtain ⟨m, b⟩ := r
  cases b <;> exact h

theorem askAll_ver (reads : Nat → Reading) (cs : List Nat) (n : Node) : (n.askAll H reads cs).1.ver = n.ver := by
  induction cs generalizing n with
  | nil => rfl
  | cons c cs ih =>
    have h := ask_ver (H := H) n c (reads c)
    rw [Node.askAll]
    generalize n.ask H c (reads c) = r at h
    obtain ⟨m, b⟩ := r
    cases b with
    | error e => exact h
    | ok b =>
      have h2 := ih m
      simp only
      generalize m.askAll H reads cs = q at h2
      obtain ⟨m2, b2⟩ := q
      cases b2 <;> exact h2.trans h

theorem poll_ver (n : Node) (t : Turn) : (n.poll H t).1.ver = n.ver := by
  have h1 : (n.items H t.now t.envs t.choice).1.ver = n.ver :=
    (steps2_same (steps2_step (H := H) (Q := fun _ _ _ => True) n (.items t.now t.envs t.choice)
      (fun _ _ _ _ => trivial))).ver
  unfold Node.poll
  generalize n.items H t.now t.envs t.choice = r at h1
  obtain ⟨m, b⟩ := r
  cases b with
  | some e => exact h1
  | none =>
    have h2 := askAll_ver (H := H) t.reads m.peers m
    simp only
    generalize m.askAll H t.reads m.peers = q at h2
    obtain ⟨m2, b2⟩ := q
    cases b2 with
    | error e => exact h2.trans h1
    | ok asked =>
      simp only
      cases m2.select asked <;> exact h2.trans h1

theorem truthy_iff (n : Node) : n.truthy = false ↔ n.ver = .py3 ∧ n.listening = false ∧ n.peers = [] := by
  have hp : n.peers = [] ↔ n.openConns.length = 0 := by
    rw [← List.length_eq_zero_iff, peers_length, List.countP_eq_length_filter]
    rfl
  unfold Node.truthy Node.mapSize
  rw [hp]
  cases n.ver with
  | py2 => simp
  | py3 =>
    cases n.listening
    · simp
    · simp

/-- C149: the loop returns, without being asked to, only under Python 3 and only when the listener and all
connections are closed, and then it does; under Python 2 it never does. -/
theorem C149_returns (n : Node) (ts : List Turn) :
    ((n.loop H ts).2 = .returned → n.ver = .py3 ∧ (n.loop H ts).1.listening = false ∧ (n.loop H ts).1.peers = []) ∧
    (n.ver = .py3 → n.listening = false → n.peers = [] → ts ≠ [] → n.loop H ts = (n, .returned)) := by
  constructor
  · intro h
    induction ts generalizing n with
    | nil => cases h
    | cons t ts ih =>
      rw [Node.loop] at h ⊢
      by_cases ht : n.truthy = true
      · rw [if_pos ht] at h ⊢
        have hv := poll_ver (H := H) n t
        generalize n.poll H t = r at h hv ⊢
        obtain ⟨m, b⟩ := r
        cases b with
        | error e => cases h
        | ok a =>
          obtain ⟨i1, i2⟩ := ih (m.run H t.calls) h
          refine ⟨?_, i2⟩
          have hr : (m.run H t.calls).ver = m.ver := by
            have : ∀ (es : List Event) (m : Node), (m.run H es).ver = m.ver := by
              intro es
              induction es with
              | nil => exact fun _ => rfl
              | cons e es ih =>
                intro m
                rw [run_cons, ih]
                exact (steps2_same (steps2_step (H := H) (Q := fun _ _ _ => True) m e (fun _ _ _ _ => trivial))).ver
            exact this t.calls m
          rw [← hv, ← hr]
          exact i1
      · rw [if_neg ht]
        exact (truthy_iff n).1 (Bool.not_eq_true _ ▸ ht)
  · intro h1 h2 h3 h4
    cases ts with
    | nil => exact absurd rfl h4
    | cons t ts =>
      rw [Node.loop, if_neg (by rw [(truthy_iff n).2 ⟨h1, h2, h3⟩]; decide)]

/-- The reading of a turn at time `T`. -/
def at' (T : Int) : Nat → Reading := fun _ => ⟨T, T, [0, 0, 0, 0, 0, 0, 0, 9]⟩

/-- C149, false: a history in which a peer connects, is greeted, takes all that it is sent, says `ping` and nothing more
for three hours. -/
theorem C149_loop_false (ver : Aes.PyVer) : ((node0 ver 125).loop Hashes.toy
    [⟨20 * second, [], 0, at' (20 * second), [.accept (some ("10.0.0.2".toList, 4000)) (21 * second) (21 * second) [0, 0, 0, 0, 0, 0, 0, 1]]⟩,
      ⟨25 * second, [], 0, at' (25 * second), [.write 0 (.sent 1000) (26 * second),
        .read 0 (.data (wireFrame Hashes.toy [1, 2, 3, 4] "ping" [1, 2, 3, 4, 5, 6, 7, 8])) (26 * second)]⟩,
      ⟨26 * second, [], 0, at' (26 * second), [.write 0 (.sent 1000) (27 * second)]⟩,
      ⟨10800 * second, [], 0, at' (10800 * second), [.write 0 (.sent 1000) (10801 * second)]⟩,
      ⟨10830 * second, [], 0, at' (10830 * second), []⟩]).2 = .raised .ioError := by
  cases ver <;> decide +kernel

/-- A node that goes on: its peer says something in time. -/
example : ((node0 .py3 125).loop Hashes.toy
    [⟨20 * second, [], 0, at' (20 * second), [.accept (some ("10.0.0.2".toList, 4000)) (21 * second) (21 * second) [0, 0, 0, 0, 0, 0, 0, 1]]⟩,
      ⟨25 * second, [], 0, at' (25 * second), [.write 0 (.sent 1000) (26 * second),
        .read 0 (.data (wireFrame Hashes.toy [1, 2, 3, 4] "ping" [1, 2, 3, 4, 5, 6, 7, 8])) (26 * second)]⟩,
      ⟨10800 * second, [], 0, at' (10800 * second), [.write 0 (.sent 1000) (10801 * second),
        .read 0 (.data (wireFrame Hashes.toy [1, 2, 3, 4] "ping" [1, 2, 3, 4, 5, 6, 7, 8])) (10801 * second)]⟩,
      ⟨10830 * second, [], 0, at' (10830 * second), []⟩]).2 = .running := by
  decide +kernel

/-- A node bound to all interfaces, under Python 3: one connection comes (which closes the listener, C98) and goes. -/
example : ((Node.init .py3 [1, 2, 3, 4] 70002 0 "/nbc/".toList ([], 9333) true 16 125 []).loop Hashes.toy
    [⟨20 * second, [], 0, at' (20 * second), [.accept (some ("10.0.0.2".toList, 4000)) (21 * second) (21 * second) [0, 0, 0, 0, 0, 0, 0, 1]]⟩,
      ⟨25 * second, [], 0, at' (25 * second), [.read 0 (.data []) (26 * second)]⟩,
      ⟨26 * second, [], 0, at' (26 * second), []⟩]).2 = .returned := by
  decide +kernel

/-! ### C77 -/

theorem newIncoming_count (n : Node) (a : Addr) (now : Int) (nonce : Bytes) :
    mapCount (n.newIncoming H a now nonce).1 = mapCount n + 1 ∧ (n.newIncoming H a now nonce).1.banned = n.banned := by
  have h0 : mapCount { n with conns := n.conns ++ [{ address := a, incoming := true }] } = mapCount n + 1 := by
    unfold mapCount
    simp only [List.countP_append, List.countP_cons, List.countP_nil]
    simp
    omega
  have hu : ∀ (m : Node) (c : Nat) (b : Bytes), mapCount (m.upd c (fun k => { k with sendBuf := k.sendBuf ++ b })) = mapCount m := by
    intro m c b
    unfold mapCount Node.upd
    congr 1
    have key : ∀ (l : List Conn) (c : Nat),
        (l.modify c (fun k => { k with sendBuf := k.sendBuf ++ b })).countP (·.isOpen) = l.countP (·.isOpen) := by
      intro l
      induction l with
      | nil => intro c; cases c <;> rfl
      | cons k l ih =>
        intro c
        cases c with
        | zero => rw [List.modify_zero_cons, List.countP_cons, List.countP_cons]
        | succ c => rw [List.modify_succ_cons, List.countP_cons, List.countP_cons, ih]
    exact key m.conns c
  unfold Node.newIncoming Node.greet
  simp only
  split
  · exact ⟨h0, rfl⟩
  · unfold Node.sendMessage
    split
    · exact ⟨h0, rfl⟩
    · exact ⟨(hu _ _ _).trans h0, rfl⟩

/-- C77: `handle_accept` has no limit: whatever `max_peers` is, with as many incoming connections as one likes the map
grows to any size.  (`select` fails for file numbers from `FD_SETSIZE`, 1024, on.) -/
theorem C77_unbounded (n : Node) (agent : Bytes) (hn : Presentable n agent) (hc : n.conns = [])
    (hg : IsIp n.guessedIp) (hx : n.externalIp = []) (hl : n.listening = true) (hi : n.listen = true)
    (hb : n.banned = []) (a : Addr) (ha : IsAddr a) (now : Int) (hnow : Current now) (nonce : Bytes)
    (hno : nonce.length = 8) (N : Nat) :
    mapCount (n.run H (List.replicate N (.accept (some a) now now nonce))) = N + 1 := by
  have key : ∀ N, let m := n.run H (List.replicate N (.accept (some a) now now nonce))
      mapCount m = N + 1 ∧ m.banned = [] ∧ m.listen = true ∧ m.listening = true := by
    intro N
    have hlis : ∀ N, (n.run H (List.replicate N (.accept (some a) now now nonce))).listening = true := fun N =>
      C98_listening_partial (H := H) n agent hn hc hg hx hl _ (fun e he => by
        rw [List.eq_of_mem_replicate he]
        exact ⟨fun b hb => by cases hb; exact ha, hnow, hno⟩)
    induction N with
    | zero =>
      refine ⟨?_, hb, hi, hl⟩
      show mapCount n = 1
      unfold mapCount
      rw [hc, hl]
      rfl
    | succ N ih =>
      obtain ⟨i1, i2, i3, i4⟩ := ih
      have h2 := hlis (N + 1)
      rw [List.replicate_succ', run_append] at h2 ⊢
      generalize n.run H (List.replicate N (.accept (some a) now now nonce)) = m at i1 i2 i3 i4 h2 ⊢
      have hstep : m.run H [.accept (some a) now now nonce] = m.step H (.accept (some a) now now nonce) := rfl
      rw [hstep] at h2 ⊢
      have hset := (steps2_same (steps2_step (H := H) (Q := fun _ _ _ => True) m (.accept (some a) now now nonce)
        (fun _ _ _ _ => trivial))).listen
      refine ⟨?_, ?_, hset.trans i3, h2⟩
      all_goals
        obtain ⟨c1, c2⟩ := newIncoming_count (H := H) m a now nonce
        unfold Node.step at h2 ⊢
        simp only [if_pos i4] at h2 ⊢
        have hacc : m.handleAccept H (some a) now now nonce = m.newIncoming H a now nonce := by
          unfold Node.handleAccept Node.banCheck
          simp [i2, dictGet, i3]
        rw [hacc] at h2 ⊢
        generalize m.newIncoming H a now nonce = r at c1 c2 h2 ⊢
        obtain ⟨m', e⟩ := r
        cases e with
        | some e => cases h2
        | none =>
          first
            | exact c1.trans (by rw [i1])
            | exact c2.trans i2
  exact (key N).1

/-- Two thousand connections, for a node of at most one peer. -/
example : mapCount ((node0 .py3 1).run Hashes.toy (List.replicate 2000
    (.accept (some ("10.0.0.2".toList, 4000)) 5000 5000 [0, 0, 0, 0, 0, 0, 0, 1]))) = 2001 :=
  C77_unbounded (node0 .py3 1) _ (node0_presentable _ _) rfl ip_10_0_0_1 rfl rfl rfl rfl _
    ⟨⟨v4Prefix ++ [10, 0, 0, 2], by decide, by decide⟩, by unfold inRange; decide⟩ 5000
    (by unfold Current; decide) _ rfl 2000

end NBC.Props
