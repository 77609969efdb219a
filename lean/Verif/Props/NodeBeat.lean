import Verif.Props.NodeLoop

/-!
# Properties C101 to C104: the heartbeat, receive buffers, scores, finding peers
-/

namespace NBC.Props
open NBC NBC.Spec NBC.Spec.Wire NBC.Proto NBC.P2P

variable {H : Hashes} {Q : Clock → Nat → Int → Prop}

/-! ### C101 -/

theorem beat_prim {n m : Node} (h : Prim2 H Q n m) : m.lastHeartbeat = n.lastHeartbeat ∨ Q .beat 0 m.lastHeartbeat := by
  cases h with
  | prim _ h =>
    cases h with
    | beat t hq => exact .inr hq
    | _ => exact .inl rfl
  | _ => exact .inl rfl

theorem beat_steps {n m : Node} (h : Steps2 H Q n m) : m.lastHeartbeat = n.lastHeartbeat ∨ Q .beat 0 m.lastHeartbeat := by
  induction h with
  | refl => exact .inl rfl
  | tail _ h ih =>
    rcases beat_prim h with h | h
    · rw [h]
      exact ih
    · exact .inr h

/-- C101: `items` does nothing within ten seconds of the last heartbeat, and notes the time otherwise. -/
theorem C101_items (n : Node) (now : Int) (envs : List AnyEnv) (choice : Nat) :
    (now - n.lastHeartbeat ≤ 10 * second → n.step H (.items now envs choice) = n) ∧
    (now - n.lastHeartbeat > 10 * second → (n.step H (.items now envs choice)).lastHeartbeat = now) := by
  refine ⟨fun h => ?_, fun h => ?_⟩
  · show (n.items H now envs choice).1 = n
    unfold Node.items
    rw [if_neg (by omega)]
  · show (n.items H now envs choice).1.lastHeartbeat = now
    unfold Node.items
    rw [if_pos h]
    rcases beat_steps (Q := fun w _ _ => w = .any) (steps_heartbeat (H := H) { n with lastHeartbeat := now } envs choice rfl).two
      with h | h
    · exact h
    · cases h

/-- C101: two heartbeats are more than ten seconds apart, whatever happens in between, if the clock does not go back. -/
theorem C101_spacing (n : Node) (t now : Int) (envs envs' : List AnyEnv) (choice choice' : Nat) (es : List Event)
    (ht : n.step H (.items t envs choice) ≠ n)
    (hes : ∀ e ∈ es, ∀ t' envs'' choice'', e = .items t' envs'' choice'' → t ≤ t')
    (hnow : (n.run H (.items t envs choice :: es)).step H (.items now envs' choice') ≠ n.run H (.items t envs choice :: es)) :
    now - t > 10 * second := by
  have h1 : (n.step H (.items t envs choice)).lastHeartbeat = t := by
    refine (C101_items n t envs choice).2 ?_
    by_contra h
    exact ht ((C101_items n t envs choice).1 (by omega))
  have h2 : t ≤ (n.run H (.items t envs choice :: es)).lastHeartbeat := by
    rw [run_cons]
    refine run_invariant_clock (Q := fun w _ t' => w = .beat → t ≤ t') (fun m => t ≤ m.lastHeartbeat) (fun a b hp ha => ?_)
      _ es (fun e he w c t' hw => ?_) (by omega)
    · rcases beat_prim hp with h | h
      · rw [h]
        exact ha
      · exact h rfl
    · rintro rfl
      cases e <;> try exact hw.elim
      cases hw
      exact hes _ he _ _ _ rfl
  have h3 : now - (n.run H (.items t envs choice :: es)).lastHeartbeat > 10 * second := by
    by_contra h
    exact hnow ((C101_items _ now envs' choice').1 (by omega))
  omega

theorem addPeer_length (n : Node) (a : Addr) (force connects : Bool) (now : Int) (nonce : Bytes) :
    (n.addPeer H a force connects now nonce).1.conns.length ≤ n.conns.length + 1 ∧
    (n.addPeer H a force connects now nonce).1.conns.countP (·.isOpen) ≤ n.conns.countP (·.isOpen) + 1 := by
  have h1 : (n.newOutgoing H a connects now nonce).1.conns.length ≤ n.conns.length + 1 := by
    unfold Node.newOutgoing
    simp only
    split
    · unfold Node.greet Node.sendMessage Node.upd
      split
      · simp
      · split <;> simp
    · unfold Node.handleClose Node.disconnected Node.upd
      split <;> simp
  have h2 : (n.newOutgoing H a connects now nonce).1.conns.countP (·.isOpen) ≤ n.conns.countP (·.isOpen) + 1 := by
    have h := newOutgoing_count (H := H) n a connects now nonce
    unfold mapCount at h
    have hl : (n.newOutgoing H a connects now nonce).1.listening = n.listening := by
      unfold Node.newOutgoing
      simp only
      split
      · unfold Node.greet Node.sendMessage Node.upd
        split
        · rfl
        · split <;> rfl
      · unfold Node.handleClose Node.disconnected Node.upd
        split <;> rfl
    rw [hl] at h
    omega
  unfold Node.addPeer
  split
  · exact ⟨by simp, by simp⟩
  split
  · exact ⟨by simp, by simp⟩
  · split <;> (rename_i e; rw [e] at h1 h2; exact ⟨h1, h2⟩)

theorem addAny_length (n : Node) (e : AnyEnv) :
    (n.addAnyPeer H e).conns.length ≤ n.conns.length + 1 ∧
    (n.addAnyPeer H e).conns.countP (·.isOpen) ≤ n.conns.countP (·.isOpen) + 1 := by
  unfold Node.addAnyPeer
  split
  · split
    · exact ⟨by simp, by simp⟩
    · exact addPeer_length ..
  · split
    · exact ⟨by simp, by simp⟩
    · exact addPeer_length ..

theorem addSome_length (es : List AnyEnv) (n : Node) :
    (n.addSome H es).conns.length ≤ n.conns.length + es.length ∧
    (n.addSome H es).conns.countP (·.isOpen) ≤ n.conns.countP (·.isOpen) + es.length := by
  induction es generalizing n with
  | nil => exact ⟨Nat.le_refl _, Nat.le_refl _⟩
  | cons e es ih =>
    have h1 := addAny_length (H := H) n e
    have h2 := ih (n.addAnyPeer H e)
    rw [Node.addSome, List.length_cons]
    omega

theorem peers_length (n : Node) : n.peers.length = n.conns.countP (·.isOpen) := by
  have key : ∀ (l : List Conn), ((List.range l.length).filter (fun c => ((l[c]?).map (·.isOpen)).getD false)).length =
      l.countP (·.isOpen) := by
    intro l
    induction l with
    | nil => rfl
    | cons k l ih =>
      rw [List.length_cons, List.range_succ_eq_map, List.filter_cons, List.filter_map, List.countP_cons, ← ih]
      have : (fun c => (((k :: l)[c]?).map (·.isOpen)).getD false) ∘ Nat.succ = fun c => ((l[c]?).map (·.isOpen)).getD false := by
        funext c
        simp
      rw [this]
      cases h : k.isOpen <;> simp [h]
  exact key n.conns

theorem reduce_same (l : List Nat) (n : Node) :
    let m := l.foldl (fun n c => n.upd c (fun k => k.reduceBanscore)) n
    m.conns.length = n.conns.length ∧ m.conns.countP (·.isOpen) ≤ n.conns.countP (·.isOpen) ∧ m.addresses = n.addresses := by
  induction l generalizing n with
  | nil => exact ⟨rfl, Nat.le_refl _, rfl⟩
  | cons c l ih =>
    obtain ⟨h1, h2, h3⟩ := ih (n.upd c (fun k => k.reduceBanscore))
    have h4 := countP_modify n.conns c (fun k => k.reduceBanscore) (fun k h => h)
    refine ⟨h1.trans (by unfold Node.upd; simp), Nat.le_trans h2 h4, h3⟩

/-- The state of a heartbeat after its first loop, and the rest of it (nothing is raised). -/
theorem items_spec (n : Node) (hm : n.magic.length = 4) (now : Int) (envs : List AnyEnv) (choice : Nat)
    (h : now - n.lastHeartbeat > 10 * second) :
    ∃ p : Node, p = ({ n with lastHeartbeat := now } : Node).addSome H (envs.take (min (n.seekPeers - n.peers.length) 5).toNat) ∧
      n.step H (.items now envs choice) = n.peers.foldl (fun n c => n.upd c (fun k => k.reduceBanscore))
        (match n.peers[choice % n.peers.length]? with
          | some c => if p.addresses.length < 50 then
              p.upd c (fun k => { k with sendBuf := k.sendBuf ++ wireFrame H n.magic "getaddr" [] }) else p
          | none => p) := by
  refine ⟨_, rfl, ?_⟩
  show (n.items H now envs choice).1 = _
  unfold Node.items
  rw [if_pos h]
  unfold Node.heartbeat
  simp only
  have hpeers : ({ n with lastHeartbeat := now } : Node).peers = n.peers := rfl
  rw [hpeers]
  have hp : (({ n with lastHeartbeat := now } : Node).addSome H (envs.take (min (n.seekPeers - n.peers.length) 5).toNat)).magic =
      n.magic := (steps_same (Q := fun _ _ _ => True) (steps_addSome _ _ trivial)).magic
  generalize ({ n with lastHeartbeat := now } : Node).addSome H (envs.take (min (n.seekPeers - n.peers.length) 5).toNat) = p at *
  unfold Node.askOne
  cases n.peers[choice % n.peers.length]? with
  | none => rfl
  | some c =>
    simp only
    by_cases hl : p.addresses.length < 50
    · rw [if_pos hl, if_pos hl, getaddr_sent p c (by rw [hp]; exact hm), hp]
    · rw [if_neg hl, if_neg hl]

/-- C101: a heartbeat makes at most five connections, and no more than up to `seek_peers`. -/
theorem C101_connections (n : Node) (hm : n.magic.length = 4) (now : Int) (envs : List AnyEnv) (choice : Nat) :
    let m := n.step H (.items now envs choice)
    m.conns.length ≤ n.conns.length + 5 ∧
    (m.conns.countP (·.isOpen) : Int) ≤ max (n.conns.countP (·.isOpen) : Int) n.seekPeers := by
  intro m
  by_cases h : now - n.lastHeartbeat > 10 * second
  · obtain ⟨p, hp, hs⟩ := items_spec (H := H) n hm now envs choice h
    have h1 := addSome_length (H := H) (envs.take (min (n.seekPeers - n.peers.length) 5).toNat) { n with lastHeartbeat := now }
    rw [← hp] at h1
    have hlen : (envs.take (min (n.seekPeers - n.peers.length) 5).toNat).length ≤ (min (n.seekPeers - n.peers.length) 5).toNat := by
      rw [List.length_take]
      omega
    have hq : ∀ q : Node, (q.conns.length = p.conns.length ∧ q.conns.countP (·.isOpen) ≤ p.conns.countP (·.isOpen)) →
        m = n.peers.foldl (fun n c => n.upd c (fun k => k.reduceBanscore)) q →
        m.conns.length ≤ n.conns.length + 5 ∧
        (m.conns.countP (·.isOpen) : Int) ≤ max (n.conns.countP (·.isOpen) : Int) n.seekPeers := by
      intro q hq1 hq2
      obtain ⟨r1, r2, -⟩ := reduce_same n.peers q
      rw [← hq2] at r1 r2
      have h1a : p.conns.length ≤ n.conns.length + _ := h1.1
      have h1b : p.conns.countP (·.isOpen) ≤ n.conns.countP (·.isOpen) + _ := h1.2
      rw [peers_length] at *
      constructor
      · omega
      · omega
    refine hq _ ?_ hs
    split
    · split
      · refine ⟨by unfold Node.upd; simp, countP_modify p.conns _ _ (fun k h => h)⟩
      · exact ⟨rfl, Nat.le_refl _⟩
    · exact ⟨rfl, Nat.le_refl _⟩
  · have : m = n := (C101_items n now envs choice).1 (by omega)
    rw [this]
    constructor <;> omega

/-- C101: a heartbeat asks one peer for addresses, if fewer than 50 are known (after connecting, which may remove some),
and sends nothing else to the connections there are. -/
theorem C101_asked (n : Node) (hm : n.magic.length = 4) (now : Int) (envs : List AnyEnv) (choice : Nat)
    (h : now - n.lastHeartbeat > 10 * second) (c : Nat) (k : Conn) (hk : n.conns[c]? = some k) :
    let m := n.step H (.items now envs choice)
    ∃ k', m.conns[c]? = some k' ∧ k'.out = k.out ∧ k'.recvBuf = k.recvBuf ∧ k'.isOpen = k.isOpen ∧
      k'.sendBuf = if n.peers[choice % n.peers.length]? = some c ∧ m.addresses.length < 50 then
        k.sendBuf ++ wireFrame H n.magic "getaddr" [] else k.sendBuf := by
  intro m
  obtain ⟨p, hp, hs⟩ := items_spec (H := H) n hm now envs choice h
  have hpk : p.conns[c]? = some k := by
    rw [hp]
    exact (addSome_old _ { n with lastHeartbeat := now } c (List.getElem?_eq_some_iff.1 hk).1).trans hk
  have hnd : n.peers.Nodup := by
    unfold Node.peers
    exact List.nodup_range.filter _
  have key : ∀ q : Node, m = n.peers.foldl (fun n c => n.upd c (fun k => k.reduceBanscore)) q → ∀ kq, q.conns[c]? = some kq →
      ∃ k', m.conns[c]? = some k' ∧ k'.out = kq.out ∧ k'.recvBuf = kq.recvBuf ∧ k'.isOpen = kq.isOpen ∧
        k'.sendBuf = kq.sendBuf := by
    intro q hq kq hkq
    have := reduce_conns n.peers hnd q c
    rw [← hq, hkq] at this
    refine ⟨_, this, ?_⟩
    split <;> exact ⟨rfl, rfl, rfl, rfl⟩
  have hadr : m.addresses = p.addresses := by
    have hs : m = _ := hs
    rw [hs, (reduce_same n.peers _).2.2]
    split
    · split <;> rfl
    · rfl
  rw [hadr]
  cases hc : n.peers[choice % n.peers.length]? with
  | none =>
    rw [hc] at hs
    obtain ⟨k', h1, h2, h3, h4, h5⟩ := key _ hs k hpk
    exact ⟨k', h1, h2, h3, h4, by rw [h5, if_neg (by rintro ⟨h, -⟩; cases h)]⟩
  | some c' =>
    rw [hc] at hs
    simp only at hs
    by_cases hl : p.addresses.length < 50
    · rw [if_pos hl] at hs
      by_cases he : c' = c
      · subst he
        obtain ⟨k', h1, h2, h3, h4, h5⟩ := key _ hs _ (conns_upd_self p c' _ hpk)
        exact ⟨k', h1, h2, h3, h4, by rw [h5, if_pos ⟨rfl, hl⟩]⟩
      · obtain ⟨k', h1, h2, h3, h4, h5⟩ := key _ hs k (by rw [conns_upd, hpk]; simp [he])
        exact ⟨k', h1, h2, h3, h4, by rw [h5, if_neg (by rintro ⟨h, -⟩; exact he (Option.some.inj h))]⟩
    · rw [if_neg hl] at hs
      obtain ⟨k', h1, h2, h3, h4, h5⟩ := key _ hs k hpk
      exact ⟨k', h1, h2, h3, h4, by rw [h5, if_neg (fun h => hl h.2)]⟩

/-- A heartbeat with one peer and two addresses to try: the peer is asked, two connections are made. -/
example : let n : Node := { (node0 .py3 125).run Hashes.toy
      [.accept (some ("10.0.0.2".toList, 4000)) 5000 5000 [0, 0, 0, 0, 0, 0, 0, 1], .write 0 (.sent 1000) 6000] with
        addresses := [(("10.0.0.3".toList, 1), .int 0, .int 1), (("10.0.0.4".toList, 1), .int 0, .int 1)] }
    let env : AnyEnv := ⟨false, 0, true, 7000, [0, 0, 0, 0, 0, 0, 0, 2]⟩
    n.peers = [0] ∧ (n.step Hashes.toy (.items (11 * second) [env, env, env] 0)).conns.map (fun k => (k.address.1, k.isOpen)) =
      [("10.0.0.2".toList, true), ("10.0.0.3".toList, true), ("10.0.0.4".toList, true)] ∧
    (n.step Hashes.toy (.items (11 * second) [env, env, env] 0)).bufOf 0 = [] ∧
    ((n.step Hashes.toy (.items (11 * second) [env, env, env] 0)).conns[0]?).map (·.sendBuf) =
      some (wireFrame Hashes.toy [1, 2, 3, 4] "getaddr" []) ∧
    (n.run Hashes.toy [.items (11 * second) [env, env, env] 0, .items (21 * second) [env] 0]).conns.length = 3 := by
  decide +kernel

/-! ### C102 -/

/-- C102, what holds: what a connection keeps of a stream that is still incomplete is less than four gigabytes. -/
theorem C102_buffer_partial (n : Node) (hn : n.conns = []) (es : List Event) (c : Nat) :
    ((n.run H es).bufOf c).length < 24 + 2 ^ 32 := by
  obtain ⟨-, -, h⟩ := C67_stream (H := H) n hn es c
  rcases h with h | h
  · omega
  · refine Nat.lt_of_lt_of_le h ?_
    unfold frameLength
    have := bytesVal_lt (((((n.run H es).bufOf c).drop 16).take 4).reverse)
    have hl : ((((n.run H es).bufOf c).drop 16).take 4).reverse.length ≤ 4 := by simp
    have : (256 : Nat) ^ ((((n.run H es).bufOf c).drop 16).take 4).reverse.length ≤ 256 ^ 4 := Nat.pow_le_pow_right (by decide) hl
    omega

theorem unfinished {start rest p : Bytes} (hs : start.length = 16) (hr : rest.length < 2 ^ 32 + 3)
    (hp : p <+: start ++ [255, 255, 255, 255] ++ rest) : Incomplete p := by
  by_cases hl : p.length < 20
  · exact .inl hl
  · right
    obtain ⟨q, hq⟩ := hp
    have h1 : frameLength p = 24 + (2 ^ 32 - 1) := by
      rw [← frameLength_append (r := q) (by omega), hq]
      unfold frameLength
      rw [List.append_assoc, List.drop_append_of_le_length (by omega), List.drop_eq_nil_of_le (by omega), List.nil_append]
      show 24 + bytesVal (([255, 255, 255, 255] ++ rest).take 4).reverse = _
      rfl
    have h2 := congrArg List.length hq
    simp only [List.length_append, List.length_cons, List.length_nil] at h2
    omega

theorem read_incomplete (n : Node) (c : Nat) (k : Conn) (b : Bytes) (now : Int) (hk : n.conns[c]? = some k)
    (ho : k.isOpen = true) (hb : b ≠ []) (hi : Incomplete (k.recvBuf ++ b)) :
    n.step H (.read c (.data b) now) = n.received c b now := by
  have hs : n.step H (.read c (.data b) now) = (n.handleRead H c (.data b) now).1 := by
    unfold Node.step
    simp only [if_pos (mem_peers.2 ⟨k, hk, ho⟩)]
  obtain ⟨fs, rest, h1, h2, -⟩ := read_spec (H := H) n c b now k hk hb
  have hsp : Splits (k.recvBuf ++ b) [] (k.recvBuf ++ b) := ⟨rfl, by simp, hi⟩
  obtain ⟨rfl, rfl⟩ := h1.unique hsp
  rw [hs, h2, handleAll]

/-- C102 is false of any smaller bound: twenty bytes, of which sixteen are anything, are enough to make the node keep
whatever follows, up to four gigabytes, in whatever pieces it comes. -/
theorem C102_buffer_false (n : Node) (c : Nat) (k : Conn) (hk : n.conns[c]? = some k) (ho : k.isOpen = true)
    (hb : k.recvBuf = []) (start rest : Bytes) (hs : start.length = 16) (hr : rest.length < 2 ^ 32 + 3) (chunks : List Bytes)
    (hne : ∀ b ∈ chunks, b ≠ []) (hc : chunks.flatten = start ++ [255, 255, 255, 255] ++ rest) (now : Int) :
    let m := n.run H (chunks.map (fun b => .read c (.data b) now))
    m.bufOf c = start ++ [255, 255, 255, 255] ++ rest ∧ c ∈ m.peers := by
  have key : ∀ (l : List Bytes) (n : Node) (k : Conn), n.conns[c]? = some k → k.isOpen = true → (∀ b ∈ l, b ≠ []) →
      k.recvBuf ++ l.flatten = start ++ [255, 255, 255, 255] ++ rest →
      ∃ k', (n.run H (l.map (fun b => .read c (.data b) now))).conns[c]? = some k' ∧ k'.isOpen = true ∧
        k'.recvBuf = start ++ [255, 255, 255, 255] ++ rest := by
    intro l
    induction l with
    | nil => exact fun n k h1 h2 _ h4 => ⟨k, h1, h2, by simpa using h4⟩
    | cons b l ih =>
      intro n k h1 h2 h3 h4
      have hstep := read_incomplete (H := H) n c k b now h1 h2 (h3 b (List.mem_cons_self ..)) (unfinished hs hr ⟨l.flatten, by
        rw [← h4, List.flatten_cons, List.append_assoc]⟩)
      rw [List.map_cons, run_cons, hstep]
      refine ih _ { k with recvBuf := k.recvBuf ++ b, rxBytes := k.rxBytes + b.length, lastRx := now }
        (conns_upd_self n c _ h1) h2 (fun b hb => h3 b (List.mem_cons_of_mem _ hb)) ?_
      rw [← h4, List.flatten_cons, List.append_assoc]
  obtain ⟨k', h1, h2, h3⟩ := key chunks n k hk ho hne (by rw [hb, List.nil_append, hc])
  refine ⟨?_, mem_peers.2 ⟨k', h1, h2⟩⟩
  unfold Node.bufOf
  rw [h1]
  exact h3

/-- From the start of the node. -/
example (j : Nat) (hj : j < 2 ^ 32) : ∃ es : List Event, (((node0 .py3 125).run Hashes.toy es).bufOf 0).length = 20 + j := by
  have h : (((node0 .py3 125).run Hashes.toy (pieces.take 1)).conns[0]?).map (fun k => (k.isOpen, k.recvBuf)) =
      some (true, []) := by decide +kernel
  obtain ⟨k, h1, h2⟩ := Option.map_eq_some_iff.1 h
  have := (C102_buffer_false (H := Hashes.toy) _ 0 k h1 (congrArg Prod.fst h2) (congrArg Prod.snd h2) (List.replicate 16 0)
    (List.replicate j 7) rfl (by rw [List.length_replicate]; omega)
    [List.replicate 16 0 ++ [255, 255, 255, 255] ++ List.replicate j 7] (by simp) (by simp) 6000).1
  refine ⟨pieces.take 1 ++ [List.replicate 16 0 ++ [255, 255, 255, 255] ++ List.replicate j 7].map
    (fun b => .read 0 (.data b) 6000), ?_⟩
  rw [run_append, this]
  simp
  omega

/-! ### C103 -/

/-- Nobody has a score or is banned. -/
def Unpunished (n : Node) : Prop := n.banned = [] ∧ ∀ k ∈ n.conns, k.banscore = 0

theorem unpunished_upd {n : Node} (c : Nat) (f : Conn → Conn) (hf : ∀ k, k.banscore = 0 → (f k).banscore = 0)
    (h : Unpunished n) : Unpunished (n.upd c f) := by
  refine ⟨h.1, fun k hk => ?_⟩
  obtain ⟨i, hi⟩ := List.mem_iff_getElem?.1 hk
  rw [conns_upd] at hi
  obtain ⟨k0, h0, rfl⟩ := Option.map_eq_some_iff.1 hi
  have := h.2 k0 (List.mem_of_getElem? h0)
  split
  · exact hf _ this
  · exact this

theorem unpunished_prim {n m : Node} (hp : Prim2 H Q n m) (hq : ∀ c, ¬ Q .score c 0) (h : Unpunished n) : Unpunished m := by
  cases hp with
  | prim _ hp =>
    cases hp with
    | queue c t fields b hb => exact unpunished_upd c _ (fun _ h => h) h
    | close c => exact unpunished_upd c _ (fun _ h => h) h
    | sent c k j now hk hj _ =>
      exact unpunished_upd c (fun k => { k with
        out := k.out ++ k.sendBuf.take j, txBytes := k.txBytes + j, lastTx := now, sendBuf := k.sendBuf.drop j }) (fun _ h => h) h
    | info c f hf => exact unpunished_upd c f (fun k hk => by rw [(hf k).banscore, hk]) h
    | ping c t _ => exact unpunished_upd c _ (fun _ h => h) h
    | tx c t _ => exact unpunished_upd c _ (fun _ h => h) h
    | new a inc _ _ =>
      refine ⟨h.1, fun k hk => ?_⟩
      rcases List.mem_append.1 hk with hk | hk
      · exact h.2 k hk
      · rw [List.mem_singleton.1 hk]
    | add c _ hs => exact absurd hs (hq c)
    | reduce c =>
      refine unpunished_upd c _ (fun k hk => ?_) h
      unfold Conn.reduceBanscore
      rw [hk]
      rfl
    | ban c ip now hs => exact absurd hs (hq c)
    | unban key => exact ⟨by show dictDel n.banned (.addr key) = []; rw [h.1]; rfl, h.2⟩
    | _ => exact h
  | recv c k chunk now hk _ =>
    exact unpunished_upd c (fun k => { k with
        recvBuf := k.recvBuf ++ chunk, rxBytes := k.rxBytes + chunk.length, lastRx := now }) (fun _ h => h) h
  | setBuf c b => exact unpunished_upd c _ (fun _ h => h) h

/-- C103 is false: nothing that peers send raises a score; unless the owner of the node calls `punish_peer`, which the
code does nowhere, nobody is ever banned. -/
theorem C103_banned_false (n : Node) (hn : n.conns = []) (hb : n.banned = []) (es : List Event)
    (he : ∀ e ∈ es, ∀ c now, e ≠ .punish c now) :
    (n.run H es).banned = [] ∧ ∀ k ∈ (n.run H es).conns, k.banscore = 0 :=
  run_invariant_clock (Q := fun w _ _ => w ≠ .score) Unpunished (fun _ _ hp => unpunished_prim hp (fun _ h => h rfl)) n es
    (fun e h w c t hw => by
      rintro rfl
      cases e <;> try exact hw.elim
      exact he _ h _ _ rfl)
    ⟨hb, by rw [hn]; intro k hk; cases hk⟩

/-- A peer that sends a thousand frames with a wrong checksum. -/
example : ∀ e ∈ pieces.take 1 ++ List.replicate 1000 (.read 0 (.data (pingFrame.take 20 ++ [9, 9, 9, 9] ++ pingFrame.drop 24)) 6000),
    ∀ c now, e ≠ .punish c now := by
  intro e he c now
  rcases List.mem_append.1 he with he | he
  · rw [List.mem_singleton.1 he]
    exact fun h => nomatch h
  · rw [(List.mem_replicate.1 he).2]
    exact fun h => nomatch h

/-! ### C104 -/

/-- There is a connection to the address. -/
def HasPeer (n : Node) (a : Addr) : Prop := ∃ k ∈ n.conns, k.isOpen = true ∧ k.address = a

theorem hasPeer_iff (n : Node) (a : Addr) : a ∈ n.openConns.map (·.address) ↔ HasPeer n a := by
  unfold Node.openConns HasPeer
  simp only [List.mem_map, List.mem_filter]
  constructor
  · rintro ⟨k, ⟨h1, h2⟩, h3⟩
    exact ⟨k, h1, h2, h3⟩
  · rintro ⟨k, h1, h2, h3⟩
    exact ⟨k, ⟨h1, h2⟩, h3⟩

theorem newOutgoing_effect (n : Node) (a : Addr) (connects : Bool) (now : Int) (nonce : Bytes) :
    let m := (n.newOutgoing H a connects now nonce).1
    (∃ b, m.conns = n.conns ++ [{ address := a, incoming := false, isOpen := connects, sendBuf := b }]) ∧
    m.addresses = (if connects then n.addresses else dictDel n.addresses a) ∧ m.listening = n.listening ∧
    m.address = n.address := by
  unfold Node.newOutgoing
  simp only
  cases connects with
  | true =>
    simp only [if_true]
    unfold Node.greet Node.sendMessage Node.upd
    split
    · exact ⟨⟨[], rfl⟩, rfl, rfl, rfl⟩
    · split
      · exact ⟨⟨[], rfl⟩, rfl, rfl, rfl⟩
      · rename_i b _
        exact ⟨⟨b, modify_last ..⟩, rfl, rfl, rfl⟩
  | false =>
    simp only [Bool.false_eq_true, if_false]
    unfold Node.handleClose Node.disconnected Node.upd
    simp only [modify_last]
    rw [List.getElem?_append_right (Nat.le_refl _), Nat.sub_self]
    exact ⟨⟨[], rfl⟩, rfl, rfl, rfl⟩

/-- How many addresses in the book are without a connection. -/
def untried (n : Node) : Nat := n.addresses.countP (fun e => decide (e.1 ∉ n.openConns.map (·.address)))

/-- The book does not have the address of the listener. -/
def NotOwn (n : Node) : Prop := n.listening = true → n.address ∉ n.addresses.map (·.1)

theorem dictDel_keys {d : List (Addr × Val × Val)} {a : Addr} : ∀ e ∈ dictDel d a, e ∈ d :=
  fun _ h => List.mem_of_mem_filter h

theorem addAny_progress (n : Node) (e : AnyEnv) (hl : e.lucky = false) (hn : NotOwn n) :
    let m := n.addAnyPeer H e
    NotOwn m ∧ (untried m = 0 ∨ untried m < untried n) ∧ (∀ x ∈ m.addresses, x ∈ n.addresses) ∧
      (e.connects = true → m.addresses = n.addresses) ∧ (∀ a, HasPeer n a → HasPeer m a) := by
  have hadd : ∀ (a : Addr) (force : Bool), let m := (n.addPeer H a force e.connects e.now e.nonce).1
      NotOwn m ∧ (∀ x ∈ m.addresses, x ∈ n.addresses) ∧ (e.connects = true → m.addresses = n.addresses) ∧
      (∀ a, HasPeer n a → HasPeer m a) := by
    intro a force
    obtain ⟨⟨b, h1⟩, h2, h3, h4⟩ := newOutgoing_effect (H := H) n a e.connects e.now e.nonce
    have hsub : ∀ x ∈ (n.newOutgoing H a e.connects e.now e.nonce).1.addresses, x ∈ n.addresses := by
      intro x hx
      rw [h2] at hx
      split at hx
      · exact hx
      · exact dictDel_keys x hx
    have hmain : let m := (n.newOutgoing H a e.connects e.now e.nonce).1
        NotOwn m ∧ (∀ x ∈ m.addresses, x ∈ n.addresses) ∧ (e.connects = true → m.addresses = n.addresses) ∧
        (∀ a, HasPeer n a → HasPeer m a) := by
      refine ⟨fun hlis hmem => ?_, hsub, fun hc => by rw [h2, if_pos hc], fun a' => ?_⟩
      · rw [h3] at hlis
        rw [h4] at hmem
        obtain ⟨x, hx, hxa⟩ := List.mem_map.1 hmem
        exact hn hlis (List.mem_map.2 ⟨x, hsub x hx, hxa⟩)
      · rintro ⟨k, k1, k2⟩
        exact ⟨k, by rw [h1]; exact List.mem_append_left _ k1, k2⟩
    unfold Node.addPeer
    split
    · exact ⟨hn, fun _ h => h, fun _ => rfl, fun _ h => h⟩
    split
    · exact ⟨hn, fun _ h => h, fun _ => rfl, fun _ h => h⟩
    · split <;> (rename_i h; rw [h] at hmain; exact hmain)
  unfold Node.addAnyPeer
  by_cases hem : n.addresses = []
  · rw [if_pos (.inl hem)]
    have h0 : ∀ m : Node, (∀ x ∈ m.addresses, x ∈ n.addresses) → untried m = 0 := by
      intro m hm
      have : m.addresses = [] := List.eq_nil_iff_forall_not_mem.2 (fun x hx => by
        have := hm x hx
        rw [hem] at this
        cases this)
      unfold untried
      rw [this]
      rfl
    split
    · exact ⟨hn, .inl (h0 n (fun _ h => h)), fun _ h => h, fun _ => rfl, fun _ h => h⟩
    · obtain ⟨a1, a2, a3, a4⟩ := hadd _ false
      exact ⟨a1, .inl (h0 _ a2), a2, a3, a4⟩
  · rw [if_neg (by rintro (h | h); exact hem h; rw [hl] at h; cases h)]
    split
    · rename_i hf
      refine ⟨hn, .inl ?_, fun _ h => h, fun _ => rfl, fun _ h => h⟩
      unfold untried
      rw [List.countP_eq_zero]
      exact List.find?_eq_none.1 hf
    · rename_i x hf
      obtain ⟨a1, a2, a3, a4⟩ := hadd x.1 true
      refine ⟨a1, .inr ?_, a2, a3, a4⟩
      have hx1 : x.1 ∉ n.openConns.map (·.address) := by simpa using List.find?_some hf
      have hx2 := List.mem_of_find?_eq_some hf
      have hnot : x.1 ∉ n.allAddresses := by
        rw [connected_iff]
        rintro (⟨h1, h2⟩ | h)
        · exact hn h1 (List.mem_map.2 ⟨x, hx2, h2⟩)
        · exact hx1 ((hasPeer_iff n x.1).2 h)
      obtain ⟨⟨b, h1⟩, h2, -, -⟩ := newOutgoing_effect (H := H) n x.1 e.connects e.now e.nonce
      have hm : (n.addPeer H x.1 true e.connects e.now e.nonce).1 = (n.newOutgoing H x.1 e.connects e.now e.nonce).1 := by
        unfold Node.addPeer
        rw [if_neg (by simp), if_neg hnot]
        split <;> (rename_i h; rw [h])
      rw [hm]
      -- one entry fewer
      have hle : ∀ m : Node, (m.addresses = n.addresses ∧ HasPeer m x.1 ∨ m.addresses = dictDel n.addresses x.1) →
          (∀ a, HasPeer n a → HasPeer m a) → untried m < untried n := by
        intro m hm hmono
        unfold untried
        have hmono' : ∀ y : Addr × Val × Val, y.1 ∉ m.openConns.map (·.address) → y.1 ∉ n.openConns.map (·.address) :=
          fun y h h' => h ((hasPeer_iff _ _).2 (hmono _ ((hasPeer_iff _ _).1 h')))
        have hlt : (n.addresses.filter (fun y => decide (y.1 ≠ x.1))).countP
            (fun y => decide (y.1 ∉ n.openConns.map (·.address))) <
            n.addresses.countP (fun y => decide (y.1 ∉ n.openConns.map (·.address))) := by
          rw [List.countP_filter]
          obtain ⟨pre, post, hpp⟩ := List.append_of_mem hx2
          rw [hpp, List.countP_append, List.countP_append, List.countP_cons, List.countP_cons, if_neg (by simp),
            if_pos (by simpa using hx1)]
          have i1 := List.countP_mono_left (l := pre) (p := fun y => decide (y.1 ∉ n.openConns.map (·.address)) &&
            decide (y.1 ≠ x.1)) (q := fun y => decide (y.1 ∉ n.openConns.map (·.address))) (fun y _ h => (Bool.and_eq_true_iff.1 h).1)
          have i2 := List.countP_mono_left (l := post) (p := fun y => decide (y.1 ∉ n.openConns.map (·.address)) &&
            decide (y.1 ≠ x.1)) (q := fun y => decide (y.1 ∉ n.openConns.map (·.address))) (fun y _ h => (Bool.and_eq_true_iff.1 h).1)
          omega
        refine Nat.lt_of_le_of_lt ?_ hlt
        rcases hm with ⟨hm, hp⟩ | hm
        · rw [hm, List.countP_filter]
          refine List.countP_mono_left (fun y _ h => ?_)
          have h := of_decide_eq_true h
          rw [Bool.and_eq_true_iff]
          refine ⟨decide_eq_true (hmono' y h), decide_eq_true (fun he => h ?_)⟩
          rw [he]
          exact (hasPeer_iff _ _).2 hp
        · rw [hm]
          unfold dictDel
          refine List.countP_mono_left (fun y _ h => ?_)
          exact decide_eq_true (hmono' y (of_decide_eq_true h))
      rw [hm] at a4
      refine hle _ ?_ a4
      cases hc : e.connects with
      | true =>
        left
        rw [hc] at h1 h2
        refine ⟨h2, _, by rw [h1]; exact List.mem_append_right _ (List.mem_singleton_self _), rfl, rfl⟩
      | false =>
        right
        rw [hc] at h2
        exact h2

/-- C104, what holds: unless the listener's own address is in the book, as many rounds (without a seed's turn) as there
are addresses in the book try all of them: afterwards every address still in the book has a connection; an address
leaves the book only when connecting fails. -/
theorem C104_tried_partial (es : List AnyEnv) (n : Node) (hes : ∀ e ∈ es, e.lucky = false)
    (hn : n.listening = true → n.address ∉ n.addresses.map (·.1)) (hlen : n.addresses.length ≤ es.length) :
    let m := n.addSome H es
    (∀ x ∈ m.addresses, x ∈ n.addresses ∧ HasPeer m x.1) ∧
    ((∀ e ∈ es, e.connects = true) → m.addresses = n.addresses) := by
  have key : ∀ (es : List AnyEnv) (n : Node), (∀ e ∈ es, e.lucky = false) → NotOwn n →
      let m := n.addSome H es
      (untried m = 0 ∨ untried m + es.length ≤ untried n) ∧ (∀ x ∈ m.addresses, x ∈ n.addresses) ∧
      ((∀ e ∈ es, e.connects = true) → m.addresses = n.addresses) := by
    intro es
    induction es with
    | nil => exact fun n _ _ => ⟨.inr (Nat.le_refl _), fun _ h => h, fun _ => rfl⟩
    | cons e es ih =>
      intro n h1 h2
      obtain ⟨a1, a2, a3, a4, -⟩ := addAny_progress (H := H) n e (h1 e (List.mem_cons_self ..)) h2
      obtain ⟨b1, b2, b3⟩ := ih (n.addAnyPeer H e) (fun e he => h1 e (List.mem_cons_of_mem _ he)) a1
      refine ⟨?_, fun x hx => a3 x (b2 x hx), fun h => ?_⟩
      · show untried ((n.addAnyPeer H e).addSome H es) = 0 ∨ untried ((n.addAnyPeer H e).addSome H es) + (e :: es).length ≤ _
        rw [List.length_cons]
        omega
      · exact (b3 (fun e he => h e (List.mem_cons_of_mem _ he))).trans (a4 (h e (List.mem_cons_self ..)))
  obtain ⟨h1, h2, h3⟩ := key es n hes hn
  refine ⟨fun x hx => ⟨h2 x hx, ?_⟩, h3⟩
  have h0 : untried (n.addSome H es) = 0 := by
    have : untried n ≤ n.addresses.length := List.countP_le_length
    omega
  unfold untried at h0
  have := List.countP_eq_zero.1 h0 x hx
  rw [decide_eq_true_eq, not_not] at this
  exact (hasPeer_iff _ _).1 this

/-- Three addresses, of which one does not answer. -/
example : let n : Node := { node0 .py3 125 with addresses := [(("10.0.0.3".toList, 1), .int 0, .int 1),
      (("10.0.0.4".toList, 1), .int 0, .int 1), (("10.0.0.5".toList, 1), .int 0, .int 1)] }
    let env (b : Bool) : AnyEnv := ⟨false, 0, b, 7000, [0, 0, 0, 0, 0, 0, 0, 2]⟩
    (n.listening = true → n.address ∉ n.addresses.map (·.1)) ∧
    (n.addSome Hashes.toy [env true, env false, env true]).addresses.map (·.1) = [("10.0.0.3".toList, 1), ("10.0.0.5".toList, 1)] := by
  decide +kernel

/-- C104 is false of a book in which the listener's own address comes before another one without a connection: it is
chosen in every round, `add_peer` refuses it, it stays where it is, and the others are not tried. -/
theorem C104_tried_false (n : Node) (pre post : List (Addr × Val × Val)) (v : Val × Val) (hl : n.listening = true)
    (hb : n.addresses = pre ++ (n.address, v) :: post) (hp : ∀ x ∈ pre, HasPeer n x.1) (hn : ¬ HasPeer n n.address)
    (es : List AnyEnv) (hes : ∀ e ∈ es, e.lucky = false) : n.addSome H es = n := by
  induction es with
  | nil => rfl
  | cons e es ih =>
    have : n.addAnyPeer H e = n := by
      unfold Node.addAnyPeer
      rw [if_neg (by
        rintro (h | h)
        · rw [hb] at h
          exact absurd h (by simp)
        · rw [hes e (List.mem_cons_self ..)] at h
          cases h)]
      have hf : n.addresses.find? (fun a => decide (a.1 ∉ n.openConns.map (·.address))) = some (n.address, v) := by
        rw [hb, List.find?_append, List.find?_eq_none.2 (fun x hx => by
          rw [decide_eq_true_eq, not_not]
          exact (hasPeer_iff _ _).2 (hp x hx)), Option.none_or]
        refine List.find?_cons_of_pos (decide_eq_true ?_)
        exact fun h => hn ((hasPeer_iff _ _).1 h)
      rw [hf]
      simp only
      unfold Node.addPeer
      rw [if_neg (by simp), if_pos ((connected_iff _ _).2 (.inl ⟨hl, rfl⟩))]
    rw [Node.addSome, this]
    exact ih (fun e he => hes e (List.mem_cons_of_mem _ he))

/-- A peer can bring this about: it sends the node its own address, then another. -/
example : let n := (node0 .py3 125).run Hashes.toy (pieces.take 1 ++
      [.read 0 (.data (addrFrame Hashes.toy [1, 2, 3, 4] (v4Prefix ++ [10, 0, 0, 1]) 9333)) 6000,
        .read 0 (.data (addrFrame Hashes.toy [1, 2, 3, 4] someIp 8333)) 6000])
    let env : AnyEnv := ⟨false, 0, true, 7000, [0, 0, 0, 0, 0, 0, 0, 2]⟩
    n.addresses.map (·.1) = [n.address, (ipText someIp, 8333)] ∧ n.listening = true ∧
    n.conns.map (fun k => (k.address, k.isOpen)) = [(("10.0.0.2".toList, 4000), true)] ∧
    (n.step Hashes.toy (.items (11 * second) (List.replicate 5 env) 0)).conns.length = 1 := by
  decide +kernel

end NBC.Props
