import Verif.Props.NodeIdle

/-!
# Property C105: what a node knows of its peers
-/

namespace NBC.Props
open NBC NBC.Spec NBC.Spec.Wire NBC.Proto NBC.P2P

variable {H : Hashes} {Q : Clock → Nat → Int → Prop}

/-- What a connection keeps of the messages it received. -/
structure Desc where
  verack : Bool
  externalIp : Option (List Char)
  services : Val
  startHeight : Val
  userAgent : Val
  version : Val
  relay : Val

/-- That of a connection. -/
def descConn (k : Conn) : Desc :=
  ⟨k.verack, k.externalIp, k.services, k.startHeight, k.userAgent, k.version, k.relay⟩

/-- That of a new connection. -/
def blank : Desc := ⟨false, none, .none, .none, .none, .none, .none⟩

/-- That of the connection `c`. -/
def descOf (n : Node) (c : Nat) : Desc := ((n.conns[c]?).map descConn).getD blank

theorem descOf_upd (n : Node) (c i : Nat) (f : Conn → Conn) (hf : c = i → ∀ k, descConn (f k) = descConn k) :
    descOf (n.upd c f) i = descOf n i := by
  unfold descOf
  rw [conns_upd]
  cases n.conns[i]? with
  | none => rfl
  | some k =>
    simp only [Option.map_some, Option.getD_some]
    split
    · rename_i h
      exact hf h k
    · rfl

theorem descOf_prim {n m : Node} (h : Prim2 H Q n m) (i : Nat) (hq : ¬ Q .info i 0) : descOf m i = descOf n i := by
  cases h with
  | prim _ h =>
    cases h with
    | queue c t fields b hb => exact descOf_upd n c i _ (fun _ _ => rfl)
    | close c => exact descOf_upd n c i _ (fun _ _ => rfl)
    | sent c k j now hk hj _ =>
      exact descOf_upd n c i (fun k => { k with
        out := k.out ++ k.sendBuf.take j, txBytes := k.txBytes + j, lastTx := now, sendBuf := k.sendBuf.drop j }) (fun _ _ => rfl)
    | info c f hf hx hi =>
      refine descOf_upd n c i f (fun h => ?_)
      subst h
      exact absurd hi hq
    | ping c t _ => exact descOf_upd n c i _ (fun _ _ => rfl)
    | tx c t _ => exact descOf_upd n c i _ (fun _ _ => rfl)
    | new a inc _ _ =>
      show (((n.conns ++ [_])[i]?).map descConn).getD blank = _
      unfold descOf
      rw [List.getElem?_append]
      split
      · rfl
      · rename_i hge
        rw [List.getElem?_eq_none (Nat.le_of_not_lt hge)]
        cases hj : i - n.conns.length with
        | zero => rfl
        | succ j => rfl
    | add c _ _ => exact descOf_upd n c i _ (fun _ _ => rfl)
    | reduce c => exact descOf_upd n c i _ (fun _ _ => rfl)
    | _ => rfl
  | recv c k chunk now hk _ =>
    exact descOf_upd n c i (fun k => { k with
        recvBuf := k.recvBuf ++ chunk, rxBytes := k.rxBytes + chunk.length, lastRx := now }) (fun _ _ => rfl)
  | setBuf c b => exact descOf_upd n c i _ (fun _ _ => rfl)

theorem descOf_steps {n m : Node} (h : Steps2 H Q n m) (i : Nat) (hq : ¬ Q .info i 0) : descOf m i = descOf n i := by
  induction h with
  | refl => rfl
  | tail _ h ih => exact (descOf_prim h i hq).trans ih

/-! ### Version messages -/

/-- What a version message says. -/
structure Says (m : Msg) (ip : List Char) (services startHeight userAgent version relay : Val) : Prop where
  recv : ∃ fields, getField m.fields "addr_recv" = .ok (.obj "NetworkAddress" fields) ∧ getField fields "address" = .ok (.str ip)
  services : getField m.fields "services" = .ok services
  startHeight : getField m.fields "start_height" = .ok startHeight
  userAgent : getField m.fields "user_agent" = .ok userAgent
  version : getField m.fields "version" = .ok version
  relay : getField m.fields "relay" = .ok relay

theorem parsed_says {data magic : Bytes} {m : Msg} (h : parseMessage H data magic = .ok m) (hc : m.command = "version") :
    ∃ ip s h' u v r, Says m ip s h' u v r ∧ versionInfo m.fields = .ok (fun k => { k with
      services := s, startHeight := h', userAgent := u, version := v, relay := r, externalIp := some ip }) := by
  unfold parseMessage at h
  split at h
  · cases h
  obtain ⟨len, -, h⟩ := bind_ok_iff.1 h
  simp only at h
  split at h
  · cases h
  split at h
  · cases h
  rename_i t ht
  obtain ⟨⟨o, kw⟩, h1, h2⟩ := bind_ok_iff.1 h
  cases h2
  have := registered_command (u := msgVersion) (lookup_some ht).1 (by simp [registry]) hc
  subst this
  unfold msgVersion at h1
  simp only at h1
  obtain ⟨l1, v1, kw1, e1, g1, rfl⟩ := parseFields_cons h1
  obtain ⟨l2, v2, kw2, e2, g2, rfl⟩ := parseFields_cons g1
  obtain ⟨l3, v3, kw3, e3, g3, rfl⟩ := parseFields_cons g2
  obtain ⟨l4, v4, kw4, e4, g4, rfl⟩ := parseFields_cons g3
  obtain ⟨l5, v5, kw5, e5, g5, rfl⟩ := parseFields_cons g4
  obtain ⟨l6, v6, kw6, e6, g6, rfl⟩ := parseFields_cons g5
  obtain ⟨l7, v7, kw7, e7, g7, rfl⟩ := parseFields_cons g6
  obtain ⟨l8, v8, kw8, e8, g8, rfl⟩ := parseFields_cons g7
  obtain ⟨l9, v9, kw9, e9, g9, rfl⟩ := parseFields_cons g8
  unfold ftNetworkAddressNoTimestamp at e4
  simp only at e4
  obtain ⟨⟨vl, obj⟩, h', he⟩ := bind_ok_iff.1 e4
  simp only [Except.ok.injEq, Prod.mk.injEq] at he
  obtain ⟨-, rfl⟩ := he
  obtain ⟨t, s, ip, p, rfl, -, -, hi, -⟩ := parsed_net h'
  refine ⟨ip, v2, v8, v7, v1, v9, ⟨⟨_, rfl, rfl⟩, rfl, rfl, rfl, rfl, rfl⟩, rfl⟩

/-! ### The description of a connection and its messages -/

/-- The messages in the frames that are accepted. -/
def accepted (H : Hashes) (magic : Bytes) (fs : List Bytes) : List Msg :=
  fs.filterMap (fun f => (parseMessage H f magic).toOption)

/-- The description agrees with the messages. -/
structure Agrees (d : Desc) (ms : List Msg) : Prop where
  verack : d.verack = true ↔ ∃ m ∈ ms, m.command = "verack"
  unknown : (∀ m ∈ ms, m.command ≠ "version") →
    d.externalIp = none ∧ d.services = .none ∧ d.startHeight = .none ∧ d.userAgent = .none ∧ d.version = .none ∧ d.relay = .none
  known : ∀ pre m post, ms = pre ++ m :: post → m.command = "version" → (∀ m' ∈ post, m'.command ≠ "version") →
    ∃ ip, d.externalIp = some ip ∧ Says m ip d.services d.startHeight d.userAgent d.version d.relay

theorem agrees_blank : Agrees blank [] :=
  ⟨⟨(fun h => nomatch h), fun ⟨m, h, _⟩ => nomatch h⟩, fun _ => ⟨rfl, rfl, rfl, rfl, rfl, rfl⟩, fun pre m post h => by
    cases pre <;> cases h⟩

/-- A message that is neither changes nothing, in particular. -/
theorem Agrees.snoc {d d' : Desc} {ms : List Msg} {m : Msg} (h : Agrees d ms)
    (h1 : d'.verack = (d.verack || decide (m.command = "verack")))
    (h2 : m.command = "version" →
      ∃ ip, d'.externalIp = some ip ∧ Says m ip d'.services d'.startHeight d'.userAgent d'.version d'.relay)
    (h3 : m.command ≠ "version" → d' = { d with verack := d'.verack }) : Agrees d' (ms ++ [m]) := by
  refine ⟨?_, fun hn => ?_, fun pre m1 post hs hc hp => ?_⟩
  · rw [h1, Bool.or_eq_true, h.verack, decide_eq_true_eq]
    simp only [List.mem_append, List.mem_singleton]
    constructor
    · rintro (⟨m', e1, e2⟩ | e)
      · exact ⟨m', .inl e1, e2⟩
      · exact ⟨m, .inr rfl, e⟩
    · rintro ⟨m', e1 | rfl, e2⟩
      · exact .inl ⟨m', e1, e2⟩
      · exact .inr e2
  · have hm := hn m (List.mem_append_right _ (List.mem_singleton_self _))
    rw [h3 hm]
    exact h.unknown (fun m' h' => hn m' (List.mem_append_left _ h'))
  · rcases List.eq_nil_or_concat post with rfl | ⟨post', m2, rfl⟩
    · obtain ⟨-, e⟩ := List.append_inj' hs rfl
      cases e
      exact h2 hc
    · rw [List.concat_eq_append] at hs hp
      have e : ms ++ [m] = (pre ++ m1 :: post') ++ [m2] := by rw [hs]; simp
      obtain ⟨e1, e2⟩ := List.append_inj' e rfl
      cases e2
      rw [h3 (hp m (by simp))]
      exact h.known pre m1 post' e1 hc (fun m' h' => hp m' (by simp [h']))

theorem frame_agrees (n : Node) (c : Nat) (now : Int) (f : Bytes) (k : Conn) (hk : n.conns[c]? = some k) (ms : List Msg)
    (h : Agrees (descOf n c) ms) : Agrees (descOf (n.handleFrame H c now f) c) (ms ++ accepted H n.magic [f]) := by
  unfold Node.handleFrame accepted
  cases hp : parseMessage H f n.magic with
  | error e => simpa [hp, Except.toOption] using h
  | ok m =>
    simp only [List.filterMap_cons, hp, Except.toOption, List.filterMap_nil]
    have hg := parse_good hp
    have hd : ∀ n' : Node, descOf (n'.dispatch H c m now).1 c = descOf n' c := fun n' =>
      descOf_steps (Q := fun _ _ _ => False) (steps_dispatch n' c m now hg).two c id
    have hk' : descOf n c = descConn k := by unfold descOf; rw [hk]; rfl
    unfold Node.handleMessage
    by_cases hv : m.command = "version"
    · rw [if_pos hv]
      obtain ⟨ip, s, h', u, v, r, e1, e2⟩ := parsed_says hp hv
      rw [e2]
      simp only
      have hx : descOf ((n.upd c (fun k => { k with
          services := s, startHeight := h', userAgent := u, version := v, relay := r, externalIp := some ip })).checkExternalIp.dispatch
            H c m now).1 c = ⟨k.verack, some ip, s, h', u, v, r⟩ := by
        rw [hd, descOf_steps (H := H) (Q := fun _ _ _ => False) (steps_checkExternalIp _).two c id]
        unfold descOf
        rw [conns_upd_self n c _ hk]
        rfl
      have hy : descOf (n.upd c (fun k => { k with
          services := s, startHeight := h', userAgent := u, version := v, relay := r, externalIp := some ip })) c =
            ⟨k.verack, some ip, s, h', u, v, r⟩ := by
        unfold descOf
        rw [conns_upd_self n c _ hk]
        rfl
      have hz : Agrees ⟨k.verack, some ip, s, h', u, v, r⟩ (ms ++ [m]) := by
        refine h.snoc ?_ (fun _ => ⟨ip, rfl, e1⟩) (fun h => absurd hv h)
        rw [hk', hv]
        simp [descConn]
      split
      · rw [hx]; exact hz
      · rw [hy]; exact hz
    · rw [if_neg hv]
      by_cases ha : m.command = "verack"
      · rw [if_pos ha, hd]
        have hx : descOf (n.upd c (fun k => { k with verack := true })) c = { descConn k with verack := true } := by
          unfold descOf
          rw [conns_upd_self n c _ hk]
          rfl
        rw [hx]
        refine h.snoc ?_ (fun h => absurd h hv) (fun _ => ?_)
        · simp [ha]
        · rw [hk']
      · rw [if_neg ha, hd]
        refine h.snoc ?_ (fun h => absurd h hv) (fun _ => rfl)
        simp [ha]

theorem all_agrees (c : Nat) (now : Int) (fs : List Bytes) (rest : Bytes) (n : Node) (k : Conn) (hk : n.conns[c]? = some k)
    (ms : List Msg) (h : Agrees (descOf n c) ms) :
    Agrees (descOf (handleAll (Node.setRecvBuf c) (Node.handleFrame H c now) n fs rest) c) (ms ++ accepted H n.magic fs) := by
  induction fs generalizing n k ms with
  | nil => simpa [handleAll, accepted] using h
  | cons f fs ih =>
    rw [handleAll]
    have h1 : (Node.setRecvBuf c n (fs.flatten ++ rest)).conns[c]? = some { k with recvBuf := fs.flatten ++ rest } :=
      conns_upd_self n c _ hk
    have h2 : descOf (Node.setRecvBuf c n (fs.flatten ++ rest)) c = descOf n c := descOf_upd n c c _ (fun _ _ => rfl)
    have h3 := frame_agrees (H := H) _ c now f _ h1 ms (by rw [h2]; exact h)
    have hst := steps_handleFrame (H := H) (Q := fun _ _ _ => True) c now (Node.setRecvBuf c n (fs.flatten ++ rest)) f trivial
    obtain ⟨k2, h4, -⟩ := (steps_node hst).old c _ h1
    have h5 := ih _ k2 h4 _ h3
    rw [(steps_node hst).magic] at h5
    have e : accepted H n.magic (f :: fs) = accepted H n.magic [f] ++ accepted H n.magic fs := by
      unfold accepted
      rw [← List.filterMap_append]
      rfl
    rw [e, ← List.append_assoc]
    exact h5

theorem step_agrees (n : Node) (e : Event) (c : Nat) (ms : List Msg) (h : Agrees (descOf n c) ms) :
    Agrees (descOf (n.step H e) c) (ms ++ accepted H n.magic (n.stepFrames H e c)) := by
  by_cases hr : ∃ chunk now k, e = .read c (.data chunk) now ∧ chunk ≠ [] ∧ n.conns[c]? = some k ∧ k.isOpen = true
  · obtain ⟨chunk, now, k, rfl, hne, hk, ho⟩ := hr
    have hp : c ∈ n.peers := mem_peers.2 ⟨k, hk, ho⟩
    obtain ⟨fs, rest, -, h2, h3, -, -⟩ := read_spec (H := H) n c chunk now k hk hne
    have hs : n.step H (.read c (.data chunk) now) = (n.handleRead H c (.data chunk) now).1 := by
      unfold Node.step
      simp only [if_pos hp]
    have hf : n.stepFrames H (.read c (.data chunk) now) c = fs := by
      unfold Node.stepFrames
      simp only
      rw [if_pos ⟨trivial, hp, hne⟩, hk]
      exact h3
    rw [hs, h2, hf]
    have hk2 : (n.received c chunk now).conns[c]? = _ := conns_upd_self n c _ hk
    refine all_agrees (H := H) c now fs rest _ _ hk2 ms ?_
    rw [show descOf (n.received c chunk now) c = descOf n c from descOf_upd n c c (fun k => { k with
        recvBuf := k.recvBuf ++ chunk, rxBytes := k.rxBytes + chunk.length, lastRx := now }) (fun _ _ => rfl)]
    exact h
  · have hd : descOf (n.step H e) c = descOf n c ∧ n.stepFrames H e c = [] := by
      by_cases hq : ∃ r now, e = .read c r now
      · obtain ⟨r, now, rfl⟩ := hq
        unfold Node.step
        simp only
        by_cases hp : c ∈ n.peers
        · rw [if_pos hp]
          obtain ⟨k, hk, ho⟩ := mem_peers.1 hp
          have hcl : ∀ n' : Node, descOf (n'.handleClose c) c = descOf n' c := fun n' =>
            descOf_steps (H := H) (Q := fun _ _ _ => False) (steps_handleClose n' c).two c id
          cases r with
          | raised => exact ⟨hcl n, rfl⟩
          | data chunk =>
            by_cases hne : chunk = []
            · subst hne
              refine ⟨?_, ?_⟩
              · unfold Node.handleRead
                simp only [if_true]
                rw [hcl, hcl]
              · unfold Node.stepFrames
                simp
            · exact absurd ⟨chunk, now, k, rfl, hne, hk, ho⟩ hr
        · rw [if_neg hp]
          refine ⟨rfl, ?_⟩
          unfold Node.stepFrames
          split
          · rw [if_neg (fun h => hp h.2.1)]
          · rfl
      · refine ⟨descOf_steps (Q := e.stores) (steps2_step n e (fun _ _ _ h => h)) c (fun hs => ?_), ?_⟩
        · cases e <;> try exact hs.elim
          cases hs
          exact hq ⟨_, _, rfl⟩
        · unfold Node.stepFrames
          split
          · rename_i c' chunk now
            rw [if_neg]
            rintro ⟨rfl, -⟩
            exact hq ⟨_, _, rfl⟩
          · rfl
    rw [hd.1, hd.2]
    simpa [accepted] using h

/-- C105: in every history, what a connection says of its peer is what the peer said: it is acknowledged exactly if the
peer sent an acknowledgement, and the attributes are those of the last version message that was accepted, or none. -/
theorem C105_description (n : Node) (hn : n.conns = []) (es : List Event) (c : Nat) :
    Agrees (descOf (n.run H es) c) (accepted H n.magic (n.handled H es c)) := by
  have key : ∀ (es : List Event) (n : Node) (ms : List Msg), Agrees (descOf n c) ms →
      Agrees (descOf (n.run H es) c) (ms ++ accepted H n.magic (n.handled H es c)) := by
    intro es
    induction es with
    | nil =>
      intro n ms h
      simpa [Node.handled, accepted, Node.run] using h
    | cons e es ih =>
      intro n ms h
      have h1 := ih _ _ (step_agrees (H := H) n e c ms h)
      rw [(steps2_event (steps2_step (H := H) (Q := fun _ _ _ => True) n e (fun _ _ _ _ => trivial))).magic] at h1
      rw [run_cons, Node.handled]
      unfold accepted at h1 ⊢
      rw [List.filterMap_append, ← List.append_assoc]
      exact h1
  have := key es n [] (by unfold descOf; rw [hn]; exact agrees_blank)
  simpa using this

/-- The greeting of a node, as bytes. -/
def someGreeting : Bytes := (((node0 .py3 125).run Hashes.toy (pieces.take 1)).conns.map (·.sendBuf)).flatten

/-- A peer that introduces itself, in two pieces with an acknowledgement. -/
example : let es := pieces.take 1 ++ [.read 0 (.data (someGreeting.take 50)) 6000,
      .read 0 (.data (someGreeting.drop 50 ++ wireFrame Hashes.toy [1, 2, 3, 4] "verack" [])) 6000]
    (accepted Hashes.toy [1, 2, 3, 4] ((node0 .py3 125).handled Hashes.toy es 0)).map (·.command) = ["version", "verack"] ∧
    ((node0 .py3 125).run Hashes.toy es).conns.map (fun k => (k.verack, k.externalIp)) = [(true, some "10.0.0.2".toList)] := by
  decide +kernel

end NBC.Props
