import Verif.Props.NodePeers

/-!
# C143: what an `addr` message teaches, and the time stamps of a node's own peers
-/

namespace NBC.Props
open NBC NBC.Spec NBC.Spec.Wire NBC.Proto NBC.P2P

variable {H : Hashes}

/-- One entry of an `addr` message: 16 bytes of ip, port, time, services. -/
structure Told where
  ip : Bytes
  port : Nat
  time : Nat
  services : Nat

/-- The numbers fit their places. -/
structure Told.Fits (t : Told) : Prop where
  ip : t.ip.length = 16
  port : t.port < 65536
  time : t.time < 2 ^ 32
  services : t.services < 2 ^ 64

/-- Its 30 bytes, `<I<Q16s>H`. -/
def Told.bytes (t : Told) : Bytes :=
  (beBytes 4 t.time).reverse ++ ((beBytes 8 t.services).reverse ++ (t.ip ++ beBytes 2 t.port))

/-- The address it is about. -/
def Told.key (t : Told) : Addr := (ipText t.ip, (t.port : Int))

/-- What is said about it. -/
def Told.value (t : Told) : Val × Val := (.int t.time, .int t.services)

/-- An `addr` message. -/
def addrMany (H : Hashes) (magic : Bytes) (l : List Told) : Bytes :=
  wireFrame H magic "addr" (varSize l.length ++ (l.map Told.bytes).flatten)

/-- The value the message is parsed to. -/
def Told.val (t : Told) : Val := .obj "NetworkAddress"
  [("timestamp", .int t.time), ("services", .int t.services), ("address", .str (ipText t.ip)), ("port", .int t.port)]

theorem numBytes_nat (f : Fmt) (big : Bool) {v : Nat} (h : v < 2 ^ bits f) :
    numBytes f big v = if big = true then beBytes (bits f / 8) v else (beBytes (bits f / 8) v).reverse := by
  unfold numBytes
  have : (((v : Int) % 2 ^ bits f).toNat) = v := by
    rw [Int.emod_eq_of_lt (by omega) (by exact_mod_cast h), Int.toNat_natCast]
  rw [this]

theorem told_wire {t : Told} (h : t.Fits) : wNetworkAddress t.val t.bytes t.val := by
  have h1 : inRange .I (t.time : Int) := by
    unfold inRange lo hi
    simp only [twos, bits, Bool.false_eq_true, if_false]
    have := h.time
    omega
  have h2 : inRange .Q (t.services : Int) := by
    unfold inRange lo hi
    simp only [twos, bits, Bool.false_eq_true, if_false]
    have := h.services
    omega
  have h3 : inRange .H (t.port : Int) := by
    unfold inRange lo hi
    simp only [twos, bits, Bool.false_eq_true, if_false]
    have := h.port
    omega
  have hb : t.bytes = numBytes .I false t.time ++ (numBytes .Q false t.services ++ (t.ip ++ (numBytes .H true t.port ++ []))) := by
    rw [numBytes_nat .I false (show t.time < 2 ^ bits .I from h.time),
      numBytes_nat .Q false (show t.services < 2 ^ bits .Q from h.services),
      numBytes_nat .H true (show t.port < 2 ^ bits .H from h.port), List.append_nil]
    rfl
  rw [hb]
  exact ⟨_, _, ⟨.int t.time, _, _, _, _, _, .inl ⟨t.time, rfl, h1, rfl, rfl⟩,
    ⟨.int t.services, _, _, _, _, _, .inl ⟨t.services, rfl, h2, rfl, rfl⟩,
    ⟨.str (ipText t.ip), t.ip, _, _, _, _, ⟨h.ip, rfl, rfl⟩,
    ⟨.int t.port, _, _, _, _, _, .inl ⟨t.port, rfl, h3, rfl, rfl⟩, ⟨rfl, rfl, rfl⟩, rfl, rfl, rfl⟩, rfl, rfl, rfl⟩,
      rfl, rfl, rfl⟩, rfl, rfl, rfl⟩, rfl, rfl⟩

theorem bookEntry_told (t : Told) : bookEntry t.val = .ok (t.key, t.value) := by
  unfold bookEntry Told.val attr
  simp only
  rw [getField_cons_ne (by decide), getField_cons_ne (by decide), getField_head, ok_bind,
    getField_cons_ne (by decide), getField_cons_ne (by decide), getField_cons_ne (by decide), getField_head, ok_bind,
    getField_head, ok_bind, getField_cons_ne (by decide), getField_head, ok_bind]
  rfl

/-- The last thing that a list says about an address. -/
def lastTold (l : List Told) (a : Addr) : Option (Val × Val) :=
  (l.reverse.find? (fun t => t.key = a)).map Told.value

theorem addAddresses_told (l : List Told) (n : Node) (hr : n.addresses.length + l.length ≤ 2501) :
    (n.addAddresses (l.map Told.val)) =
      ({ n with addresses := l.foldl (fun d t => dictSet d t.key t.value) n.addresses }, none) := by
  induction l generalizing n with
  | nil => rfl
  | cons t l ih =>
    rw [List.length_cons] at hr
    rw [List.map_cons, Node.addAddresses, if_neg (by unfold maxAddresses; omega), bookEntry_told]
    simp only
    rw [ih _ (by
      have := dictSet_length n.addresses t.key t.value
      show (dictSet n.addresses t.key t.value).length + l.length ≤ 2501
      omega)]
    rfl

theorem foldl_told (l : List Told) (d : List (Addr × Val × Val)) (a : Addr) :
    dictGet (l.foldl (fun d t => dictSet d t.key t.value) d) a = (lastTold l a).or (dictGet d a) := by
  induction l generalizing d with
  | nil => rfl
  | cons t l ih =>
    rw [List.foldl_cons, ih, dictGet_set]
    unfold lastTold
    rw [List.reverse_cons, List.find?_append, List.find?_singleton]
    cases h : l.reverse.find? (fun t => t.key = a) with
    | some u => rfl
    | none =>
      by_cases hk : t.key = a
      · simp [hk]
      · simp [hk, show ¬ a = t.key from fun h => hk h.symm]

theorem told_fields {l : List Told} (hl : ∀ t ∈ l, t.Fits) (h : l.length ≤ 1000) :
    wFields [("addr_list", wArray wNetworkAddress 0 (some 1000))] [("addr_list", .tuple (l.map Told.val))]
      (varSize l.length ++ (l.map Told.bytes).flatten) [("addr_list", .tuple (l.map Told.val))] := by
  refine ⟨_, _, _, [], [], [], ⟨l.map (fun t => (t.val, t.bytes, t.val)), ?_, Nat.zero_le _, ?_, ?_,
    ?_, ?_, ?_⟩, ⟨rfl, rfl, rfl⟩, rfl, (List.append_nil _).symm, rfl⟩
  · intro u hu
    obtain ⟨t, ht, rfl⟩ := List.mem_map.1 hu
    exact told_wire (hl t ht)
  · rintro b ⟨⟩
    rw [List.length_map]
    exact h
  · rw [List.length_map]
    unfold varLimit
    omega
  · rw [List.map_map]; rfl
  · rw [List.map_map, List.length_map]; rfl
  · rw [List.map_map]; rfl

theorem told_payload {l : List Told} (hl : ∀ t ∈ l, t.Fits) (h : l.length ≤ 1000) :
    (varSize l.length ++ (l.map Told.bytes).flatten).length < 2 ^ 32 := by
  have h30 : ∀ l : List Told, (∀ t ∈ l, t.Fits) → (l.map Told.bytes).flatten.length = 30 * l.length := by
    intro l hl
    induction l with
    | nil => rfl
    | cons a l ih =>
      rw [List.map_cons, List.flatten_cons, List.length_append, ih (fun e he => hl e (List.mem_cons_of_mem _ he)),
        wNet_length (told_wire (hl a List.mem_cons_self)), List.length_cons]
      omega
  rw [List.length_append, h30 l hl]
  have hvs : (varSize l.length).length ≤ 9 := by
    unfold varSize
    repeat' split
    all_goals simp [beBytes_length]
  omega

/-- C143: an `addr` message of at most 1000 entries, while there is room for them, changes the address book and nothing
else: every address it names gets the time and the services that the message says last, and all others stay. -/
theorem C143_told (n : Node) (c : Nat) (now : Int) (hm : n.magic.length = 4) (l : List Told) (hl : ∀ t ∈ l, t.Fits)
    (h : l.length ≤ 1000) (hr : n.addresses.length + l.length ≤ 2501) :
    let n' := n.handleFrame H c now (addrMany H n.magic l)
    n' = { n with addresses := n'.addresses } ∧
      ∀ a, dictGet n'.addresses a = (lastTold l a).or (dictGet n.addresses a) := by
  obtain ⟨t, -, -, -, -, -, h3⟩ := C63_message H "addr" _ (by simp [messages]) _ _ _ n.magic [] (told_fields hl h)
    (told_payload hl h) hm
  rw [List.append_nil] at h3
  have e : n.handleFrame H c now (addrMany H n.magic l) =
      { n with addresses := l.foldl (fun d t => dictSet d t.key t.value) n.addresses } := by
    unfold Node.handleFrame addrMany
    rw [h3]
    simp only
    rw [handleMessage_addr n c _ now rfl]
    simp only [getField_head]
    unfold Node.commandAddress
    simp only
    rw [addAddresses_told l n hr]
  intro n'
  have e' : n' = _ := e
  rw [e']
  exact ⟨rfl, foldl_told l n.addresses⟩

/-- C143: a full book is left alone. -/
theorem C143_full (n : Node) (c : Nat) (now : Int) (hm : n.magic.length = 4) (l : List Told) (hl : ∀ t ∈ l, t.Fits)
    (h : l.length ≤ 1000) (hr : 2500 < n.addresses.length) : n.handleFrame H c now (addrMany H n.magic l) = n := by
  obtain ⟨t, -, -, -, -, -, h3⟩ := C63_message H "addr" _ (by simp [messages]) _ _ _ n.magic [] (told_fields hl h)
    (told_payload hl h) hm
  rw [List.append_nil] at h3
  unfold Node.handleFrame addrMany
  rw [h3]
  simp only
  rw [handleMessage_addr n c _ now rfl]
  simp only [getField_head]
  unfold Node.commandAddress
  simp only
  cases l with
  | nil => rfl
  | cons t l => rw [List.map_cons, Node.addAddresses, if_pos (show n.addresses.length > maxAddresses from hr)]

theorem mem_lastTold {l : List Told} {t : Told} (ht : t ∈ l) : ∃ u ∈ l, u.key = t.key ∧ lastTold l t.key = some u.value := by
  unfold lastTold
  cases h : l.reverse.find? (fun u => u.key = t.key) with
  | none => exact absurd (List.find?_eq_none.1 h t (List.mem_reverse.2 ht)) (by simp)
  | some u =>
    exact ⟨u, List.mem_reverse.1 (List.mem_of_find?_eq_some h), by simpa using List.find?_some h, rfl⟩

/-- C143: in Python 2, a node `B` that is asked for addresses answers with a message from which another node `A` of the
same coin, while it has room, learns every address of the answer (with the time and services of one of the entries for
that address: several texts may mean the same ip). -/
theorem C143_spread_partial (A B : Node) (a b : Nat) (now : Int) (hv : B.ver = .py2) (hm : A.magic.length = 4)
    (hAB : B.magic = A.magic) (told : Addr × Val × Val → Told)
    (ht : ∀ e ∈ replyEntries B, (told e).Fits ∧ wNetworkAddress (entryObj e) (told e).bytes (told e).val)
    (hr : A.addresses.length + (replyEntries B).length ≤ 2501) :
    ∃ f, B.commandGetAddress H b = (B.upd b (fun k => { k with sendBuf := k.sendBuf ++ f }), none) ∧
      ∀ e ∈ replyEntries B, ∃ u ∈ (replyEntries B).map told, u.key = (told e).key ∧
        dictGet (A.handleFrame H a now f).addresses (told e).key = some u.value := by
  obtain ⟨-, hlen, -, hsend, -⟩ := C72_reply_partial (H := H) B b hv (by rw [hAB]; exact hm)
  refine ⟨_, hsend (fun e => (told e).bytes) (fun e he => ⟨_, (ht e he).2⟩), fun e he => ?_⟩
  have hf : addrReply H B (fun e => (told e).bytes) = addrMany H A.magic ((replyEntries B).map told) := by
    unfold addrReply addrMany
    rw [hAB, List.length_map, List.map_map]
    rfl
  have hfits : ∀ t ∈ (replyEntries B).map told, t.Fits := by
    intro t htt
    obtain ⟨e, he, rfl⟩ := List.mem_map.1 htt
    exact (ht e he).1
  have hc := C143_told (H := H) A a now hm ((replyEntries B).map told) hfits (by rw [List.length_map, hlen]; omega)
    (by rw [List.length_map]; exact hr)
  rw [hf]
  obtain ⟨u, hu, hk, hlast⟩ := mem_lastTold (List.mem_map_of_mem (f := told) he)
  refine ⟨u, hu, hk, ?_⟩
  rw [hc.2, hlast]
  rfl

/-- C143 is false of a node's own peers: when the acknowledgement of a peer is read, the time stored for it is the time
that has passed since it was last heard, zero, and not the time of the clock. -/
theorem C143_peer_false (n : Node) (c : Nat) (k : Conn) (now : Int) (hk : n.conns[c]? = some k) (hb : k.recvBuf = [])
    (hm : n.magic.length = 4) (hr : n.addresses.length < 2500) :
    ∃ t, dictGet (n.handleRead H c (.data (wireFrame H n.magic "verack" [])) now).1.addresses k.address =
      some (t, k.services) ∧ timeOf t = 0 := by
  have hf : IsFrame (wireFrame H n.magic "verack" []) := isFrame_wire (by decide) _ _ hm (by decide)
  rw [read_one n c k _ now hk hb hf]
  have e1 : (n.received c (wireFrame H n.magic "verack" []) now).conns[c]? = _ := conns_upd_self n c _ hk
  have e2 : (Node.setRecvBuf c (n.received c (wireFrame H n.magic "verack" []) now) []).conns[c]? = _ :=
    conns_upd_self _ c _ e1
  generalize hn' : Node.setRecvBuf c (n.received c (wireFrame H n.magic "verack" []) now) [] = n' at *
  have hmag : n'.magic = n.magic := by rw [← hn']; rfl
  have had : n'.addresses = n.addresses := by rw [← hn']; rfl
  obtain ⟨t, -, -, -, -, -, h3⟩ := C63_message H "verack" [] (by simp [messages]) [] [] [] n.magic [] ⟨rfl, rfl, rfl⟩
    (by decide) hm
  rw [List.append_nil] at h3
  have e : n'.handleFrame H c now (wireFrame H n.magic "verack" []) =
      ((n'.upd c (fun k => { k with verack := true })).commandVersionAck c now).1 := by
    unfold Node.handleFrame
    rw [hmag, h3]
    simp only
    unfold Node.handleMessage
    rw [if_neg (show ¬ "verack" = "version" by decide), if_pos rfl]
    unfold Node.dispatch
    rw [if_neg (show ¬ "verack" = "ping" by decide), if_neg (show ¬ "verack" = "version" by decide), if_pos rfl]
  have hu : (n'.upd c (fun k => { k with verack := true })).conns[c]? = _ := conns_upd_self n' c _ e2
  refine ⟨stamp (now - now), ?_, ?_⟩
  · show dictGet (n'.handleFrame H c now (wireFrame H n.magic "verack" [])).addresses k.address = _
    rw [e]
    unfold Node.commandVersionAck
    rw [hu]
    simp only
    rw [if_pos (show (n'.upd c (fun k => { k with verack := true })).addresses.length < maxAddresses by
      show n'.addresses.length < 2500
      rw [had]; exact hr)]
    simp only [dictGet_set, if_pos]
    rfl
  · simp [stamp, timeOf]

/-- C143: with 1000 addresses in the book whose services are known and whose time is positive, an entry of time zero or
less is not in the answer to `getaddr`. -/
theorem C143_hidden_false (n : Node) (hv : n.ver = .py2) (hm : n.magic.length = 4) (e : Addr × Val × Val)
    (he : timeOf e.2.1 ≤ 0) (h : 1000 ≤ (n.addresses.filter (fun e => known e && decide (0 < timeOf e.2.1))).length) :
    e ∉ replyEntries n := by
  intro hmem
  obtain ⟨hperm, hlen, hnew, -, -⟩ := C72_reply_partial (H := Hashes.toy) n 0 hv hm
  have hc := hperm.countP_eq (fun e => decide (0 < timeOf e.2.1))
  rw [List.countP_append, List.countP_filter] at hc
  have h0 : (leftOut n).countP (fun e => decide (0 < timeOf e.2.1)) = 0 := by
    rw [List.countP_eq_zero]
    intro o ho
    have := hnew e hmem o ho
    simpa using le_trans this he
  have h1 : (replyEntries n).countP (fun e => decide (0 < timeOf e.2.1)) < (replyEntries n).length := by
    refine lt_of_le_of_ne List.countP_le_length fun heq => ?_
    have := List.countP_eq_length.1 heq e hmem
    simp only [decide_eq_true_eq] at this
    exact absurd this (not_lt.2 he)
  rw [← List.countP_eq_length_filter] at h
  have h2 : List.countP (fun a => decide (0 < timeOf a.2.1) && known a) n.addresses =
      List.countP (fun e => known e && decide (0 < timeOf e.2.1)) n.addresses :=
    List.countP_congr (by intro x _; simp [and_comm])
  omega

/-! ### Cases -/

/-- Three entries, two of them for the same address: they fit, and the last one counts. -/
example : (∀ t ∈ [Told.mk someIp 8333 5 1, ⟨someIp, 8334, 6, 1⟩, ⟨someIp, 8333, 7, 3⟩], t.Fits) ∧
    lastTold [⟨someIp, 8333, 5, 1⟩, ⟨someIp, 8334, 6, 1⟩, ⟨someIp, 8333, 7, 3⟩] (ipText someIp, 8333) =
      some (.int 7, .int 3) ∧ (node0 .py3 125).magic.length = 4 ∧ (node0 .py3 125).addresses.length + 3 ≤ 2501 := by
  refine ⟨?_, rfl, by decide +kernel, by decide +kernel⟩
  intro t ht
  simp only [List.mem_cons, List.not_mem_nil, or_false] at ht
  rcases ht with rfl | rfl | rfl <;> exact ⟨by decide, by decide, by decide, by decide⟩

/-- A node whose book has an entry that can be sent, with a time in fractions of seconds. -/
example : let B := { node0 .py2 125 with addresses := [((ipText someIp, 8333), .float 15 1, .int 1)] }
    ∀ e ∈ replyEntries B, (Told.mk someIp 8333 7 1).Fits ∧
      wNetworkAddress (entryObj e) (Told.mk someIp 8333 7 1).bytes (Told.mk someIp 8333 7 1).val := by
  intro B e he
  have hf : (Told.mk someIp 8333 7 1).Fits := ⟨by decide, by decide, by decide, by decide⟩
  have : e = ((ipText someIp, 8333), .float 15 1, .int 1) := by
    have h2 : e ∈ B.addresses := (List.mergeSort_perm B.addresses newerFirst).mem_iff.1
      (List.mem_of_mem_filter (List.mem_of_mem_take he))
    simpa [B] using h2
  subst this
  refine ⟨hf, ?_⟩
  obtain ⟨vs, vs', ⟨v, b1, v', ts, b2, ts', w1, w2, h1, h2, h3⟩, h4, h5⟩ := told_wire hf
  injection h4 with _ h4
  injection h5 with _ h5
  rw [← h4] at h1
  rw [← h5] at h3
  injection h1 with h1a h1b
  injection h3 with h3a h3b
  injection h1a with _ h1a
  injection h3a with _ h3a
  refine ⟨_, _, ⟨.float 15 1, b1, v', ts, b2, ts', .inr ⟨rfl, 15, 1, rfl, by decide, by decide, ?_, ?_⟩, w2, rfl, h2, rfl⟩,
    ?_, ?_⟩
  · rcases w1 with ⟨i, e1, -, e2, -⟩ | ⟨-, m, k, e1, -⟩
    · rw [← h1a] at e1
      injection e1 with e1
      subst e1
      exact e2
    · rw [← h1a] at e1; cases e1
  · rw [← h3a]; rfl
  · rw [← h1b]; rfl
  · rw [← h3a, ← h3b]; rfl

/-- A peer that has connected. -/
example : ∃ k, ((node0 .py3 125).run Hashes.toy (flood Hashes.toy 0)).conns[0]? = some k ∧ k.recvBuf = [] := by
  obtain ⟨-, -, k, h, -, hb⟩ := flooded 0 (by decide)
  exact ⟨k, h, hb⟩

/-- A book of 1000 addresses that were heard of, and the address of a peer. -/
example : let n := { node0 .py2 125 with addresses := (List.range 1000).map (fun i : Nat => ((ipText someIp, (i : Int)),
      (Val.int 1500000000, Val.int 1))) ++ [(("10.0.0.2".toList, 4000), stamp 0, Val.int 1)] }
    1000 ≤ (n.addresses.filter (fun e => known e && decide (0 < timeOf e.2.1))).length ∧
    (("10.0.0.2".toList, (4000 : Int)), stamp 0, Val.int 1) ∈ n.addresses ∧ timeOf (stamp 0) ≤ 0 := by
  intro n
  refine ⟨?_, List.mem_append_right _ (List.mem_singleton.2 rfl), by simp [stamp, timeOf]⟩
  have h : ∀ e ∈ (List.range 1000).map (fun i : Nat => ((ipText someIp, (i : Int)), (Val.int 1500000000, Val.int 1))),
      (known e && decide (0 < timeOf e.2.1)) = true := by
    intro e he
    obtain ⟨i, -, rfl⟩ := List.mem_map.1 he
    simp [known, Val.isNone, timeOf]
  show 1000 ≤ (List.filter _ (_ ++ _)).length
  rw [List.filter_append, List.filter_eq_self.2 h, List.length_append, List.length_map, List.length_range]
  omega

end NBC.Props
