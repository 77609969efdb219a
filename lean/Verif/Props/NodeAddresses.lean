import Verif.Props.NodeStream

/-!
# Properties C71 and C72: the address book
-/

namespace NBC.Props
open NBC NBC.Spec NBC.Spec.Wire NBC.Proto NBC.P2P

variable {H : Hashes} {Q : Clock → Nat → Int → Prop}

/-! ### C71 -/

theorem dictSet_length {α β : Type} [DecidableEq α] (d : List (α × β)) (a : α) (b : β) :
    (dictSet d a b).length ≤ d.length + 1 := by
  unfold dictSet
  split
  · rw [List.length_map]; omega
  · rw [List.length_append]; simp

theorem book_prim {n m : Node} (hp : Prim2 H Q n m) (h : n.addresses.length ≤ 2501) : m.addresses.length ≤ 2501 := by
  cases hp with
  | prim _ hp =>
    cases hp with
    | addrSet a v h' hv =>
      have := dictSet_length n.addresses a v
      unfold maxAddresses at h'
      show (dictSet n.addresses a v).length ≤ 2501
      omega
    | addrDel a => exact Nat.le_trans (List.length_filter_le ..) h
    | _ => exact h
  | recv c k chunk now hk _ => exact h
  | setBuf c b => exact h

/-- C71: the node never stores more than 2501 addresses: one more than it should (`C71_bound_false`). -/
theorem C71_bound_partial (n : Node) (hn : n.addresses = []) (es : List Event) : (n.run H es).addresses.length ≤ 2501 :=
  run_invariant (fun m => m.addresses.length ≤ 2501) (fun _ _ => book_prim) n es (by rw [hn]; decide)

theorem mem_dictSet {α β : Type} [DecidableEq α] (d : List (α × β)) (a : α) (b : β) (e : α × β) :
    e ∈ dictSet d a b ↔ e = (a, b) ∨ e ∈ d ∧ e.1 ≠ a := by
  unfold dictSet
  split
  · rename_i h
    simp only [List.mem_map]
    constructor
    · rintro ⟨e', he', rfl⟩
      by_cases h' : e'.1 = a
      · rw [if_pos h']; exact .inl rfl
      · rw [if_neg h']; exact .inr ⟨he', h'⟩
    · rintro (rfl | ⟨h1, h2⟩)
      · obtain ⟨e', he', h'⟩ := List.mem_map.1 h
        exact ⟨e', he', if_pos h'⟩
      · exact ⟨e, h1, if_neg h2⟩
  · rename_i h
    rw [List.mem_append, List.mem_singleton, or_comm]
    refine or_congr_right ⟨fun he => ⟨he, ?_⟩, And.left⟩
    rintro rfl
    exact h (List.mem_map.2 ⟨e, he, rfl⟩)

/-- C71: a `verack` never makes the book exceed 2500 entries; while there is room the address of the peer gets the
time since its last byte and its services, and all other entries stay. -/
theorem C71_verack (n : Node) (c : Nat) (k : Conn) (hk : n.conns[c]? = some k) (hm : n.magic.length = 4) (now : Int) :
    let n' := n.handleFrame H c now (wireFrame H n.magic "verack" [])
    (2500 ≤ n.addresses.length → n'.addresses = n.addresses) ∧
    (n.addresses.length < 2500 → n'.addresses.length ≤ 2500 ∧
      ∀ e, e ∈ n'.addresses ↔ e = (k.address, stamp (now - k.lastRx), k.services) ∨ e ∈ n.addresses ∧ e.1 ≠ k.address) := by
  obtain ⟨t, -, -, -, -, -, h3⟩ := C63_message H "verack" [] (by simp [messages]) [] [] [] n.magic [] ⟨rfl, rfl, rfl⟩
    (by decide) hm
  rw [List.append_nil] at h3
  have e : n.handleFrame H c now (wireFrame H n.magic "verack" []) =
      ((n.upd c (fun k => { k with verack := true })).commandVersionAck c now).1 := by
    unfold Node.handleFrame
    rw [h3]
    simp only
    unfold Node.handleMessage
    rw [if_neg (show ¬ "verack" = "version" by decide), if_pos rfl]
    unfold Node.dispatch
    rw [if_neg (show ¬ "verack" = "ping" by decide), if_neg (show ¬ "verack" = "version" by decide), if_pos rfl]
  have hu : (n.upd c (fun k => { k with verack := true })).conns[c]? = _ := conns_upd_self n c _ hk
  intro n'
  have he : n' = _ := e
  clear_value n'
  subst he
  unfold Node.commandVersionAck
  rw [hu]
  simp only
  constructor
  · intro h
    split
    · rename_i h'
      exact absurd (show n.addresses.length < 2500 from h') (by omega)
    · rfl
  · intro h
    split
    · exact ⟨Nat.le_trans (dictSet_length n.addresses _ _) h, fun e => mem_dictSet _ _ _ _⟩
    · rename_i h'
      exact absurd (show n.addresses.length < maxAddresses from h) h'

/-- The value of one entry of an `addr` message. -/
def entryVal (ip : Bytes) (port : Nat) : Val := .obj "NetworkAddress"
  [("timestamp", .int 0), ("services", .int 1), ("address", .str (ipText ip)), ("port", .int port)]

/-- Its bytes. -/
def entryBytes (ip : Bytes) (port : Nat) : Bytes :=
  numBytes .I false 0 ++ (numBytes .Q false 1 ++ (ip ++ (numBytes .H true port ++ [])))

theorem entry_wire (ip : Bytes) (port : Nat) (h16 : ip.length = 16) (hp : port < 65536) :
    wNetworkAddress (entryVal ip port) (entryBytes ip port) (entryVal ip port) := by
  have hr : inRange .H (port : Int) := by
    unfold inRange lo hi
    simp only [twos, bits, Bool.false_eq_true, if_false]
    omega
  exact ⟨_, _, ⟨.int 0, _, _, _, _, _, .inl ⟨0, rfl, by unfold inRange; decide, rfl, rfl⟩,
    ⟨.int 1, _, _, _, _, _, .inl ⟨1, rfl, by unfold inRange; decide, rfl, rfl⟩,
    ⟨.str (ipText ip), ip, _, _, _, _, ⟨h16, rfl, rfl⟩,
    ⟨.int port, _, _, _, _, _, .inl ⟨port, rfl, hr, rfl, rfl⟩, ⟨rfl, rfl, rfl⟩, rfl, rfl, rfl⟩, rfl, rfl, rfl⟩,
      rfl, rfl, rfl⟩, rfl, rfl, rfl⟩, rfl, rfl⟩

/-- An `addr` message with one entry. -/
def addrFrame (H : Hashes) (magic ip : Bytes) (port : Nat) : Bytes :=
  wireFrame H magic "addr" (varSize 1 ++ entryBytes ip port)

theorem wNet_length {v v' : Val} {b : Bytes} (h : wNetworkAddress v b v') : b.length = 30 := by
  obtain ⟨vs, vs', h, -, -⟩ := h
  obtain ⟨v1, b1, v1', t1, r1, t1', w1, h, -, rfl, -⟩ := h
  obtain ⟨v2, b2, v2', t2, r2, t2', w2, h, -, rfl, -⟩ := h
  obtain ⟨v3, b3, v3', t3, r3, t3', w3, h, -, rfl, -⟩ := h
  obtain ⟨v4, b4, v4', t4, r4, t4', w4, h, -, rfl, -⟩ := h
  obtain ⟨-, rfl, -⟩ := h
  have e1 := wNumber_length w1
  have e2 := wNumber_length w2
  have e3 := w3.1
  have e4 := wNumber_length w4
  simp only [List.length_append, e1, e2, e3, e4]
  rfl

theorem handleMessage_addr (n : Node) (c : Nat) (m : Msg) (now : Int) (h : m.command = "addr") :
    n.handleMessage H c m now =
      match getField m.fields "addr_list" with
      | .error e => (n, some e)
      | .ok l => n.commandAddress l := by
  unfold Node.handleMessage
  rw [h, if_neg (show ¬ "addr" = "version" by decide), if_neg (show ¬ "addr" = "verack" by decide)]
  unfold Node.dispatch
  rw [h, if_neg (show ¬ "addr" = "ping" by decide), if_neg (show ¬ "addr" = "version" by decide),
    if_neg (show ¬ "addr" = "verack" by decide), if_neg (show ¬ "addr" = "getaddr" by decide),
    if_pos (show "addr" = "addr" from rfl)]
  rfl

theorem bookEntry_val (ip : Bytes) (port : Nat) :
    bookEntry (entryVal ip port) = .ok ((ipText ip, (port : Int)), .int 0, .int 1) := by
  unfold bookEntry entryVal attr
  simp only
  rw [getField_cons_ne (by decide), getField_cons_ne (by decide), getField_head, ok_bind,
    getField_cons_ne (by decide), getField_cons_ne (by decide), getField_cons_ne (by decide), getField_head, ok_bind,
    getField_head, ok_bind, getField_cons_ne (by decide), getField_head, ok_bind]

theorem handleFrame_addr (n : Node) (c : Nat) (now : Int) (ip : Bytes) (port : Nat) (hi : ip.length = 16)
    (hp : port < 65536) (magic : Bytes) (hmg : n.magic = magic) (hm : magic.length = 4)
    (hl : n.addresses.length ≤ 2500) :
    n.handleFrame H c now (addrFrame H magic ip port) =
      { n with addresses := dictSet n.addresses (ipText ip, (port : Int)) (.int 0, .int 1) } := by
  subst hmg
  have hw := entry_wire ip port hi hp
  have h1 : wFields [("addr_list", wArray wNetworkAddress 0 (some 1000))] [("addr_list", .tuple [entryVal ip port])]
      (varSize 1 ++ entryBytes ip port) [("addr_list", .tuple [entryVal ip port])] :=
    ⟨_, _, _, [], [], [], ⟨[(entryVal ip port, entryBytes ip port, entryVal ip port)], by
      intro t ht
      rw [List.mem_singleton] at ht
      subst ht
      exact hw, Nat.zero_le _, by rintro h ⟨⟩; simp, by simp [varLimit], rfl, rfl, rfl⟩, ⟨rfl, rfl, rfl⟩, rfl, by simp, rfl⟩
  have h2 : (varSize 1 ++ entryBytes ip port).length < 2 ^ 32 := by
    rw [List.length_append, wNet_length hw]
    decide
  obtain ⟨t, -, -, -, -, -, h3⟩ := C63_message H "addr" _ (by simp [messages]) _ _ _ n.magic [] h1 h2 hm
  rw [List.append_nil] at h3
  unfold Node.handleFrame addrFrame
  rw [h3]
  simp only
  rw [handleMessage_addr n c _ now rfl]
  simp only [getField_head]
  unfold Node.commandAddress
  simp only
  unfold Node.addAddresses
  rw [if_neg (by unfold maxAddresses; omega), bookEntry_val]
  simp only
  unfold Node.addAddresses
  rfl

theorem isFrame_wire {s : String} (hs : s ∈ commandNames) (payload magic : Bytes) (hm : magic.length = 4)
    (hp : payload.length < 2 ^ 32) : IsFrame (wireFrame H magic s payload) := by
  have hlen := wireFrame_length H hs payload magic hm
  have := firstMsgLen_frame H hs payload magic [] hm hp
  rw [List.append_nil, firstMsgLen_eq, if_neg (by omega)] at this
  exact ⟨by omega, (Option.some.inj (Except.ok.inj this)).symm⟩

theorem read_one (n : Node) (c : Nat) (k : Conn) (f : Bytes) (now : Int) (hk : n.conns[c]? = some k)
    (hb : k.recvBuf = []) (hf : IsFrame f) :
    n.handleRead H c (.data f) now = ((Node.setRecvBuf c (n.received c f now) []).handleFrame H c now f, none) := by
  obtain ⟨fs, rest, h1, h2, -⟩ := read_spec (H := H) n c f now k hk
    (by intro h; have := hf.1; rw [h] at this; exact absurd this (by decide))
  rw [hb, List.nil_append] at h1
  have hs : Splits f [f] [] := ⟨by simp, by simpa using hf, Or.inl (by decide)⟩
  obtain ⟨rfl, rfl⟩ := h1.unique hs
  rw [h2, handleAll, handleAll]
  rfl

/-- An address, `1.2.3.4`. -/
def someIp : Bytes := v4Prefix ++ [1, 2, 3, 4]

/-- A peer connects and sends many addresses. -/
def flood (H : Hashes) (j : Nat) : List Event :=
  [.accept (some ("10.0.0.2".toList, 4000)) 5000 5000 [0, 0, 0, 0, 0, 0, 0, 1]] ++
    (List.range j).map (fun p => .read 0 (.data (addrFrame H [1, 2, 3, 4] someIp p)) 6000)

/-- The state after `j` of them. -/
def Flooded (n : Node) (j : Nat) : Prop :=
  n.magic = [1, 2, 3, 4] ∧ n.addresses.map (·.1) = (List.range j).map (fun p : Nat => (ipText someIp, (p : Int))) ∧
    ∃ k, n.conns[0]? = some k ∧ k.isOpen = true ∧ k.recvBuf = []

theorem flooded_step (n : Node) (j : Nat) (hj : j ≤ 2500) (h : Flooded n j) :
    Flooded (n.step H (.read 0 (.data (addrFrame H [1, 2, 3, 4] someIp j)) 6000)) (j + 1) := by
  obtain ⟨h1, h2, k, h3, h4, h5⟩ := h
  have hlen : n.addresses.length = j := by
    have := congrArg List.length h2
    simpa using this
  have hf : IsFrame (addrFrame H [1, 2, 3, 4] someIp j) := by
    refine isFrame_wire (by decide) _ _ rfl ?_
    rw [List.length_append, wNet_length (entry_wire someIp j (by decide) (by omega))]
    decide
  have hs : n.step H (.read 0 (.data (addrFrame H [1, 2, 3, 4] someIp j)) 6000) =
      (n.handleRead H 0 (.data (addrFrame H [1, 2, 3, 4] someIp j)) 6000).1 := by
    unfold Node.step
    simp only [if_pos (mem_peers.2 ⟨k, h3, h4⟩)]
  rw [hs, read_one n 0 k _ 6000 h3 h5 hf]
  have hh := handleFrame_addr (H := H) (Node.setRecvBuf 0 (n.received 0 (addrFrame H [1, 2, 3, 4] someIp j) 6000) [])
    0 6000 someIp j (by decide) (by omega) [1, 2, 3, 4] h1 rfl (by show n.addresses.length ≤ 2500; omega)
  simp only [hh]
  refine ⟨h1, ?_, ?_⟩
  · show (dictSet n.addresses (ipText someIp, (j : Int)) (Val.int 0, Val.int 1)).map (·.1) = _
    unfold dictSet
    rw [if_neg ?_, List.map_append, h2, List.range_succ, List.map_append]
    · rfl
    · rw [h2]
      intro hm
      obtain ⟨p, hp, e⟩ := List.mem_map.1 hm
      have : (p : Int) = j := congrArg Prod.snd e
      have := List.mem_range.1 hp
      omega
  · have e1 : (n.received 0 (addrFrame H [1, 2, 3, 4] someIp j) 6000).conns[0]? = _ := conns_upd_self n 0 _ h3
    have e2 : (Node.setRecvBuf 0 (n.received 0 (addrFrame H [1, 2, 3, 4] someIp j) 6000) []).conns[0]? = _ :=
      conns_upd_self _ 0 _ e1
    exact ⟨_, e2, h4, rfl⟩

theorem flooded (j : Nat) (hj : j ≤ 2501) :
    Flooded ((node0 .py3 125).run Hashes.toy (flood Hashes.toy j)) j := by
  induction j with
  | zero =>
    refine ⟨by decide +kernel, by decide +kernel, ?_⟩
    have h : (((node0 .py3 125).run Hashes.toy (flood Hashes.toy 0)).conns[0]?).map (fun k => (k.isOpen, k.recvBuf)) =
        some (true, []) := by decide +kernel
    obtain ⟨k, h1, h2⟩ := Option.map_eq_some_iff.1 h
    exact ⟨k, h1, congrArg Prod.fst h2, congrArg Prod.snd h2⟩
  | succ j ih =>
    have : flood Hashes.toy (j + 1) = flood Hashes.toy j ++
        [.read 0 (.data (addrFrame Hashes.toy [1, 2, 3, 4] someIp j)) 6000] := by
      unfold flood
      rw [List.range_succ, List.map_append, List.append_assoc]
      rfl
    rw [this, run_append]
    exact flooded_step _ j (by omega) (ih (by omega))

/-- C71: a peer that sends 2501 addresses makes the node store all of them: `MAX_ADDRESSES` is 2500, but
`command_address` refuses only when there are more already. -/
theorem C71_bound_false :
    ((node0 .py3 125).run Hashes.toy (flood Hashes.toy 2501)).addresses.length = 2501 ∧ maxAddresses = 2500 := by
  have h := (flooded 2501 (Nat.le_refl _)).2.1
  have := congrArg List.length h
  simp only [List.length_map, List.length_range] at this
  exact ⟨this, rfl⟩

/-! ### C72 -/

theorem numbers_prim {n m : Node} (hp : Prim2 H Q n m) (h : ∀ e ∈ n.addresses, IsNumber e.2.1) :
    ∀ e ∈ m.addresses, IsNumber e.2.1 := by
  cases hp with
  | prim _ hp =>
    cases hp with
    | addrSet a v h' hv =>
      intro e he
      have he : e ∈ dictSet n.addresses a v := he
      unfold dictSet at he
      split at he
      · obtain ⟨x, hx, rfl⟩ := List.mem_map.1 he
        split
        · exact hv
        · exact h x hx
      · rcases List.mem_append.1 he with he | he
        · exact h e he
        · rw [List.mem_singleton.1 he]
          exact hv
    | addrDel a => exact fun e he => h e (List.mem_of_mem_filter he)
    | _ => exact h
  | recv c k chunk now hk _ => exact h
  | setBuf c b => exact h

/-- C72: in every history the stored time stamps are numbers, so that sorting them by time makes sense. -/
theorem C72_numbers (n : Node) (hn : n.addresses = []) (es : List Event) :
    ∀ e ∈ (n.run H es).addresses, (∃ i, e.2.1 = .int i) ∨ ∃ m k, e.2.1 = .float m k :=
  run_invariant (fun m => ∀ e ∈ m.addresses, IsNumber e.2.1) (fun _ _ => numbers_prim) n es
    (by rw [hn]; intro e he; cases he)

/-- The time that a time stamp denotes. -/
def timeOf : Val → Rat
  | .int i => i
  | .float m k => m / 2 ^ k
  | _ => 0

theorem timeOf_numOf (v : Val) : timeOf v = ((numOf v).1 : Rat) / 2 ^ (numOf v).2 := by
  cases v <;> simp [timeOf, numOf]

theorem numLt_iff (a b : Val) : numLt a b = true ↔ timeOf a < timeOf b := by
  unfold numLt
  rw [timeOf_numOf, timeOf_numOf, decide_eq_true_iff]
  have h1 : (0 : Rat) < 2 ^ (numOf a).2 := by positivity
  have h2 : (0 : Rat) < 2 ^ (numOf b).2 := by positivity
  rw [div_lt_div_iff₀ h1 h2]
  exact_mod_cast Iff.rfl

theorem newerFirst_iff (a b : Addr × Val × Val) : newerFirst a b = true ↔ timeOf b.2.1 ≤ timeOf a.2.1 := by
  unfold newerFirst
  rw [Bool.not_eq_true', ← Bool.not_eq_true, numLt_iff, not_lt]

/-- The entry as it is sent. -/
def entryObj (e : Addr × Val × Val) : Val := .obj "NetworkAddress"
  [("timestamp", e.2.1), ("services", e.2.2), ("address", .str e.1.1), ("port", .int e.1.2)]

/-- Whether the services are known. -/
def known (e : Addr × Val × Val) : Bool := !e.2.2.isNone

theorem collect_eq (l : List (Addr × Val × Val)) (acc : List Val) (ha : acc.length < 1000) :
    collect l acc =
      match ((l.filter known).take (1000 - acc.length)).mapM
          (fun e => newNetworkAddress e.2.1 e.2.2 e.1.1 e.1.2) with
      | .error e => .error e
      | .ok r => .ok (acc ++ r) := by
  induction l generalizing acc with
  | nil => simp [collect, pure, Except.pure]
  | cons e l ih =>
    obtain ⟨address, timestamp, services⟩ := e
    rw [collect]
    by_cases hs : services.isNone = true
    · rw [if_pos hs, List.filter_cons_of_neg (by simp [known, hs]), ih acc ha]
    · rw [if_neg hs, List.filter_cons_of_pos (by simpa [known] using hs)]
      obtain ⟨q, hq⟩ : ∃ q, 1000 - acc.length = q + 1 := ⟨999 - acc.length, by omega⟩
      rw [hq, List.take_succ_cons, List.mapM_cons]
      cases hn : newNetworkAddress timestamp services address.1 address.2 with
      | error e => rfl
      | ok a =>
        rw [ok_bind, ok_bind]
        by_cases hl : (acc ++ [a]).length ≥ addressesPerAsk
        · rw [if_pos hl]
          rw [List.length_append, List.length_singleton] at hl
          unfold addressesPerAsk at hl
          have : q = 0 := by omega
          subst this
          rfl
        · rw [if_neg hl]
          rw [List.length_append, List.length_singleton] at hl
          unfold addressesPerAsk at hl
          rw [ih (acc ++ [a]) (by rw [List.length_append, List.length_singleton]; omega)]
          have : 1000 - (acc ++ [a]).length = q := by rw [List.length_append, List.length_singleton]; omega
          rw [this]
          cases (List.take q (l.filter known)).mapM
              (fun e => newNetworkAddress e.2.1 e.2.2 e.1.1 e.1.2) with
          | error e => rfl
          | ok r =>
            simp only [ok_bind, pure, Except.pure, List.append_assoc]
            rfl

/-- The entries of the reply. -/
def replyEntries (n : Node) : List (Addr × Val × Val) := ((n.addresses.mergeSort newerFirst).filter known).take 1000

/-- The known entries that are left out. -/
def leftOut (n : Node) : List (Addr × Val × Val) := ((n.addresses.mergeSort newerFirst).filter known).drop 1000

/-- The reply. -/
def addrReply (H : Hashes) (n : Node) (b : (Addr × Val × Val) → Bytes) : Bytes :=
  wireFrame H n.magic "addr" (varSize (replyEntries n).length ++ ((replyEntries n).map b).flatten)

/-- C72, in Python 2: the entries of the reply and those left out are together the entries of the address book whose
services are known; the reply has as many as possible, at most 1000; none that is left out is more recent than one
that is included.  If all of them can be sent, exactly one message with them is queued; if one cannot (for example a
host name that `add_peer` was given), `command_get_address` raises and nothing is queued.  What is missing is
Python 3 (`C72_reply_false`). -/
theorem C72_reply_partial (n : Node) (c : Nat) (hv : n.ver = .py2) (hm : n.magic.length = 4) :
    (replyEntries n ++ leftOut n).Perm (n.addresses.filter known) ∧
    (replyEntries n).length = min 1000 (n.addresses.filter known).length ∧
    (∀ e ∈ replyEntries n, ∀ o ∈ leftOut n, timeOf o.2.1 ≤ timeOf e.2.1) ∧
    (∀ b : (Addr × Val × Val) → Bytes, (∀ e ∈ replyEntries n, ∃ v', wNetworkAddress (entryObj e) (b e) v') →
      n.commandGetAddress H c = (n.upd c (fun k => { k with sendBuf := k.sendBuf ++ addrReply H n b }), none)) ∧
    ((∃ e, n.commandGetAddress H c = (n, some e)) ∨
      ∃ f, n.commandGetAddress H c = (n.upd c (fun k => { k with sendBuf := k.sendBuf ++ f }), none)) := by
  have hperm : (replyEntries n ++ leftOut n).Perm (n.addresses.filter known) := by
    unfold replyEntries leftOut
    rw [List.take_append_drop]
    exact (List.mergeSort_perm _ _).filter _
  have hlen : (replyEntries n).length = min 1000 (n.addresses.filter known).length := by
    unfold replyEntries
    rw [List.length_take, ((List.mergeSort_perm n.addresses newerFirst).filter known).length_eq]
  have hsort : ((n.addresses.mergeSort newerFirst).filter known).Pairwise
      (fun a b => newerFirst a b = true) := by
    refine List.Pairwise.filter _ (List.pairwise_mergeSort (fun a b c h1 h2 => ?_) (fun a b => ?_) _)
    · rw [newerFirst_iff] at h1 h2 ⊢
      exact le_trans h2 h1
    · rw [Bool.or_eq_true, newerFirst_iff, newerFirst_iff]
      exact le_total _ _
  have hcmd : n.commandGetAddress H c =
      match (replyEntries n).mapM (fun e => newNetworkAddress e.2.1 e.2.2 e.1.1 e.1.2) with
      | .error e => (n, some e)
      | .ok l => n.sendNew H c msgAddr [.tuple l] := by
    unfold Node.commandGetAddress
    rw [hv]
    simp only
    rw [collect_eq _ _ (by decide)]
    unfold replyEntries
    simp only [List.length_nil, Nat.sub_zero, List.nil_append]
    split <;> rename_i h
    · split at h <;> simp_all
    · split at h <;> simp_all
  refine ⟨hperm, hlen, ?_, ?_, ?_⟩
  · intro e he o ho
    rw [← newerFirst_iff]
    unfold replyEntries at he
    unfold leftOut at ho
    rw [← List.take_append_drop 1000 ((n.addresses.mergeSort newerFirst).filter known)] at hsort
    exact (List.pairwise_append.1 hsort).2.2 e he o ho
  · intro b hb
    have hnew : ∀ e ∈ replyEntries n, newNetworkAddress e.2.1 e.2.2 e.1.1 e.1.2 = .ok (entryObj e) := by
      intro e he
      obtain ⟨v', vs, vs', hf, h1, h2⟩ := hb e he
      unfold newNetworkAddress
      have := compInit_positional netAddr_refAll (by decide) hf
      unfold entryObj at h1
      injection h1 with h3 h4
      rw [← h4] at this
      rw [show [e.2.1, e.2.2, Val.str e.1.1, Val.int e.1.2] = List.map (·.2) [("timestamp", e.2.1), ("services", e.2.2),
        ("address", Val.str e.1.1), ("port", Val.int e.1.2)] from rfl, this, ok_bind]
      rfl
    have hmap : (replyEntries n).mapM (fun e => newNetworkAddress e.2.1 e.2.2 e.1.1 e.1.2) =
        .ok ((replyEntries n).map entryObj) := by
      rw [mapM_congr _ hnew]
      generalize replyEntries n = l
      induction l with
      | nil => rfl
      | cons a l ih => rw [List.mapM_cons, ih]; rfl
    rw [hcmd, hmap]
    simp only
    have : Nonempty Val := ⟨.none⟩
    choose! v' hb' using hb
    have hw : wFields [("addr_list", wArray wNetworkAddress 0 (some 1000))]
        [("addr_list", .tuple ((replyEntries n).map entryObj))]
        (varSize (replyEntries n).length ++ ((replyEntries n).map b).flatten)
        [("addr_list", .tuple ((replyEntries n).map v'))] := by
      refine ⟨_, _, _, [], [], [], ⟨(replyEntries n).map (fun e => (entryObj e, b e, v' e)), ?_, Nat.zero_le _, ?_, ?_,
        ?_, ?_, ?_⟩, ⟨rfl, rfl, rfl⟩, rfl, (List.append_nil _).symm, rfl⟩
      · intro t ht
        obtain ⟨e, he, rfl⟩ := List.mem_map.1 ht
        exact hb' e he
      · rintro h ⟨⟩
        rw [List.length_map, hlen]
        omega
      · rw [List.length_map, hlen]
        unfold varLimit
        omega
      · rw [List.map_map]; rfl
      · rw [List.map_map, List.length_map]; rfl
      · rw [List.map_map]; rfl
    have hpl : (varSize (replyEntries n).length ++ ((replyEntries n).map b).flatten).length < 2 ^ 32 := by
      have h30 : ∀ (l : List (Addr × Val × Val)), (∀ e ∈ l, (b e).length = 30) → (l.map b).flatten.length = 30 * l.length := by
        intro l hl
        induction l with
        | nil => rfl
        | cons a l ih =>
          rw [List.map_cons, List.flatten_cons, List.length_append, ih (fun e he => hl e (List.mem_cons_of_mem _ he)),
            hl a (List.mem_cons_self ..), List.length_cons]
          omega
      rw [List.length_append, h30 _ (fun e he => wNet_length (hb' e he))]
      have hvs : (varSize (replyEntries n).length).length ≤ 9 := by
        unfold varSize
        repeat' split
        all_goals simp [beBytes_length]
      omega
    obtain ⟨t, ht, htc, h1, -, h2, -⟩ := C63_message H "addr" _ (by simp [messages]) _ _ _ n.magic [] hw hpl hm
    have := registered_command (u := msgAddr) ht (by simp [registry]) htc
    subst this
    exact sendNew_ok n c msgAddr _ _ _ h1 h2
  · rw [hcmd]
    split
    · exact Or.inl ⟨_, rfl⟩
    · unfold Node.sendNew
      split
      · exact Or.inl ⟨_, rfl⟩
      · unfold Node.sendMessage
        split
        · exact Or.inl ⟨_, rfl⟩
        · exact Or.inr ⟨_, rfl⟩

/-- Two known entries and an unknown one. -/
example : let n := { node0 .py2 125 with addresses := [(("1.2.3.4".toList, 1), .int 5, .int 1),
      (("1.2.3.4".toList, 2), .int 9, .none), (("1.2.3.4".toList, 3), .float 15 1, .int 1)] }
    (replyEntries n).map (·.1.2) = [3, 1] ∧ leftOut n = [] := by
  simp [replyEntries, leftOut, List.mergeSort, List.MergeSort.Internal.splitInTwo, List.merge, newerFirst, numLt, numOf,
    known, Val.isNone]

/-- Entries that can be sent. -/
example : wNetworkAddress (entryObj ((ipText someIp, 8333), .int 0, .int 1)) (entryBytes someIp 8333)
    (entryVal someIp 8333) :=
  entry_wire someIp 8333 (by decide) (by decide)

/-- C72 is false in Python 3: `sorted` takes no second positional argument, so that a request for addresses is never
answered, whatever the state of the node. -/
theorem C72_reply_false (n : Node) (c : Nat) (now : Int) (hv : n.ver = .py3) (hm : n.magic.length = 4) :
    n.commandGetAddress H c = (n, some .typeError) ∧
    n.handleFrame H c now (wireFrame H n.magic "getaddr" []) = n := by
  have h : n.commandGetAddress H c = (n, some .typeError) := by
    unfold Node.commandGetAddress
    rw [hv]
  refine ⟨h, ?_⟩
  obtain ⟨t, -, -, -, -, -, h3⟩ := C63_message H "getaddr" [] (by simp [messages]) [] [] [] n.magic [] ⟨rfl, rfl, rfl⟩
    (by decide) hm
  rw [List.append_nil] at h3
  unfold Node.handleFrame
  rw [h3]
  simp only
  unfold Node.handleMessage
  simp only
  rw [if_neg (show ¬ "getaddr" = "version" by decide), if_neg (show ¬ "getaddr" = "verack" by decide)]
  unfold Node.dispatch
  simp only
  rw [if_neg (show ¬ "getaddr" = "ping" by decide), if_neg (show ¬ "getaddr" = "version" by decide),
    if_neg (show ¬ "getaddr" = "verack" by decide), if_pos trivial, h]

end NBC.Props
