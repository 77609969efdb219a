import Verif.Model.Node
import Verif.Proofs.Frame
import Verif.Proofs.Made
import Verif.Spec.Node
import Mathlib.Logic.Relation

/-!
# Every event is a sequence of primitive changes
-/

namespace NBC.P2P
open NBC NBC.Proto Relation
open NBC.Spec.Wire (IsIp IsAddr inRange)
open NBC.Spec.Built (Built Constructed)

/-- A change of a connection's description that leaves its buffers, counters, address and score alone. -/
structure SameCore (k k' : Conn) : Prop where
  address : k'.address = k.address
  incoming : k'.incoming = k.incoming
  isOpen : k'.isOpen = k.isOpen
  sendBuf : k'.sendBuf = k.sendBuf
  recvBuf : k'.recvBuf = k.recvBuf
  out : k'.out = k.out
  txBytes : k'.txBytes = k.txBytes
  rxBytes : k'.rxBytes = k.rxBytes
  banscore : k'.banscore = k.banscore
  lastRx : k'.lastRx = k.lastRx
  lastPing : k'.lastPing = k.lastPing
  lastTx : k'.lastTx = k.lastTx

/-- A number that may be stored as a time stamp. -/
def IsNumber (v : Val) : Prop := (∃ i, v = .int i) ∨ ∃ m k, v = .float m k

/-- What some events only may do: store one of the clock readings that a connection keeps, raise a score, close the
listener, set the external ip, connect to a given address or to any one
known, describe a peer, note the time of a heartbeat, send what the owner likes. -/
inductive Clock where
  | tx
  | rx
  | ping
  | score
  | deaf
  | ext
  | dial (a : Addr)
  | any
  | info
  | beat
  | own (t : MsgType) (fields : List (String × Val))

/-- The readings that an event may store, and the other changes in the list. -/
def Event.stores : Event → Clock → Nat → Int → Prop
  | .write c _ now, .tx, i, t => i = c ∧ t = now
  | .read c _ now, .rx, i, t => i = c ∧ t = now
  | .poll c _ now' _, .ping, i, t => i = c ∧ t = now'
  | .punish c _, .score, i, _ => i = c
  | .accept .., .deaf, _, _ => True
  | .setExternalIp _, .ext, _, _ => True
  | .accept pair .., .dial a, _, _ => pair = some a
  | .addPeer a .., .dial b, _, _ => b = a
  | .items .., .any, _, _ => True
  | .items now _ _, .beat, _, t => t = now
  | .read c _ _, .info, i, _ => i = c
  | .send c t fields, .own t' fields', i, _ => i = c ∧ t' = t ∧ fields' = fields
  | _, _, _, _ => False

/-- The primitive changes (`Q`: the readings that may be stored), except those of `recvBuf`. -/
inductive Prim (H : Hashes) (Q : Clock → Nat → Int → Prop) : Node → Node → Prop
  | queue (n : Node) (c : Nat) (t : MsgType) (fields : List (String × Val)) (b : Bytes)
      (h : t.binary H fields n.magic = .ok b)
      (ho : Q (.own t fields) c 0 ∨ t ∈ registry ∧ (Constructed t fields ∧ t.command ≠ "headers") ∧
        (t.command = "version" → ∀ k, n.conns[c]? = some k → k.out = [] ∧ k.sendBuf = [])) :
      Prim H Q n (n.upd c (fun k => { k with sendBuf := k.sendBuf ++ b }))
  | close (n : Node) (c : Nat) : Prim H Q n (n.upd c (fun k => { k with isOpen := false }))
  | sent (n : Node) (c : Nat) (k : Conn) (j : Nat) (now : Int) (hk : n.conns[c]? = some k)
      (hj : j ≤ k.sendBuf.length) (h : Q .tx c now) : Prim H Q n (n.sent c j now)
  | tx (n : Node) (c : Nat) (t : Int) (h : Q .tx c t) : Prim H Q n (n.upd c (fun k => { k with lastTx := t }))
  | info (n : Node) (c : Nat) (f : Conn → Conn) (hf : ∀ k, SameCore k (f k))
      (hx : ∀ k ip, (f k).externalIp = some ip → k.externalIp = some ip ∨ IsIp ip)
      (hq : Q .info c 0) : Prim H Q n (n.upd c f)
  | ping (n : Node) (c : Nat) (t : Int) (h : Q .ping c t) : Prim H Q n (n.upd c (fun k => { k with lastPing := t }))
  | new (n : Node) (a : Addr) (inc : Bool) (h : inc = false → a ∉ n.allAddresses)
      (ho : Q (.dial a) 0 0 ∨ Q .any 0 0 ∧ (a ∈ n.bootstrap ∨ a ∈ n.addresses.map (·.1))) :
      Prim H Q n { n with conns := n.conns ++ [{ address := a, incoming := inc }] }
  | add (n : Node) (c : Nat) (h : ∀ k, n.conns[c]? = some k → k.isOpen = true → k.banscore < 5)
      (hq : Q .score c 0) : Prim H Q n (n.upd c (fun k => k.addBanscore))
  | reduce (n : Node) (c : Nat) : Prim H Q n (n.upd c (fun k => k.reduceBanscore))
  | addrSet (n : Node) (a : Addr) (v : Val × Val) (h : n.addresses.length ≤ maxAddresses)
      (hv : IsNumber v.1) (ha : a ∈ n.conns.map (·.address) ∨ IsAddr a) :
      Prim H Q n { n with addresses := dictSet n.addresses a v }
  | addrDel (n : Node) (a : Addr) : Prim H Q n { n with addresses := dictDel n.addresses a }
  | guess (n : Node) (ip : List Char) (h : ∃ k ∈ n.conns, k.externalIp = some ip) : Prim H Q n { n with guessedIp := ip }
  | ban (n : Node) (c : Nat) (ip : List Char) (now : Int) (hq : Q .score c 0) :
      Prim H Q n { n with banned := dictSet n.banned (.ip ip) now }
  | unban (n : Node) (a : Addr) : Prim H Q n { n with banned := dictDel n.banned (.addr a) }
  | ext (n : Node) (ip : List Char) (h : Q .ext 0 0) : Prim H Q n { n with externalIp := ip }
  | beat (n : Node) (t : Int) (hq : Q .beat 0 t) : Prim H Q n { n with lastHeartbeat := t }
  | deaf (n : Node) (h : Q .deaf 0 0) : Prim H Q n { n with listening := false }

/-- Sequences of them. -/
abbrev Steps (H : Hashes) (Q : Clock → Nat → Int → Prop) : Node → Node → Prop := ReflTransGen (Prim H Q)

theorem Prim.one {H : Hashes} {Q : Clock → Nat → Int → Prop} {n m : Node} (h : Prim H Q n m) : Steps H Q n m := .single h

variable {H : Hashes} {Q : Clock → Nat → Int → Prop}

theorem steps_disconnected (n : Node) (c : Nat) : Steps H Q n (n.disconnected c) := by
  unfold Node.disconnected
  split
  · exact .refl
  · exact (Prim.addrDel n _).one

theorem steps_handleClose (n : Node) (c : Nat) : Steps H Q n (n.handleClose c) :=
  (Prim.close n c).one.trans (steps_disconnected _ _)

theorem steps_sendMessage (n : Node) (c : Nat) (t : MsgType) (fields : List (String × Val))
    (ho : Q (.own t fields) c 0 ∨ t ∈ registry ∧ (Constructed t fields ∧ t.command ≠ "headers") ∧
      (t.command = "version" → ∀ k, n.conns[c]? = some k → k.out = [] ∧ k.sendBuf = [])) :
    Steps H Q n (n.sendMessage H c t fields).1 := by
  unfold Node.sendMessage
  split
  · exact .refl
  · rename_i b hb
    exact (Prim.queue n c t fields b hb ho).one

theorem steps_sendNew (n : Node) (c : Nat) (t : MsgType) (args : List Val) (ht : t ∈ registry)
    (ha : ∀ fields, compInit t.props args [] = .ok fields → ∀ v ∈ args, Built v)
    (hv : t.command ≠ "version" ∧ t.command ≠ "headers") :
    Steps H Q n (n.sendNew H c t args).1 := by
  unfold Node.sendNew
  split
  · exact .refl
  · rename_i fields hf
    exact steps_sendMessage _ _ _ _ (.inr ⟨ht, ⟨⟨args, [], ha fields hf, by simp, hf⟩, hv.2⟩, fun h => absurd h hv.1⟩)

theorem steps_handleWrite (n : Node) (c : Nat) (r : SendRes) (now : Int) (hq : Q .tx c now) :
    Steps H Q n (n.handleWrite c r now) := by
  unfold Node.handleWrite
  cases r with
  | raised => exact steps_handleClose n c
  | closed =>
    exact (steps_handleClose n c).trans (Prim.tx _ c now hq).one
  | sent j =>
    simp only
    split
    · exact .refl
    · rename_i k hk
      exact (Prim.sent n c k _ now hk (by omega) hq).one

theorem steps_greet (n : Node) (c : Nat) (a : Addr) (now : Int) (nonce : Bytes)
    (hc : ∀ k, n.conns[c]? = some k → k.out = [] ∧ k.sendBuf = []) :
    Steps H Q n (n.greet H c a now nonce).1 := by
  unfold Node.greet
  split
  · exact .refl
  · rename_i hf
    exact steps_sendMessage _ _ _ _ (.inr ⟨by simp [registry], ⟨versionFields_made hf, by decide⟩, fun _ => hc⟩)

theorem new_silent (l : List Conn) (a : Addr) (inc : Bool) (k : Conn)
    (h : (l ++ [({ address := a, incoming := inc } : Conn)])[l.length]? = some k) : k.out = [] ∧ k.sendBuf = [] := by
  rw [List.getElem?_append_right (Nat.le_refl _), Nat.sub_self] at h
  cases h
  exact ⟨rfl, rfl⟩

theorem steps_newIncoming (n : Node) (a : Addr) (now : Int) (nonce : Bytes) (hq : Q (.dial a) 0 0) :
    Steps H Q n (n.newIncoming H a now nonce).1 :=
  (Prim.new n a true (fun h => by cases h) (.inl hq)).one.trans
    (steps_greet _ _ _ _ _ (new_silent _ _ _))

theorem steps_newOutgoing (n : Node) (a : Addr) (connects : Bool) (now : Int) (nonce : Bytes) (h : a ∉ n.allAddresses)
    (ho : Q (.dial a) 0 0 ∨ Q .any 0 0 ∧ (a ∈ n.bootstrap ∨ a ∈ n.addresses.map (·.1))) :
    Steps H Q n (n.newOutgoing H a connects now nonce).1 := by
  unfold Node.newOutgoing
  simp only
  split
  · exact (Prim.new n a false (fun _ => h) ho).one.trans (steps_greet _ _ _ _ _ (new_silent _ _ _))
  · exact (Prim.new n a false (fun _ => h) ho).one.trans (steps_handleClose ..)

theorem upd_upd (n : Node) (c : Nat) (f g : Conn → Conn) : (n.upd c f).upd c g = n.upd c (fun k => g (f k)) := by
  unfold Node.upd
  have : (n.conns.modify c f).modify c g = n.conns.modify c (fun k => g (f k)) := by
    apply List.ext_getElem?
    intro i
    rw [List.getElem?_modify, List.getElem?_modify, List.getElem?_modify]
    cases n.conns[i]? with
    | none => rfl
    | some k =>
      simp only [Option.map_eq_map, Option.map_some]
      split <;> rfl
  simp only [this]

theorem conns_upd (n : Node) (c i : Nat) (f : Conn → Conn) :
    (n.upd c f).conns[i]? = (n.conns[i]?).map (fun k => if c = i then f k else k) := by
  unfold Node.upd
  rw [List.getElem?_modify]
  rfl

theorem conns_upd_self (n : Node) (c : Nat) (f : Conn → Conn) {k : Conn} (h : n.conns[c]? = some k) :
    (n.upd c f).conns[c]? = some (f k) := by
  rw [conns_upd, h]
  simp

theorem steps_punish (n : Node) (c : Nat) (now : Int) (hq : Q .score c 0) : Steps H Q n (n.punishPeer c now) := by
  unfold Node.punishPeer
  simp only
  cases hc : n.conns[c]? with
  | none =>
    have : (n.upd c (fun k => k.addBanscore)).conns[c]? = none := by rw [conns_upd, hc]; rfl
    rw [this]
    exact (Prim.add n c (fun k hk => by rw [hc] at hk; cases hk) hq).one
  | some k =>
    rw [conns_upd_self n c _ hc]
    simp only
    split
    · rename_i hs
      have e : ∀ b, { n.upd c (fun k => k.addBanscore) with banned := b }.handleClose c =
          ({ (n.upd c (fun k => { k with isOpen := false })).upd c (fun k => k.addBanscore) with banned := b }).disconnected c := by
        intro b
        unfold Node.handleClose
        rw [upd_upd]
        show ({ (n.upd c (fun k => k.addBanscore)).upd c (fun k => { k with isOpen := false }) with banned := b }).disconnected c = _
        rw [upd_upd]
        rfl
      rw [e]
      refine (Prim.close n c).one.trans ((Prim.add _ c (fun k' hk' ho => ?_) hq).one.trans
        ((Prim.ban _ c k.addBanscore.address.1 now hq).one.trans (steps_disconnected _ c)))
      rw [conns_upd_self n c _ hc] at hk'
      cases hk'
      cases ho
    · rename_i hs
      refine (Prim.add n c (fun k' hk' _ => ?_) hq).one
      rw [hc] at hk'
      cases hk'
      simp only [Conn.addBanscore] at hs
      omega

theorem countReports_keys (l : List (Option (List Char))) (d : List (List Char × Nat)) (a : List Char)
    (h : a ∈ (countReports l d).map (·.1)) : a ∈ d.map (·.1) ∨ some a ∈ l := by
  induction l generalizing d with
  | nil => exact .inl h
  | cons o l ih =>
    cases o with
    | none =>
      rcases ih d h with h | h
      · exact .inl h
      · exact .inr (List.mem_cons_of_mem _ h)
    | some b =>
      rcases ih _ h with h | h
      · unfold dictSet at h
        split at h
        · rename_i hb
          rw [List.map_map] at h
          obtain ⟨e, he, h⟩ := List.mem_map.1 h
          simp only [Function.comp] at h
          split at h
          · subst h; exact .inl hb
          · subst h; exact .inl (List.mem_map_of_mem he)
        · rw [List.map_append] at h
          rcases List.mem_append.1 h with h | h
          · exact .inl h
          · rw [List.map_singleton, List.mem_singleton] at h
            subst h
            exact .inr (List.mem_cons_self ..)
      · exact .inr (List.mem_cons_of_mem _ h)

theorem steps_checkExternalIp (n : Node) : Steps H Q n n.checkExternalIp := by
  unfold Node.checkExternalIp
  simp only
  split
  · exact .refl
  · rename_i e he
    refine (Prim.guess n _ ?_).one
    have h1 := List.mem_of_getLast? he
    rw [List.mem_mergeSort] at h1
    obtain ⟨e', h2, rfl⟩ := List.mem_map.1 h1
    rcases countReports_keys _ _ e'.1 (List.mem_map_of_mem h2) with h | h
    · cases h
    · obtain ⟨k, hk, h⟩ := List.mem_map.1 h
      exact ⟨k, List.mem_of_mem_filter hk, h⟩

theorem steps_commandVersionAck (n : Node) (c : Nat) (now : Int) : Steps H Q n (n.commandVersionAck c now).1 := by
  unfold Node.commandVersionAck
  split
  · exact .refl
  · rename_i k hk
    split
    · rename_i h
      exact (Prim.addrSet n _ _ (by omega) (Or.inr ⟨_, _, rfl⟩)
        (.inl (List.mem_map_of_mem (List.mem_of_getElem? hk)))).one
    · exact .refl

theorem steps_commandGetAddress (n : Node) (c : Nat) : Steps H Q n (n.commandGetAddress H c).1 := by
  unfold Node.commandGetAddress
  split
  · exact .refl
  · split
    · exact .refl
    · rename_i h
      exact steps_sendNew _ _ _ _ (by simp [registry])
        (fun _ _ v hv => by rw [List.mem_singleton.1 hv]; exact .tuple _ (collect_built (by simp) h)) (by decide)

/-- The entries that `command_address` makes have numbers as time stamps, and are pairs of ip and port. -/
def GoodEntry (v : Val) : Prop := ∀ key value, bookEntry v = .ok (key, value) → IsNumber value.1 ∧ IsAddr key

/-- The same for a list. -/
def GoodList (v : Val) : Prop := ∀ l, v = .tuple l → ∀ x ∈ l, GoodEntry x

/-- The same for a message; and the external ip reported in a version message is one. -/
def GoodMsg (m : Msg) : Prop :=
  (m.command = "addr" → ∀ v, getField m.fields "addr_list" = .ok v → GoodList v) ∧
  (m.command = "version" → ∀ f, versionInfo m.fields = .ok f → ∀ k, ∃ ip, (f k).externalIp = some ip ∧ IsIp ip)

theorem steps_addAddresses (l : List Val) (n : Node) (hl : ∀ x ∈ l, GoodEntry x) : Steps H Q n (n.addAddresses l).1 := by
  induction l generalizing n with
  | nil => exact .refl
  | cons v l ih =>
    unfold Node.addAddresses
    split
    · exact .refl
    · rename_i h
      split
      · exact .refl
      · rename_i hb
        exact (Prim.addrSet n _ _ (by omega) (hl v (List.mem_cons_self ..) _ _ hb).1
          (.inr (hl v (List.mem_cons_self ..) _ _ hb).2)).one.trans
          (ih _ (fun x hx => hl x (List.mem_cons_of_mem _ hx)))

theorem steps_commandAddress (n : Node) (v : Val) (hv : GoodList v) : Steps H Q n (n.commandAddress v).1 := by
  unfold Node.commandAddress
  split
  · exact steps_addAddresses _ _ (hv _ rfl)
  · exact .refl

theorem steps_dispatch (n : Node) (c : Nat) (m : Msg) (now : Int) (hg : GoodMsg m) :
    Steps H Q n (n.dispatch H c m now).1 := by
  unfold Node.dispatch
  split
  · split
    · exact .refl
    · exact steps_sendNew _ _ _ _ (by simp [registry])
        (fun _ h v hv => by rw [List.mem_singleton.1 hv]; exact pong_made h) (by decide)
  split
  · exact steps_sendNew _ _ _ _ (by simp [registry]) (by simp) (by decide)
  split
  · exact steps_commandVersionAck ..
  split
  · exact steps_commandGetAddress ..
  split
  · rename_i ha
    split
    · exact .refl
    · rename_i hl
      exact steps_commandAddress _ _ (hg.1 ha _ hl)
  · exact .refl

theorem versionInfo_core {fields : List (String × Val)} {f : Conn → Conn} (h : versionInfo fields = .ok f) (k : Conn) :
    SameCore k (f k) := by
  unfold versionInfo at h
  simp only [bind, Except.bind] at h
  repeat' split at h
  all_goals cases h
  all_goals exact ⟨rfl, rfl, rfl, rfl, rfl, rfl, rfl, rfl, rfl, rfl, rfl, rfl⟩

theorem steps_handleMessage (n : Node) (c : Nat) (m : Msg) (now : Int) (hg : GoodMsg m) (hq : Q .info c 0) :
    Steps H Q n (n.handleMessage H c m now).1 := by
  unfold Node.handleMessage
  split
  · rename_i hv
    split
    · exact .refl
    · rename_i f hf
      have hi := (Prim.info (H := H) n c f (versionInfo_core hf) (fun k ip h => by
        obtain ⟨ip', h1, h2⟩ := hg.2 hv f hf k
        rw [h1] at h
        cases h
        exact .inr h2) hq).one
      split
      · exact hi.trans ((steps_checkExternalIp _).trans (steps_dispatch _ _ _ _ hg))
      · exact hi
  split
  · exact (Prim.info n c (fun k => { k with verack := true })
      (fun k => ⟨rfl, rfl, rfl, rfl, rfl, rfl, rfl, rfl, rfl, rfl, rfl, rfl⟩) (fun _ _ h => .inl h) hq).one.trans
      (steps_dispatch _ _ _ _ hg)
  · exact steps_dispatch _ _ _ _ hg

theorem registered_command {t u : MsgType} (ht : t ∈ registry) (hu : u ∈ registry) (h : t.command = u.command) :
    t = u := by
  have h1 := lookup_self ht
  rw [h] at h1
  exact Option.some.inj (h1.symm.trans (lookup_self hu))

theorem parse_number {f : Fmt} {big fl : Bool} {d : Bytes} {l : Nat} {v : Val}
    (h : (ftNumber f big fl).parse d = .ok (l, v)) : ∃ i, v = .int i := by
  unfold ftNumber at h
  simp only at h
  obtain ⟨i, -, h⟩ := bind_ok_iff.1 h
  cases h
  exact ⟨i, rfl⟩

theorem parseFields_cons {data : Bytes} {key : String} {vt : FType} {ps : Props} {o o' : Nat} {kw : List (String × Val)}
    (h : parseFields data ((key, vt) :: ps) o = .ok (o', kw)) :
    ∃ l v kw', vt.parse (data.drop o) = .ok (l, v) ∧ parseFields data ps (o + l) = .ok (o', kw') ∧
      kw = (key, v) :: kw' := by
  rw [parseFields] at h
  split at h
  · cases h
  · rename_i l v hv
    obtain ⟨⟨o1, kw'⟩, h1, h2⟩ := bind_ok_iff.1 h
    cases h2
    exact ⟨l, v, kw', hv, h1, rfl⟩

theorem parseFields_nil {data : Bytes} {o o' : Nat} {kw : List (String × Val)}
    (h : parseFields data [] o = .ok (o', kw)) : kw = [] := by
  rw [parseFields] at h
  cases h
  rfl

theorem ipParse_isIp {d : Bytes} {l : Nat} {s : List Char} (h : ipParse d = .ok (l, s)) : IsIp s := by
  have hl : 16 ≤ d.length := by
    unfold ipParse at h
    split at h
    · rename_i hp
      simp only at h
      split at h
      · cases h
      · rename_i h4
        simp only [List.length_take, List.length_drop] at h4
        omega
    · simp only at h
      split at h
      · cases h
      · rename_i h4
        simp only [List.length_take] at h4
        omega
  have h16 : (d.take 16).length = 16 := by rw [List.length_take]; omega
  have := ipParse_text h16 (d.drop 16)
  rw [List.take_append_drop, h] at this
  cases this
  exact ⟨d.take 16, h16, rfl⟩

theorem parse_inRange {f : Fmt} {big fl : Bool} {d : Bytes} {l : Nat} {v : Val}
    (h : (ftNumber f big fl).parse d = .ok (l, v)) : ∃ i, v = .int i ∧ inRange f i := by
  unfold ftNumber at h
  simp only at h
  obtain ⟨i, hi, h⟩ := bind_ok_iff.1 h
  cases h
  refine ⟨i, rfl, ?_⟩
  by_cases hl : (d.take f.size).length = f.size
  · obtain ⟨v, h1, h2, -⟩ := unpack_inRange (big := big) hl
    rw [hi] at h1
    cases h1
    exact h2
  · unfold unpack at hi
    rw [if_pos hl] at hi
    cases hi

theorem parsed_net {d : Bytes} {l : Nat} {v : Val} (h : ftNetworkAddress.parse d = .ok (l, v)) :
    ∃ t s ip p, v = .obj "NetworkAddress" [("timestamp", .int t), ("services", .int s), ("address", .str ip),
      ("port", .int p)] ∧ inRange .I t ∧ inRange .Q s ∧ IsAddr (ip, p) := by
  unfold ftNetworkAddress ftCompound at h
  simp only at h
  unfold Cls.parse at h
  obtain ⟨⟨o, kw⟩, h0, h2⟩ := bind_ok_iff.1 h
  cases h2
  obtain ⟨l1, v1, kw1, e1, h1, rfl⟩ := parseFields_cons h0
  obtain ⟨l2, v2, kw2, e2, h2, rfl⟩ := parseFields_cons h1
  obtain ⟨l3, v3, kw3, e3, h3, rfl⟩ := parseFields_cons h2
  obtain ⟨l4, v4, kw4, e4, h4, rfl⟩ := parseFields_cons h3
  cases parseFields_nil h4
  obtain ⟨t, rfl, ht⟩ := parse_inRange e1
  obtain ⟨s, rfl, hs⟩ := parse_inRange e2
  obtain ⟨p, rfl, hp⟩ := parse_inRange e4
  unfold ftIPAddress at e3
  simp only at e3
  obtain ⟨⟨n, ip⟩, e5, e6⟩ := bind_ok_iff.1 e3
  cases e6
  exact ⟨t, s, ip, p, rfl, ht, hs, ipParse_isIp e5, hp⟩

theorem good_parsed {d : Bytes} {l : Nat} {v : Val} (h : ftNetworkAddress.parse d = .ok (l, v)) : GoodEntry v := by
  obtain ⟨t, s, ip, p, rfl, ht, hs, ha⟩ := parsed_net h
  intro key value hb
  cases hb
  exact ⟨.inl ⟨t, rfl⟩, ha⟩

theorem good_loop {d : Bytes} (todo : Nat) {off o : Nat} {l : List Val}
    (h : varSetLoop ftNetworkAddress d todo off = .ok (o, l)) : ∀ x ∈ l, GoodEntry x := by
  induction todo generalizing off l with
  | zero =>
    rw [varSetLoop] at h
    cases h
    intro x hx
    cases hx
  | succ todo ih =>
    rw [varSetLoop] at h
    obtain ⟨⟨il, io⟩, h1, h⟩ := bind_ok_iff.1 h
    obtain ⟨⟨o', ret⟩, h2, h⟩ := bind_ok_iff.1 h
    cases h
    intro x hx
    rcases List.mem_cons.1 hx with rfl | hx
    · exact good_parsed h1
    · exact ih h2 x hx

theorem parsed_address {d : Bytes} {l : Nat} {v a : Val} (h : ftNetworkAddressNoTimestamp.parse d = .ok (l, v))
    (ha : attr v "address" = .ok a) : ∃ ip, a = .str ip ∧ IsIp ip := by
  unfold ftNetworkAddressNoTimestamp at h
  simp only at h
  obtain ⟨⟨vl, obj⟩, h', he⟩ := bind_ok_iff.1 h
  simp only [Except.ok.injEq, Prod.mk.injEq] at he
  obtain ⟨-, rfl⟩ := he
  obtain ⟨t, s, ip, p, rfl, -, -, hi, -⟩ := parsed_net h'
  cases ha
  exact ⟨ip, rfl, hi⟩

theorem parsed_version {data : Bytes} {o o' : Nat} {kw : List (String × Val)}
    (h : parseFields data msgVersion.props o = .ok (o', kw)) {f : Conn → Conn} (hf : versionInfo kw = .ok f) (k : Conn) :
    ∃ ip, (f k).externalIp = some ip ∧ IsIp ip := by
  unfold msgVersion at h
  simp only at h
  obtain ⟨l1, v1, kw1, e1, h1, rfl⟩ := parseFields_cons h
  obtain ⟨l2, v2, kw2, e2, h2, rfl⟩ := parseFields_cons h1
  obtain ⟨l3, v3, kw3, e3, h3, rfl⟩ := parseFields_cons h2
  obtain ⟨l4, v4, kw4, e4, h4, rfl⟩ := parseFields_cons h3
  unfold versionInfo at hf
  obtain ⟨_, -, hf⟩ := bind_ok_iff.1 hf
  obtain ⟨_, -, hf⟩ := bind_ok_iff.1 hf
  obtain ⟨_, -, hf⟩ := bind_ok_iff.1 hf
  obtain ⟨_, -, hf⟩ := bind_ok_iff.1 hf
  obtain ⟨_, -, hf⟩ := bind_ok_iff.1 hf
  obtain ⟨recv, hr, hf⟩ := bind_ok_iff.1 hf
  obtain ⟨a, ha, hf⟩ := bind_ok_iff.1 hf
  obtain ⟨ip, hi, hf⟩ := bind_ok_iff.1 hf
  rw [getField_cons_ne (by decide), getField_cons_ne (by decide), getField_cons_ne (by decide), getField_head] at hr
  cases hr
  obtain ⟨s, rfl, hs⟩ := parsed_address e4 ha
  cases hi
  cases hf
  exact ⟨_, rfl, hs⟩

theorem parse_good {data magic : Bytes} {m : Msg} (h : parseMessage H data magic = .ok m) : GoodMsg m := by
  unfold parseMessage at h
  split at h
  · cases h
  obtain ⟨len, -, h⟩ := bind_ok_iff.1 h
  simp only at h
  split at h
  · cases h
  split at h
  · cases h
  rename_i t ht
  obtain ⟨⟨o, kw⟩, h1, h2⟩ := bind_ok_iff.1 h
  cases h2
  refine ⟨fun hc v hv l hl => ?_, fun hc f hf k => ?_⟩
  rotate_left
  · have := registered_command (u := msgVersion) (lookup_some ht).1 (by simp [registry]) hc
    subst this
    exact parsed_version h1 hf k
  have := registered_command (u := msgAddr) (lookup_some ht).1 (by simp [registry]) hc
  subst this
  obtain ⟨l1, v1, kw1, e1, h1, rfl⟩ := parseFields_cons h1
  have hv : getField (("addr_list", v1) :: kw1) "addr_list" = .ok v := hv
  rw [getField_head] at hv
  cases hv
  unfold ftArray at e1
  simp only at e1
  obtain ⟨⟨a, l2⟩, e2, e3⟩ := bind_ok_iff.1 e1
  subst hl
  cases e3
  unfold parseVarSet at e2
  obtain ⟨⟨off, count⟩, -, e2⟩ := bind_ok_iff.1 e2
  exact good_loop _ e2

theorem steps_handleFrame (c : Nat) (now : Int) (n : Node) (frame : Bytes) (hq : Q .info c 0) :
    Steps H Q n (n.handleFrame H c now frame) := by
  unfold Node.handleFrame
  split
  · exact .refl
  · rename_i hm
    exact steps_handleMessage _ _ _ _ (parse_good hm) hq

theorem steps_idlePing (n : Node) (c : Nat) (k : Conn) (now now' : Int) (nonce : Bytes) (hq : Q .ping c now') :
    Steps H Q n (n.idlePing H c k now now' nonce).1 := by
  unfold Node.idlePing
  split
  · have := steps_sendNew (H := H) (Q := Q) n c msgPing [.bytes nonce] (by simp [registry])
      (fun _ _ v hv => by rw [List.mem_singleton.1 hv]; exact .bytes _) (by decide)
    split
    · rename_i h; rw [h] at this; exact this
    · rename_i h; rw [h] at this
      exact this.trans (Prim.ping _ c now' hq).one
  · exact .refl

theorem steps_readable (n : Node) (c : Nat) (now now' : Int) (nonce : Bytes) (hq : Q .ping c now') :
    Steps H Q n (n.readable H c now now' nonce).1 := by
  unfold Node.readable
  split
  · exact .refl
  · rename_i k hk
    have := steps_idlePing (H := H) (Q := Q) n c k now now' nonce hq
    split
    · rename_i h; rw [h] at this; exact this
    · rename_i h; rw [h] at this
      split
      · exact this.trans (steps_handleClose ..)
      · exact this

theorem steps_addPeer (n : Node) (a : Addr) (force connects : Bool) (now : Int) (nonce : Bytes)
    (ho : Q (.dial a) 0 0 ∨ Q .any 0 0 ∧ (a ∈ n.bootstrap ∨ a ∈ n.addresses.map (·.1))) :
    Steps H Q n (n.addPeer H a force connects now nonce).1 := by
  unfold Node.addPeer
  split
  · exact .refl
  split
  · exact .refl
  · rename_i hn
    have := steps_newOutgoing (H := H) (Q := Q) n a connects now nonce hn ho
    split <;> (rename_i h; rw [h] at this; exact this)

theorem steps_removePeer (n : Node) (a : Addr) : Steps H Q n (n.removePeer a) := by
  unfold Node.removePeer
  split
  · exact .refl
  · exact steps_handleClose ..

theorem steps_addAnyPeer (n : Node) (e : AnyEnv) (hq : Q .any 0 0) : Steps H Q n (n.addAnyPeer H e) := by
  unfold Node.addAnyPeer
  split
  · split
    · exact .refl
    · rename_i h
      exact steps_addPeer _ _ _ _ _ _ (.inr ⟨hq, .inl (List.mem_of_getElem? h)⟩)
  · split
    · exact .refl
    · rename_i h
      exact steps_addPeer _ _ _ _ _ _ (.inr ⟨hq, .inr (List.mem_map_of_mem (List.mem_of_find?_eq_some h))⟩)

theorem steps_addSome (es : List AnyEnv) (n : Node) (hq : Q .any 0 0) : Steps H Q n (n.addSome H es) := by
  induction es generalizing n with
  | nil => exact .refl
  | cons e es ih => exact (steps_addAnyPeer n e hq).trans (ih _)

theorem steps_reduce (l : List Nat) (n : Node) :
    Steps H Q n (l.foldl (fun n c => n.upd c (fun k => k.reduceBanscore)) n) := by
  induction l generalizing n with
  | nil => exact .refl
  | cons c l ih => exact (Prim.reduce n c).one.trans (ih _)

theorem steps_heartbeat (n : Node) (envs : List AnyEnv) (choice : Nat) (hq : Q .any 0 0) :
    Steps H Q n (n.heartbeat H envs choice).1 := by
  unfold Node.heartbeat
  simp only
  have h1 := steps_addSome (H := H) (Q := Q) (envs.take (min (n.seekPeers - n.peers.length) 5).toNat) n hq
  generalize n.addSome H (envs.take (min (n.seekPeers - n.peers.length) 5).toNat) = m at *
  have h2 : Steps H Q m (m.askOne H n.peers choice).1 := by
    unfold Node.askOne
    split
    · split
      · exact steps_sendNew _ _ _ _ (by simp [registry]) (by simp) (by decide)
      · exact .refl
    · exact .refl
  split
  · rename_i h; rw [h] at h2; exact h1.trans h2
  · rename_i h; rw [h] at h2; exact (h1.trans h2).trans (steps_reduce ..)

theorem steps_items (n : Node) (now : Int) (envs : List AnyEnv) (choice : Nat) (hq : Q .any 0 0) (hb : Q .beat 0 now) :
    Steps H Q n (n.items H now envs choice).1 := by
  unfold Node.items
  split
  · exact (Prim.beat n now hb).one.trans (steps_heartbeat _ _ _ hq)
  · exact .refl

theorem steps_banCheck (n : Node) (a : Addr) (now : Int) : Steps H Q n (n.banCheck a now).1 := by
  unfold Node.banCheck
  split
  · exact .refl
  · split
    · exact .refl
    · exact (Prim.unban n _).one

theorem steps_handleAccept (n : Node) (pair : Option Addr) (now now' : Int) (nonce : Bytes)
    (hq : ∀ a, pair = some a → Q (.dial a) 0 0) :
    Steps H Q n (n.handleAccept H pair now now' nonce).1 := by
  unfold Node.handleAccept
  split
  · exact .refl
  · rename_i a
    have := steps_banCheck (H := H) (Q := Q) n a now
    split
    · rename_i h; rw [h] at this; exact this
    · rename_i h; rw [h] at this
      split
      · exact this
      · exact this.trans (steps_newIncoming _ _ _ _ (hq _ rfl))

/-- Every event but a reception is a sequence of primitive changes. -/
theorem steps_step (n : Node) (e : Event) (h : ∀ c b now, e = .read c (.data b) now → b = [])
    (hq : ∀ w c t, e.stores w c t → Q w c t) :
    Steps H Q n (n.step H e) := by
  cases e with
  | read c r now =>
    unfold Node.step
    simp only
    split
    · cases r with
      | raised => exact steps_handleClose ..
      | data b =>
        have := h c b now rfl
        subst this
        exact (steps_handleClose ..).trans (steps_handleClose ..)
    · exact .refl
  | write c r now =>
    unfold Node.step
    simp only
    split
    · exact steps_handleWrite _ _ _ _ (hq .tx c now ⟨rfl, rfl⟩)
    · exact .refl
  | poll c now now' nonce =>
    unfold Node.step
    simp only
    split
    · exact steps_readable _ _ _ _ _ (hq .ping c now' ⟨rfl, rfl⟩)
    · exact .refl
  | close c => exact steps_handleClose ..
  | items now envs choice => exact steps_items _ _ _ _ (hq .any 0 0 trivial) (hq .beat 0 now rfl)
  | accept pair now now' nonce =>
    unfold Node.step
    simp only
    split
    · have := steps_handleAccept (H := H) (Q := Q) n pair now now' nonce (fun a h => hq (.dial a) 0 0 h)
      split
      · rename_i h; rw [h] at this; exact this
      · rename_i h; rw [h] at this; exact this.trans (Prim.deaf _ (hq .deaf 0 0 trivial)).one
    · exact .refl
  | addPeer a force connects now nonce => exact steps_addPeer _ _ _ _ _ _ (.inl (hq (.dial a) 0 0 rfl))
  | removePeer a => exact steps_removePeer ..
  | punish c now => exact steps_punish _ _ _ (hq .score c 0 rfl)
  | send c t fields => exact steps_sendMessage _ _ _ _ (.inl (hq (.own t fields) c 0 ⟨rfl, rfl, rfl⟩))
  | setExternalIp ip => exact (Prim.ext n ip (hq .ext 0 0 trivial)).one

end NBC.P2P
