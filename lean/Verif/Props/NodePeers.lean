import Verif.Props.NodeAddresses

/-!
# Properties C74 to C78: bans, the external ip, the number of peers, idle connections
-/

namespace NBC.Props
open NBC NBC.Spec NBC.Spec.Wire NBC.Proto NBC.P2P

variable {H : Hashes} {Q : Clock → Nat → Int → Prop}

/-! ### Auxiliary facts -/

theorem handleClose_conns (n : Node) (c i : Nat) :
    (n.handleClose c).conns[i]? = (n.conns[i]?).map (fun k => if c = i then { k with isOpen := false } else k) := by
  unfold Node.handleClose Node.disconnected
  split
  · exact conns_upd n c i _
  · exact conns_upd n c i _

theorem handleClose_banned (n : Node) (c : Nat) : (n.handleClose c).banned = n.banned := by
  unfold Node.handleClose Node.disconnected
  split <;> rfl

theorem dictGet_set {α β : Type} [DecidableEq α] (d : List (α × β)) (a : α) (b : β) (a' : α) :
    dictGet (dictSet d a b) a' = if a' = a then some b else dictGet d a' := by
  have key : ∀ d : List (α × β), dictGet (d.map (fun e => if e.1 = a then (a, b) else e)) a' =
      if a' = a ∧ a ∈ d.map (·.1) then some b else dictGet d a' := by
    intro d
    induction d with
    | nil => simp [dictGet]
    | cons e d ih =>
      unfold dictGet at ih ⊢
      rw [List.map_cons, List.find?_cons, List.find?_cons]
      by_cases h1 : e.1 = a
      · rw [if_pos h1]
        by_cases h2 : a' = a
        · subst h2
          simp [h1]
        · have h3 : ¬ a = a' := fun h => h2 h.symm
          simp only [h3, decide_false, h1]
          rw [ih]
          simp [h2]
      · rw [if_neg h1]
        by_cases h2 : e.1 = a'
        · have : ¬ a' = a := fun h => h1 (h2.trans h)
          simp [h2, this]
        · simp only [h2, decide_false]
          refine ih.trans ?_
          have : ¬ a = e.1 := fun h => h1 h.symm
          simp only [List.map_cons, List.mem_cons, this, false_or]
  unfold dictSet
  split
  · rename_i h
    rw [key]
    by_cases h2 : a' = a <;> simp [h2, h]
  · rename_i h
    unfold dictGet
    rw [List.find?_append]
    by_cases h2 : a' = a
    · subst h2
      have : d.find? (fun e => decide (e.1 = a')) = none := by
        rw [List.find?_eq_none]
        intro e he h3
        exact h (List.mem_map.2 ⟨e, he, of_decide_eq_true h3⟩)
      simp [this]
    · have : ¬ a = a' := fun h => h2 h.symm
      simp [this, h2]

theorem dictGet_del {α β : Type} [DecidableEq α] (d : List (α × β)) (a a' : α) (h : dictGet d a' = none) :
    dictGet (dictDel d a) a' = none := by
  unfold dictGet dictDel at *
  rw [Option.map_eq_none_iff, List.find?_eq_none] at h ⊢
  exact fun e he => h e (List.mem_of_mem_filter he)

/-! ### C74 -/

theorem banned_prim {n m : Node} (hp : Prim2 H Q n m) (h : ∀ a, dictGet n.banned (.addr a) = none) :
    ∀ a, dictGet m.banned (.addr a) = none := by
  cases hp with
  | prim _ hp =>
    cases hp with
    | ban c ip now _ =>
      intro a
      show dictGet (dictSet n.banned (.ip ip) now) (.addr a) = none
      rw [dictGet_set, if_neg (by intro h; cases h)]
      exact h a
    | unban key => exact fun a => dictGet_del _ _ _ (h a)
    | _ => exact h
  | recv c k chunk now hk _ => exact h
  | setBuf c b => exact h

/-- C74 is false: `punish_peer` records the ip, `handle_accept` looks for the pair of ip and port, so that after any
history whatever (with any bans) the ban list refuses nobody: a connection from any address, while the node listens, is
opened. -/
theorem C74_reconnect_false (n : Node) (hn : n.banned = []) (es : List Event) (a : Addr) (now now' : Int) (nonce : Bytes) :
    let m := n.run H es
    m.banCheck a now = (m, false) ∧
    (m.listening = true → m.listen = true →
      ∃ k, (m.step H (.accept (some a) now now' nonce)).conns[m.conns.length]? = some k ∧ k.isOpen = true ∧
        k.address = a) := by
  intro m
  have h : ∀ a, dictGet m.banned (.addr a) = none :=
    run_invariant (fun m => ∀ a, dictGet m.banned (.addr a) = none) (fun _ _ => banned_prim) n es
      (by rw [hn]; intro a; rfl)
  have hb : m.banCheck a now = (m, false) := by
    unfold Node.banCheck
    rw [h a]
  refine ⟨hb, fun h1 h2 => ?_⟩
  have hn : ∃ k, (m.newIncoming H a now' nonce).1.conns[m.conns.length]? = some k ∧ k.isOpen = true ∧ k.address = a := by
    unfold Node.newIncoming Node.greet
    simp only
    have h0 : ({ m with conns := m.conns ++ [{ address := a, incoming := true }] } : Node).conns[m.conns.length]? =
        some { address := a, incoming := true } := by
      simp
    split
    · exact ⟨_, h0, rfl, rfl⟩
    · unfold Node.sendMessage
      split
      · exact ⟨_, h0, rfl, rfl⟩
      · exact ⟨_, conns_upd_self _ _ _ h0, rfl, rfl⟩
  unfold Node.step
  simp only [h1, if_true]
  unfold Node.handleAccept
  simp only [hb, h2, Bool.not_true, Bool.false_eq_true, if_false]
  generalize m.newIncoming H a now' nonce = r at hn
  obtain ⟨m', e⟩ := r
  cases e <;> exact hn

/-- A peer connects, is punished six times and comes back one second later. -/
def comesBack : List Event :=
  [.accept (some ("10.0.0.2".toList, 4000)) 5000 5000 [0, 0, 0, 0, 0, 0, 0, 1]] ++
    (List.range 6).map (fun i => .punish 0 (6000 + i)) ++
    [.accept (some ("10.0.0.2".toList, 4000)) (6000 + second) (6000 + second) [0, 0, 0, 0, 0, 0, 0, 2]]

example : let m := (node0 .py3 125).run Hashes.toy comesBack
    m.peers = [1] ∧ dictGet m.banned (.ip "10.0.0.2".toList) = some 6005 ∧
      (m.conns.map (·.address)) = [("10.0.0.2".toList, 4000), ("10.0.0.2".toList, 4000)] := by
  decide +kernel

/-- C74, what holds: a peer punished beyond the limit is closed, and the time is recorded under its ip. -/
theorem C74_recorded_partial (n : Node) (c : Nat) (now : Int) (k : Conn) (hk : n.conns[c]? = some k)
    (h : k.banscore ≥ 5) :
    c ∉ (n.punishPeer c now).peers ∧ dictGet (n.punishPeer c now).banned (.ip k.address.1) = some now := by
  have h1 : (n.upd c (fun k => k.addBanscore)).conns[c]? = some k.addBanscore := conns_upd_self n c _ hk
  unfold Node.punishPeer
  simp only [h1]
  rw [if_pos (show k.addBanscore.banscore > 5 by show k.banscore + 1 > 5; omega)]
  refine ⟨?_, ?_⟩
  · rw [mem_peers, not_exists]
    rintro k' ⟨h2, h3⟩
    rw [handleClose_conns] at h2
    rw [show ({ n.upd c (fun k => k.addBanscore) with
      banned := dictSet (n.upd c (fun k => k.addBanscore)).banned (.ip k.addBanscore.address.1) now } : Node).conns[c]? =
        some k.addBanscore from h1] at h2
    simp only [Option.map_some, if_true, Option.some.injEq] at h2
    rw [← h2] at h3
    cases h3
  · rw [handleClose_banned]
    show dictGet (dictSet _ _ _) _ = _
    rw [dictGet_set]
    exact if_pos rfl

/-! ### C75 -/

/-- C75: in every history, scores are not negative and those of open connections do not exceed 5. -/
theorem C75_range (n : Node) (hn : n.conns = []) (es : List Event) (c : Nat) (k : Conn)
    (hk : (n.run H es).conns[c]? = some k) : 0 ≤ k.banscore ∧ (c ∈ (n.run H es).peers → k.banscore ≤ 5) := by
  obtain ⟨a, inc, h⟩ := (run_event (H := H) n es).new c k (by rw [hn]; rfl) hk
  refine ⟨h.score (Int.le_refl 0), fun hp => h.limit (fun _ => (by decide : (0 : Int) ≤ 5)) ?_⟩
  obtain ⟨k', h1, h2⟩ := mem_peers.1 hp
  rw [hk] at h1
  cases h1
  exact h2

/-- C75: one punishment adds one to the score, and closes and bans exactly when it then exceeds 5. -/
theorem C75_punish (n : Node) (c : Nat) (now : Int) (k : Conn) (hk : n.conns[c]? = some k) :
    let m := n.punishPeer c now
    m.conns[c]? = some { k with banscore := k.banscore + 1, isOpen := if k.banscore + 1 > 5 then false else k.isOpen } ∧
    (∀ i, i ≠ c → m.conns[i]? = n.conns[i]?) ∧
    m.banned = if k.banscore + 1 > 5 then dictSet n.banned (.ip k.address.1) now else n.banned := by
  intro m
  have h1 : (n.upd c (fun k => k.addBanscore)).conns[c]? = some k.addBanscore := conns_upd_self n c _ hk
  have h2 : ∀ i, i ≠ c → (n.upd c (fun k => k.addBanscore)).conns[i]? = n.conns[i]? := by
    intro i hi
    rw [conns_upd]
    simp [hi.symm]
  have hm : m = if k.banscore + 1 > 5 then
      ({ n.upd c (fun k => k.addBanscore) with banned := dictSet n.banned (.ip k.address.1) now } : Node).handleClose c
      else n.upd c (fun k => k.addBanscore) := by
    show n.punishPeer c now = _
    unfold Node.punishPeer
    simp only [h1]
    rfl
  by_cases h : k.banscore + 1 > 5
  · rw [if_pos h] at hm
    rw [hm, if_pos h, if_pos h]
    refine ⟨?_, fun i hi => ?_, handleClose_banned _ _⟩
    · rw [handleClose_conns]
      show Option.map _ ((n.upd c (fun k => k.addBanscore)).conns[c]?) = _
      rw [h1]
      simp [Conn.addBanscore]
    · rw [handleClose_conns]
      show Option.map _ ((n.upd c (fun k => k.addBanscore)).conns[i]?) = _
      rw [h2 i hi]
      cases n.conns[i]? <;> simp [hi.symm]
  · rw [if_neg h] at hm
    rw [hm, if_neg h, if_neg h]
    exact ⟨h1, h2, rfl⟩

theorem addPeer_old (n : Node) (a : Addr) (force connects : Bool) (now : Int) (nonce : Bytes) (i : Nat)
    (hi : i < n.conns.length) : (n.addPeer H a force connects now nonce).1.conns[i]? = n.conns[i]? := by
  have hne : n.conns.length ≠ i := by omega
  have h0 : (n.conns ++ [({ address := a, incoming := false } : Conn)])[i]? = n.conns[i]? := List.getElem?_append_left hi
  have hn : (n.newOutgoing H a connects now nonce).1.conns[i]? = n.conns[i]? := by
    unfold Node.newOutgoing
    simp only
    split
    · unfold Node.greet
      split
      · exact h0
      · unfold Node.sendMessage
        split
        · exact h0
        · rw [conns_upd]
          simp only [hne, if_false, Option.map_id']
          exact h0
    · rw [handleClose_conns]
      simp only [hne, if_false, Option.map_id']
      exact h0
  unfold Node.addPeer
  split
  · rfl
  split
  · rfl
  · split <;> (rename_i h; rw [h] at hn; exact hn)

theorem steps_length {n m : Node} (h : Steps H Q n m) : n.conns.length ≤ m.conns.length := by
  by_contra hc
  have hlt : m.conns.length < n.conns.length := by omega
  obtain ⟨k', h1, -⟩ := (steps_node h).old m.conns.length _ (List.getElem?_eq_getElem hlt)
  simp at h1

theorem addSome_old (es : List AnyEnv) (n : Node) (i : Nat) (hi : i < n.conns.length) :
    (n.addSome H es).conns[i]? = n.conns[i]? := by
  induction es generalizing n with
  | nil => rfl
  | cons e es ih =>
    have h1 : (n.addAnyPeer H e).conns[i]? = n.conns[i]? := by
      unfold Node.addAnyPeer
      split
      · split
        · rfl
        · exact addPeer_old _ _ _ _ _ _ _ hi
      · split
        · rfl
        · exact addPeer_old _ _ _ _ _ _ _ hi
    rw [Node.addSome, ih _ (Nat.lt_of_lt_of_le hi (steps_length (Q := fun _ _ _ => True) (steps_addAnyPeer n e trivial))), h1]

theorem reduce_conns (l : List Nat) (hl : l.Nodup) (n : Node) (i : Nat) :
    (l.foldl (fun n c => n.upd c (fun k => k.reduceBanscore)) n).conns[i]? =
      (n.conns[i]?).map (fun k => if i ∈ l then k.reduceBanscore else k) := by
  induction l generalizing n with
  | nil => simp
  | cons c l ih =>
    rw [List.foldl_cons, ih (List.nodup_cons.1 hl).2, conns_upd]
    cases n.conns[i]? with
    | none => rfl
    | some k =>
      simp only [Option.map_some, List.mem_cons]
      by_cases h : c = i
      · subst h
        simp [(List.nodup_cons.1 hl).1]
      · have : ¬ i = c := fun h' => h h'.symm
        simp [h, this]

/-- C75: a heartbeat that does not raise takes one from the score of every open connection, but not below zero, and
leaves the others as they are. -/
theorem C75_heartbeat (n m : Node) (envs : List AnyEnv) (choice : Nat) (h : n.heartbeat H envs choice = (m, none))
    (c : Nat) (k : Conn) (hk : n.conns[c]? = some k) :
    ∃ k', m.conns[c]? = some k' ∧ k'.isOpen = k.isOpen ∧
      k'.banscore = if k.isOpen then max 0 (k.banscore - 1) else k.banscore := by
  have hc : c < n.conns.length := (List.getElem?_eq_some_iff.1 hk).1
  unfold Node.heartbeat at h
  simp only at h
  have h1 : (n.addSome H (envs.take (min (n.seekPeers - n.peers.length) 5).toNat)).conns[c]? = some k := by
    rw [addSome_old _ _ _ hc, hk]
  generalize n.addSome H (envs.take (min (n.seekPeers - n.peers.length) 5).toNat) = p at *
  have h2 : ∃ b, (p.askOne H n.peers choice).1.conns[c]? = some { k with sendBuf := b } := by
    unfold Node.askOne
    split
    · split
      · unfold Node.sendNew
        split
        · exact ⟨k.sendBuf, h1⟩
        · unfold Node.sendMessage
          split
          · exact ⟨k.sendBuf, h1⟩
          · rename_i c' _ _ _ _ _ _ b _
            rw [conns_upd, h1]
            by_cases e : c' = c
            · exact ⟨k.sendBuf ++ b, by simp [e]⟩
            · exact ⟨k.sendBuf, by simp [e]⟩
      · exact ⟨k.sendBuf, h1⟩
    · exact ⟨k.sendBuf, h1⟩
  obtain ⟨b, h2⟩ := h2
  generalize p.askOne H n.peers choice = r at *
  obtain ⟨q, e⟩ := r
  cases e with
  | some e => cases h
  | none =>
    simp only [Prod.mk.injEq, and_true] at h
    have hnd : n.peers.Nodup := by
      unfold Node.peers
      exact List.nodup_range.filter _
    have h3 := reduce_conns n.peers hnd q c
    rw [h, h2] at h3
    refine ⟨_, h3, ?_, ?_⟩
    · split <;> rfl
    · by_cases ho : k.isOpen = true
      · simp only [if_pos (mem_peers.2 ⟨k, hk, ho⟩), if_pos ho]
        unfold Conn.reduceBanscore
        simp only
        split <;> omega
      · have hm : c ∉ n.peers := fun hm => ho (by
          obtain ⟨k', e1, e2⟩ := mem_peers.1 hm
          rw [hk] at e1
          cases e1
          exact e2)
        simp only [if_neg hm, if_neg ho]

example : ((node0 .py3 125).run Hashes.toy
      [.accept (some ("10.0.0.2".toList, 4000)) 5000 5000 [0, 0, 0, 0, 0, 0, 0, 1], .punish 0 6000, .punish 0 6001,
        .items (20 * second) [] 0]).conns.map (fun k => (k.isOpen, k.banscore)) = [(true, 1)] := by
  decide +kernel

/-! ### C76 -/

/-- What the current peers report. -/
def reports (n : Node) : List (List Char) := (n.conns.filter (·.isOpen)).filterMap (·.externalIp)

/-- `a` is reported most often, and is the greatest of those reported as often. -/
def IsPlurality (rs : List (List Char)) (a : List Char) : Prop :=
  a ∈ rs ∧ ∀ b ∈ rs, rs.count b < rs.count a ∨ (rs.count b = rs.count a ∧ b ≤ a)

/-- The count kept for an address. -/
def kept (d : List (List Char × Nat)) (a : List Char) : Nat := (dictGet d a).getD 0

theorem kept_count (l : List (Option (List Char))) (d : List (List Char × Nat)) (a : List Char) :
    kept (countReports l d) a = kept d a + (l.filterMap id).count a := by
  induction l generalizing d with
  | nil => simp [countReports]
  | cons x l ih =>
    cases x with
    | none => rw [countReports, ih]; rfl
    | some b =>
      rw [countReports, ih]
      have : (some b :: l).filterMap id = b :: l.filterMap id := rfl
      rw [this, List.count_cons]
      unfold kept
      rw [dictGet_set]
      by_cases h : a = b
      · subst h
        simp
        omega
      · have : ¬ b = a := fun h' => h h'.symm
        simp [h, this]

theorem dictSet_keys {α β : Type} [DecidableEq α] (d : List (α × β)) (a : α) (b : β) (h : (d.map (·.1)).Nodup) :
    ((dictSet d a b).map (·.1)).Nodup := by
  unfold dictSet
  split
  · have : (d.map (fun e => if e.1 = a then (a, b) else e)).map (·.1) = d.map (·.1) := by
      rw [List.map_map]
      apply List.map_congr_left
      intro e _
      show (if e.1 = a then (a, b) else e).1 = e.1
      split
      · rename_i h; exact h.symm
      · rfl
    rw [this]
    exact h
  · rename_i h'
    rw [List.map_append, List.nodup_append]
    exact ⟨h, by simp, by
      rintro x hx y hy rfl
      rw [List.map_singleton, List.mem_singleton] at hy
      have hy : x = a := hy
      exact h' (hy ▸ hx)⟩

theorem count_keys (l : List (Option (List Char))) (d : List (List Char × Nat)) (h : (d.map (·.1)).Nodup) :
    ((countReports l d).map (·.1)).Nodup := by
  induction l generalizing d with
  | nil => exact h
  | cons x l ih =>
    cases x with
    | none => exact ih d h
    | some b => exact ih _ (dictSet_keys _ _ _ h)

theorem kept_mem {d : List (List Char × Nat)} (h : (d.map (·.1)).Nodup) {a : List Char} {v : Nat} (hm : (a, v) ∈ d) :
    kept d a = v := by
  induction d with
  | nil => cases hm
  | cons e d ih =>
    unfold kept dictGet at *
    rw [List.map_cons, List.nodup_cons] at h
    rw [List.find?_cons]
    rcases List.mem_cons.1 hm with rfl | hm
    · simp
    · have : ¬ e.1 = a := fun h' => h.1 (h' ▸ List.mem_map.2 ⟨_, hm, rfl⟩)
      simp only [this, decide_false]
      exact ih h.2 hm

theorem mem_of_kept {d : List (List Char × Nat)} {a : List Char} (h : kept d a ≠ 0) : (a, kept d a) ∈ d := by
  unfold kept dictGet at *
  cases hf : d.find? (fun e => decide (e.1 = a)) with
  | none => rw [hf] at h; exact absurd rfl h
  | some e =>
    have h1 := List.find?_some hf
    have h2 := List.mem_of_find?_eq_some hf
    obtain rfl := of_decide_eq_true h1
    exact h2

theorem values_pos (l : List (Option (List Char))) (d : List (List Char × Nat)) (h : ∀ e ∈ d, e.2 ≠ 0) :
    ∀ e ∈ countReports l d, e.2 ≠ 0 := by
  induction l generalizing d with
  | nil => exact h
  | cons x l ih =>
    cases x with
    | none => exact ih d h
    | some b =>
      refine ih _ (fun e he => ?_)
      unfold dictSet at he
      split at he
      · obtain ⟨x, hx, rfl⟩ := List.mem_map.1 he
        split
        · simp
        · exact h x hx
      · rcases List.mem_append.1 he with he | he
        · exact h e he
        · rw [List.mem_singleton.1 he]
          simp

theorem pairLe_iff (a b : Nat × List Char) : pairLe a b = true ↔ a.1 < b.1 ∨ (a.1 = b.1 ∧ a.2 ≤ b.2) := by
  unfold pairLe
  rw [decide_eq_true_iff, List.not_lt]

theorem last_le {α : Type} (r : α → α → Prop) (hr : ∀ a, r a a) (l : List α) (h : l.Pairwise r) (x : α)
    (hx : l.getLast? = some x) : ∀ y ∈ l, r y x := by
  induction l with
  | nil => cases hx
  | cons a l ih =>
    cases l with
    | nil =>
      cases hx
      intro y hy
      rw [List.mem_singleton.1 hy]
      exact hr _
    | cons b l =>
      rw [List.getLast?_cons_cons] at hx
      intro y hy
      rcases List.mem_cons.1 hy with rfl | hy
      · exact (List.pairwise_cons.1 h).1 x (List.mem_of_getLast? hx)
      · exact ih (List.pairwise_cons.1 h).2 hx y hy

theorem reports_eq (n : Node) : (n.openConns.map (·.externalIp)).filterMap id = reports n := by
  unfold reports Node.openConns
  rw [List.filterMap_map]
  rfl

/-- C76: `_check_external_ip` stores the plurality answer of the current peers; without any answer it changes
nothing. -/
theorem C76_plurality (n : Node) :
    (reports n ≠ [] → IsPlurality (reports n) n.checkExternalIp.guessedIp) ∧
    (reports n = [] → n.checkExternalIp = n) ∧ reports n.checkExternalIp = reports n := by
  have hc : ∀ a, kept (countReports (n.openConns.map (·.externalIp)) []) a = (reports n).count a := by
    intro a
    rw [kept_count, reports_eq]
    simp [kept, dictGet]
  have hk := count_keys (n.openConns.map (·.externalIp)) [] (by simp)
  have hv := values_pos (n.openConns.map (·.externalIp)) [] (by simp)
  have hdef : n.checkExternalIp =
      match (((countReports (n.openConns.map (·.externalIp)) []).map (fun e => (e.2, e.1))).mergeSort pairLe).getLast? with
      | none => n
      | some e => { n with guessedIp := e.2 } := rfl
  generalize countReports (n.openConns.map (·.externalIp)) [] = d at *
  have hmem : ∀ (e : Nat × List Char), e ∈ (d.map (fun e => (e.2, e.1))).mergeSort pairLe ↔ (e.2, e.1) ∈ d := by
    intro e
    rw [List.mem_mergeSort, List.mem_map]
    constructor
    · rintro ⟨x, hx, rfl⟩
      exact hx
    · exact fun h => ⟨_, h, rfl⟩
  have hsort := List.pairwise_mergeSort (le := pairLe)
    (fun a b c h1 h2 => by
      rw [pairLe_iff] at h1 h2 ⊢
      rcases h1 with h1 | ⟨h1, h1'⟩ <;> rcases h2 with h2 | ⟨h2, h2'⟩
      · exact Or.inl (by omega)
      · exact Or.inl (by omega)
      · exact Or.inl (by omega)
      · exact Or.inr ⟨by omega, List.le_trans h1' h2'⟩)
    (fun a b => by
      rw [Bool.or_eq_true, pairLe_iff, pairLe_iff]
      rcases Nat.lt_trichotomy a.1 b.1 with h | h | h
      · exact Or.inl (Or.inl h)
      · rcases List.le_total a.2 b.2 with h' | h'
        · exact Or.inl (Or.inr ⟨h, h'⟩)
        · exact Or.inr (Or.inr ⟨h.symm, h'⟩)
      · exact Or.inr (Or.inl h)) (d.map (fun e => (e.2, e.1)))
  have hlast := last_le _ (fun a => by rw [pairLe_iff]; exact Or.inr ⟨rfl, List.le_refl _⟩) _ hsort
  generalize (d.map (fun e => (e.2, e.1))).mergeSort pairLe = s at *
  cases hs : s.getLast? with
  | none =>
    rw [hs] at hdef
    rw [hdef]
    refine ⟨fun hr => ?_, fun _ => rfl, rfl⟩
    exfalso
    obtain ⟨a, ha⟩ := List.exists_mem_of_ne_nil _ hr
    have h1 : kept d a ≠ 0 := by
      rw [hc]
      exact Nat.pos_iff_ne_zero.1 (List.count_pos_iff.2 ha)
    have h2 := (hmem (kept d a, a)).2 (mem_of_kept h1)
    rw [List.getLast?_eq_none_iff.1 hs] at h2
    cases h2
  | some e =>
    rw [hs] at hdef
    have hm := (hmem e).1 (List.mem_of_getLast? hs)
    have he : (reports n).count e.2 = e.1 := by rw [← hc, kept_mem hk hm]
    have hpos : 0 < (reports n).count e.2 := by
      rw [he]
      exact Nat.pos_of_ne_zero (hv _ hm)
    rw [hdef]
    refine ⟨fun _ => ⟨List.count_pos_iff.1 hpos, fun b hb => ?_⟩, fun h => ?_, rfl⟩
    · have h1 : kept d b ≠ 0 := by
        rw [hc]
        exact Nat.pos_iff_ne_zero.1 (List.count_pos_iff.2 hb)
      have h2 := hlast e hs _ ((hmem (kept d b, b)).2 (mem_of_kept h1))
      rw [pairLe_iff] at h2
      show _ < (reports n).count e.2 ∨ (_ = (reports n).count e.2 ∧ b ≤ e.2)
      rw [he, ← hc]
      exact h2
    · rw [h] at hpos
      cases hpos

example : IsPlurality ["9.9.9.9".toList, "1.1.1.1".toList, "5.5.5.5".toList, "1.1.1.1".toList, "5.5.5.5".toList]
    "5.5.5.5".toList := by
  unfold IsPlurality
  decide +kernel

/-! ### C77 -/

/-- C77: `add_peer` does nothing for the address of an open connection, nor for the node's own while it listens. -/
theorem C77_duplicate (n : Node) (a : Addr) (force connects : Bool) (now : Int) (nonce : Bytes)
    (h : (∃ (c : Nat) (k : Conn), n.conns[c]? = some k ∧ k.isOpen = true ∧ k.address = a) ∨ (n.listening = true ∧ a = n.address)) :
    n.addPeer H a force connects now nonce = (n, false) := by
  have hm : a ∈ n.allAddresses := by
    unfold Node.allAddresses Node.openConns
    rcases h with ⟨c, k, h1, h2, h3⟩ | ⟨h1, h2⟩
    · exact List.mem_append_right _ (List.mem_map.2 ⟨k, List.mem_filter.2 ⟨List.mem_of_getElem? h1, h2⟩, h3⟩)
    · rw [if_pos h1]
      exact List.mem_append_left _ (List.mem_singleton.2 h2)
  unfold Node.addPeer
  rw [if_pos hm, ite_self]

/-- The number of objects in the map. -/
def mapCount (n : Node) : Nat := (if n.listening then 1 else 0) + n.conns.countP (·.isOpen)

theorem mapSize_eq (n : Node) : n.mapSize = mapCount n := by
  unfold Node.mapSize mapCount Node.openConns
  rw [List.countP_eq_length_filter]

theorem countP_modify (l : List Conn) (c : Nat) (f : Conn → Conn) (h : ∀ k, (f k).isOpen = true → k.isOpen = true) :
    (l.modify c f).countP (·.isOpen) ≤ l.countP (·.isOpen) := by
  induction l generalizing c with
  | nil => simp
  | cons a l ih =>
    cases c with
    | zero =>
      rw [List.modify_zero_cons, List.countP_cons, List.countP_cons]
      have := h a
      by_cases h1 : (f a).isOpen = true
      · rw [if_pos h1, if_pos (h a h1)]
      · rw [if_neg h1]; omega
    | succ c =>
      rw [List.modify_succ_cons, List.countP_cons, List.countP_cons]
      have := ih c
      omega

theorem newOutgoing_count (n : Node) (a : Addr) (connects : Bool) (now : Int) (nonce : Bytes) :
    mapCount (n.newOutgoing H a connects now nonce).1 ≤ mapCount n + 1 := by
  have h0 : mapCount { n with conns := n.conns ++ [{ address := a, incoming := false }] } = mapCount n + 1 := by
    unfold mapCount
    simp only [List.countP_append]
    simp
    omega
  have hu : ∀ (m : Node) c f, (∀ k, (f k).isOpen = true → k.isOpen = true) → mapCount (m.upd c f) ≤ mapCount m := by
    intro m c f hf
    unfold mapCount Node.upd
    have := countP_modify m.conns c f hf
    simp only
    omega
  unfold Node.newOutgoing
  simp only
  split
  · unfold Node.greet
    split
    · exact Nat.le_of_eq h0
    · unfold Node.sendMessage
      split
      · exact Nat.le_of_eq h0
      · exact Nat.le_trans (hu _ _ _ (fun k h => h)) (Nat.le_of_eq h0)
  · unfold Node.handleClose Node.disconnected
    split
    · exact Nat.le_trans (hu _ _ _ (fun k h => by cases h)) (Nat.le_of_eq h0)
    · show mapCount (({ n with conns := n.conns ++ [{ address := a, incoming := false }] } : Node).upd n.conns.length
        (fun k => { k with isOpen := false })) ≤ _
      exact Nat.le_trans (hu _ _ (fun k => { k with isOpen := false }) (fun k h => by cases h)) (Nat.le_of_eq h0)

/-- C77: with `force=False`, `add_peer` never makes the map larger than `max_peers`: it does nothing when there are
that many, and otherwise adds at most one. -/
theorem C77_limit (n : Node) (a : Addr) (connects : Bool) (now : Int) (nonce : Bytes) :
    ((mapCount n : Int) ≥ n.maxPeers → n.addPeer H a false connects now nonce = (n, false)) ∧
    ((mapCount n : Int) ≤ n.maxPeers → (mapCount (n.addPeer H a false connects now nonce).1 : Int) ≤ n.maxPeers) := by
  have h1 : (mapCount n : Int) ≥ n.maxPeers → n.addPeer H a false connects now nonce = (n, false) := by
    intro h
    unfold Node.addPeer
    rw [if_pos ⟨rfl, by rw [mapSize_eq]; exact h⟩]
  refine ⟨h1, fun h => ?_⟩
  by_cases hge : (mapCount n : Int) ≥ n.maxPeers
  · rw [h1 hge]
    exact h
  · have hn := newOutgoing_count (H := H) n a connects now nonce
    unfold Node.addPeer
    split
    · exact h
    split
    · exact h
    · split <;> (rename_i e; rw [e] at hn; simp only at hn ⊢; omega)

/-- No two connections to an address, as far as `add_peer` is responsible. -/
def Distinct (n : Node) : Prop :=
  (∀ (i j : Nat) (ki kj : Conn), i < j → n.conns[i]? = some ki → n.conns[j]? = some kj → ki.isOpen = true → kj.isOpen = true →
    kj.incoming = false → ki.address ≠ kj.address) ∧
  (∀ (j : Nat) (kj : Conn), n.conns[j]? = some kj → kj.isOpen = true → kj.incoming = false → n.listening = true →
    kj.address ≠ n.address)

theorem distinct_same {n m : Node} (hl : m.listening = true → n.listening = true) (ha : m.address = n.address)
    (hc : ∀ (i : Nat) k', m.conns[i]? = some k' → ∃ k, n.conns[i]? = some k ∧ k'.address = k.address ∧
      k'.incoming = k.incoming ∧ (k'.isOpen = true → k.isOpen = true)) (h : Distinct n) : Distinct m := by
  refine ⟨fun i j ki kj hij h1 h2 h3 h4 h5 => ?_, fun j kj h2 h4 h5 h6 => ?_⟩
  · obtain ⟨pi, a1, a2, a3, a4⟩ := hc i ki h1
    obtain ⟨pj, b1, b2, b3, b4⟩ := hc j kj h2
    rw [a2, b2]
    exact h.1 i j pi pj hij a1 b1 (a4 h3) (b4 h4) (b3 ▸ h5)
  · obtain ⟨pj, b1, b2, b3, b4⟩ := hc j kj h2
    rw [b2, ha]
    exact h.2 j pj b1 (b4 h4) (b3 ▸ h5) (hl h6)

theorem distinct_upd {n : Node} (c : Nat) (f : Conn → Conn) (h1 : ∀ k, (f k).address = k.address)
    (h2 : ∀ k, (f k).incoming = k.incoming) (h3 : ∀ k, (f k).isOpen = true → k.isOpen = true) (h : Distinct n) :
    Distinct (n.upd c f) := by
  refine distinct_same (n := n) id rfl (fun i k' hk => ?_) h
  rw [conns_upd] at hk
  obtain ⟨k, e1, e2⟩ := Option.map_eq_some_iff.1 hk
  refine ⟨k, e1, ?_⟩
  rw [← e2]
  split
  · exact ⟨h1 k, h2 k, h3 k⟩
  · exact ⟨rfl, rfl, id⟩

theorem distinct_conns {n m : Node} (hc : m.conns = n.conns) (hl : m.listening = true → n.listening = true)
    (ha : m.address = n.address) (h : Distinct n) : Distinct m :=
  distinct_same hl ha (fun i k' hk => ⟨k', hc ▸ hk, rfl, rfl, id⟩) h

theorem distinct_prim {n m : Node} (hp : Prim2 H Q n m) (h : Distinct n) : Distinct m := by
  cases hp with
  | prim _ hp =>
    cases hp with
    | queue c t fields b hb => exact distinct_upd c _ (fun _ => rfl) (fun _ => rfl) (fun _ h => h) h
    | close c => exact distinct_upd c _ (fun _ => rfl) (fun _ => rfl) (fun _ h => by cases h) h
    | sent c k j now hk hj _ =>
      exact distinct_conns (n := n.upd c (fun k => { k with
        out := k.out ++ k.sendBuf.take j
        txBytes := k.txBytes + j
        lastTx := now
        sendBuf := k.sendBuf.drop j })) rfl id rfl (distinct_upd c _ (fun _ => rfl) (fun _ => rfl) (fun _ h => h) h)
    | info c f hf =>
      exact distinct_upd c f (fun k => (hf k).address) (fun k => (hf k).incoming) (fun k h => (hf k).isOpen ▸ h) h
    | ping c t hq => exact distinct_upd c _ (fun _ => rfl) (fun _ => rfl) (fun _ h => h) h
    | tx c t hq => exact distinct_upd c _ (fun _ => rfl) (fun _ => rfl) (fun _ h => h) h
    | new a inc h' =>
      have hold : ∀ (i : Nat) k, i < n.conns.length →
          (n.conns ++ [({ address := a, incoming := inc } : Conn)])[i]? = some k → n.conns[i]? = some k := by
        intro i k hi e
        rwa [List.getElem?_append_left hi] at e
      have hnew : ∀ (i : Nat) k, ¬ i < n.conns.length →
          (n.conns ++ [({ address := a, incoming := inc } : Conn)])[i]? = some k →
          i = n.conns.length ∧ k = { address := a, incoming := inc } := by
        intro i k hi e
        have hlt := (List.getElem?_eq_some_iff.1 e).1
        rw [List.length_append, List.length_singleton] at hlt
        have : i = n.conns.length := by omega
        subst this
        simp only [List.getElem?_append_right (Nat.le_refl _), Nat.sub_self, List.getElem?_cons_zero,
          Option.some.injEq] at e
        exact ⟨rfl, e.symm⟩
      refine ⟨fun i j ki kj hij h1 h2 h3 h4 h5 => ?_, fun j kj h2 h4 h5 h6 => ?_⟩
      · by_cases hj : j < n.conns.length
        · exact h.1 i j ki kj hij (hold i ki (by omega) h1) (hold j kj hj h2) h3 h4 h5
        · obtain ⟨e1, e2⟩ := hnew j kj hj h2
          have h1' := hold i ki (by omega) h1
          subst e2
          have := h' h5
          intro e
          apply this
          unfold Node.allAddresses Node.openConns
          exact List.mem_append_right _ (List.mem_map.2 ⟨ki, List.mem_filter.2 ⟨List.mem_of_getElem? h1', h3⟩, e⟩)
      · by_cases hj : j < n.conns.length
        · exact h.2 j kj (hold j kj hj h2) h4 h5 h6
        · obtain ⟨e1, e2⟩ := hnew j kj hj h2
          subst e2
          have := h' h5
          intro e
          apply this
          have h6' : n.listening = true := h6
          unfold Node.allAddresses
          rw [if_pos h6']
          exact List.mem_append_left _ (List.mem_singleton.2 e)
    | add c h' => exact distinct_upd c _ (fun _ => rfl) (fun _ => rfl) (fun _ h => h) h
    | reduce c => exact distinct_upd c _ (fun _ => rfl) (fun _ => rfl) (fun _ h => h) h
    | addrSet a v h' hv => exact distinct_conns (n := n) rfl id rfl h
    | addrDel a => exact distinct_conns (n := n) rfl id rfl h
    | guess ip => exact distinct_conns (n := n) rfl id rfl h
    | ban c ip now _ => exact distinct_conns (n := n) rfl id rfl h
    | unban key => exact distinct_conns (n := n) rfl id rfl h
    | ext ip => exact distinct_conns (n := n) rfl id rfl h
    | beat t => exact distinct_conns (n := n) rfl id rfl h
    | deaf => exact distinct_conns (n := n) rfl (fun h => by cases h) rfl h
  | recv c k chunk now hk _ =>
    exact distinct_conns (n := n.upd c (fun k => { k with
      recvBuf := k.recvBuf ++ chunk
      rxBytes := k.rxBytes + chunk.length
      lastRx := now })) rfl id rfl (distinct_upd c _ (fun _ => rfl) (fun _ => rfl) (fun _ h => h) h)
  | setBuf c b => exact distinct_upd c _ (fun _ => rfl) (fun _ => rfl) (fun _ h => h) h

/-- C77: in every history, a connection that the node has opened has an address different from those of the
connections that were open before it, and from the node's own while it listens.  (`handle_accept` makes no such
check: peers may connect from an address twice.) -/
theorem C77_distinct (n : Node) (hn : n.conns = []) (es : List Event) : Distinct (n.run H es) :=
  run_invariant Distinct (fun _ _ => distinct_prim) n es
    ⟨fun i j ki kj _ h1 => by rw [hn] at h1; simp at h1, fun j kj h1 => by rw [hn] at h1; simp at h1⟩

/-- The limit holds for `add_peer` with `force=False` only: `handle_accept`, and `add_any_peer` by the default
`force=True`, go beyond it. -/
theorem C77_exceeded :
    mapCount ((node0 .py3 1).run Hashes.toy
      [.accept (some ("10.0.0.2".toList, 4000)) 5000 5000 [0, 0, 0, 0, 0, 0, 0, 1]]) = 2 ∧
    mapCount (({ node0 .py3 1 with addresses := [(("10.0.0.3".toList, 9333), .int 0, .int 1)] } : Node).addAnyPeer
      Hashes.toy ⟨false, 0, true, 5000, [0, 0, 0, 0, 0, 0, 0, 1]⟩) = 2 := by
  decide +kernel

end NBC.Props
