import Verif.Props.NodeLoop
import Verif.Props.NodePeers

/-!
# Property C170: bans are forgotten when they are over
-/

namespace NBC.Props
open NBC P2P Proto Spec Spec.Wire

variable {H : Hashes} {Q : Clock → Nat → Int → Prop}

theorem dictGet_dictDel {α β : Type} [DecidableEq α] (d : List (α × β)) (a a' : α) :
    dictGet (dictDel d a) a' = if a' = a then none else dictGet d a' := by
  unfold dictGet dictDel
  rw [List.find?_filter]
  split
  · rename_i h
    subst h
    rw [Option.map_eq_none_iff, List.find?_eq_none]
    intro e _
    by_cases he : e.1 = a' <;> simp [he]
  · rename_i h
    congr 2
    funext e
    by_cases he : e.1 = a'
    · simp [he, h]
    · simp [he]

/-- Once an ip is in the table, it is in the table. -/
theorem kept_prim {n m : Node} (hp : Prim2 H Q n m) (ip : List Char)
    (h : ∃ t, dictGet n.banned (.ip ip) = some t) : ∃ t, dictGet m.banned (.ip ip) = some t := by
  cases hp with
  | prim _ hp =>
    cases hp with
    | ban c ip' now _ =>
      show ∃ t, dictGet (dictSet n.banned (.ip ip') now) (.ip ip) = some t
      rw [dictGet_set]
      split
      · exact ⟨_, rfl⟩
      · exact h
    | unban a =>
      show ∃ t, dictGet (dictDel n.banned (.addr a)) (.ip ip) = some t
      rw [dictGet_dictDel, if_neg (by intro h; cases h)]
      exact h
    | _ => exact h
  | recv c k chunk now hk _ => exact h
  | setBuf c b => exact h

/-- C170 is false: whatever happens afterwards, and however much later, an ip that was banned stays in the table. -/
theorem C170_kept_false (n : Node) (es : List Event) (ip : List Char)
    (h : ∃ t, dictGet n.banned (.ip ip) = some t) : ∃ t, dictGet (n.run H es).banned (.ip ip) = some t :=
  run_invariant (fun m => ∃ t, dictGet m.banned (.ip ip) = some t) (fun _ _ hp => kept_prim hp ip) n es h

/-- Without a punishment, no entry is new or changed. -/
theorem unpunished_banned (n : Node) (e : Event) (he : ∀ c now, e ≠ .punish c now) (key : BanKey) (t : Int)
    (h : dictGet (n.step H e).banned key = some t) : dictGet n.banned key = some t := by
  have := run_invariant_clock (H := H) (Q := fun w _ _ => w ≠ .score)
    (fun m => ∀ key t, dictGet m.banned key = some t → dictGet n.banned key = some t)
    (fun m m' hp hm => by
      cases hp with
      | prim _ hp =>
        cases hp with
        | ban c ip' now hq => exact absurd rfl hq
        | unban a =>
          intro key t h
          refine hm key t ?_
          have h : dictGet (dictDel m.banned (.addr a)) key = some t := h
          rw [dictGet_dictDel] at h
          split at h
          · cases h
          · exact h
        | _ => exact hm
      | recv c k chunk now hk _ => exact hm
      | setBuf c b => exact hm) n [e]
    (fun e' h' w c t hw => by
      rw [List.mem_singleton.1 h'] at hw
      rintro rfl
      cases e <;> try exact hw.elim
      exact he _ _ rfl)
    (fun _ _ h => h)
  exact this key t h

/-- C170, what holds: every entry is the ip of a connection that was punished, with the time of a punishment. -/
theorem C170_known_partial (n : Node) (hb : n.banned = []) (es : List Event) (key : BanKey) (t : Int)
    (h : dictGet (n.run H es).banned key = some t) :
    ∃ c k, Event.punish c t ∈ es ∧ (n.run H es).conns[c]? = some k ∧ key = .ip k.address.1 := by
  induction es using List.reverseRecOn with
  | nil =>
    have h : dictGet n.banned key = some t := h
    rw [hb] at h
    cases h
  | append_singleton es e ih =>
    rw [run_append] at h ⊢
    generalize n.run H es = m at h ih ⊢
    have h' : dictGet (m.step H e).banned key = some t := h
    -- an old entry
    have hold : dictGet m.banned key = some t →
        ∃ c k, Event.punish c t ∈ es ++ [e] ∧ (m.run H [e]).conns[c]? = some k ∧ key = .ip k.address.1 := by
      intro h0
      obtain ⟨c, k, h1, h2, h3⟩ := ih h0
      obtain ⟨k', h4, h5⟩ := (run_event (H := H) m [e]).old c k h2
      exact ⟨c, k', List.mem_append_left _ h1, h4, by rw [h5.address]; exact h3⟩
    by_cases he : ∀ c now, e ≠ .punish c now
    · exact hold (unpunished_banned m e he key t h')
    · simp only [not_forall, not_not] at he
      obtain ⟨c, now, rfl⟩ := he
      cases hk : m.conns[c]? with
      | none =>
        refine hold ?_
        have e1 : (m.upd c (fun k => k.addBanscore)).conns[c]? = none := by rw [conns_upd, hk]; rfl
        have h' : dictGet (m.punishPeer c now).banned key = some t := h'
        unfold Node.punishPeer at h'
        simp only [e1] at h'
        exact h'
      | some k =>
        obtain ⟨p1, -, p3⟩ := C75_punish m c now k hk
        have h' : dictGet (m.punishPeer c now).banned key = some t := h'
        rw [p3] at h'
        split at h'
        · rw [dictGet_set] at h'
          split at h'
          · rename_i hkey
            cases h'
            exact ⟨c, _, List.mem_append_right _ (List.mem_singleton.2 rfl), p1, hkey⟩
          · exact hold h'
        · exact hold h'

/-- C170, what holds: there is at most one entry for an ip. -/
theorem C170_once (n : Node) (hb : n.banned = []) (es : List Event) : ((n.run H es).banned.map (·.1)).Nodup := by
  refine run_invariant (fun m => (m.banned.map (·.1)).Nodup) (fun m m' hp hm => ?_) n es (by rw [hb]; exact List.nodup_nil)
  cases hp with
  | prim _ hp =>
    cases hp with
    | ban c ip' now _ =>
      show ((dictSet m.banned (.ip ip') now).map (·.1)).Nodup
      unfold dictSet
      split
      · have : ((m.banned.map (fun e => if e.1 = BanKey.ip ip' then (BanKey.ip ip', now) else e)).map (·.1)) =
            m.banned.map (·.1) := by
          rw [List.map_map]
          refine List.map_congr_left (fun e _ => ?_)
          simp only [Function.comp]
          split
          · rename_i h; exact h.symm
          · rfl
        rw [this]
        exact hm
      · rename_i h
        rw [List.map_append, List.nodup_append]
        refine ⟨hm, List.nodup_singleton _, ?_⟩
        intro a ha b hb hab
        rw [List.map_cons, List.map_nil, List.mem_singleton] at hb
        exact h (by rw [hab, hb] at ha; exact ha)
    | unban a => exact hm.sublist (List.Sublist.map _ List.filter_sublist)
    | _ => exact hm
  | recv c k chunk now hk _ => exact hm
  | setBuf c b => exact hm

/-- A connection, and six punishments of it. -/
theorem ban_one (n : Node) (hn : n.conns = []) (es : List Event) (c : Nat) (k : Conn) (now : Int)
    (hk : (n.run H es).conns[c]? = some k) :
    ∃ t, dictGet (n.run H (es ++ List.replicate 6 (.punish c now))).banned (.ip k.address.1) = some t := by
  have h0 := (C75_range (H := H) n hn es c k hk).1
  have key : ∀ i : Nat, ∃ k', (n.run H (es ++ List.replicate i (.punish c now))).conns[c]? = some k' ∧
      k'.address = k.address ∧ (i : Int) ≤ k'.banscore := by
    intro i
    induction i with
    | zero => exact ⟨k, by simpa using hk, rfl, by simpa using h0⟩
    | succ i ih =>
      obtain ⟨k', h1, h2, h3⟩ := ih
      rw [List.replicate_succ', ← List.append_assoc, run_append]
      generalize n.run H (es ++ List.replicate i (.punish c now)) = m at h1 ⊢
      refine ⟨_, (C75_punish m c now k' h1).1, h2, ?_⟩
      show ((i + 1 : Nat) : Int) ≤ k'.banscore + 1
      omega
  obtain ⟨k', h1, h2, h3⟩ := key 5
  rw [show (6 : Nat) = 5 + 1 from rfl, List.replicate_succ', ← List.append_assoc, run_append]
  generalize n.run H (es ++ List.replicate 5 (.punish c now)) = m at h1 ⊢
  refine ⟨now, ?_⟩
  rw [← h2]
  exact (C74_recorded_partial m c now k' h1 h3).2

/-- C170 is false: a node that takes connections, and whose owner bans misbehaving peers, remembers as many of them as
there are ips, for ever.  For any list of ips there is a history (each connects once and is punished six times) after
which, whatever else happens, the table has all of them. -/
theorem C170_grows_false (n : Node) (agent : Bytes) (hn : Presentable n agent) (hc : n.conns = [])
    (hg : IsIp n.guessedIp) (hx : n.externalIp = []) (hl : n.listening = true) (hi : n.listen = true)
    (hb : n.banned = []) (now : Int) (hnow : Current now) (nonce : Bytes) (hno : nonce.length = 8) (port : Int)
    (ips : List (List Char)) (hips : ∀ ip ∈ ips, IsAddr (ip, port)) (hd : ips.Nodup) :
    ∃ es, (∀ e ∈ es, Fair e) ∧ ∀ es', (∀ ip ∈ ips, ∃ t, dictGet (n.run H (es ++ es')).banned (.ip ip) = some t) ∧
      ips.length ≤ (n.run H (es ++ es')).banned.length := by
  have main : ∀ l : List (List Char), (∀ ip ∈ l, IsAddr (ip, port)) → ∃ es : List Event, (∀ e ∈ es, Fair e) ∧
      ∀ ip ∈ l, ∃ t, dictGet (n.run H es).banned (.ip ip) = some t := by
    intro l
    induction l with
    | nil => exact fun _ => ⟨[], by simp, by simp⟩
    | cons ip l ih =>
      intro hl'
      obtain ⟨es, hf, hes⟩ := ih (fun i hi => hl' i (List.mem_cons_of_mem _ hi))
      have hlis := C98_listening_partial (H := H) n agent hn hc hg hx hl es hf
      have hset : (n.run H es).listen = true :=
        run_invariant (H := H) (fun m => m.listen = true)
          (fun m m' hp hm => by
            have := (steps2_same (.single hp)).listen
            exact this.trans hm) n es hi
      obtain ⟨k, k1, -, k3⟩ := (C74_reconnect_false (H := H) n hb es (ip, port) now now nonce).2 hlis hset
      have hrun : (n.run H (es ++ [.accept (some (ip, port)) now now nonce])).conns[(n.run H es).conns.length]? = some k := by
        rw [run_append]
        exact k1
      obtain ⟨t, ht⟩ := ban_one n hc _ _ k now hrun
      rw [k3] at ht
      refine ⟨es ++ [.accept (some (ip, port)) now now nonce] ++ List.replicate 6 (.punish (n.run H es).conns.length now),
        ?_, fun i hi' => ?_⟩
      · intro e he
        rcases List.mem_append.1 he with he | he
        · rcases List.mem_append.1 he with he | he
          · exact hf e he
          · rw [List.mem_singleton.1 he]
            exact ⟨fun a ha => by cases ha; exact hl' ip List.mem_cons_self, hnow, hno⟩
        · rw [List.eq_of_mem_replicate he]
          exact trivial
      · rcases List.mem_cons.1 hi' with rfl | hi'
        · exact ⟨t, ht⟩
        · rw [List.append_assoc, run_append]
          exact C170_kept_false _ _ _ (hes i hi')
  obtain ⟨es, hf, hes⟩ := main ips hips
  refine ⟨es, hf, fun es' => ?_⟩
  have hall : ∀ ip ∈ ips, ∃ t, dictGet (n.run H (es ++ es')).banned (.ip ip) = some t := by
    intro ip hip
    rw [run_append]
    exact C170_kept_false _ _ _ (hes ip hip)
  refine ⟨hall, ?_⟩
  generalize (n.run H (es ++ es')).banned = d at hall
  have hsub : ips.map BanKey.ip ⊆ d.map (·.1) := by
    intro key hkey
    obtain ⟨ip, hip, rfl⟩ := List.mem_map.1 hkey
    obtain ⟨t, ht⟩ := hall ip hip
    unfold dictGet at ht
    obtain ⟨e, he, -⟩ := Option.map_eq_some_iff.1 ht
    exact List.mem_map.2 ⟨e, List.mem_of_find?_eq_some he, of_decide_eq_true (by simpa using List.find?_some he)⟩
  have hnd : (ips.map BanKey.ip).Nodup := hd.map (fun a b h => by cases h; rfl)
  have := (hnd.subperm hsub).length_le
  simpa using this

/-- The history of C74 and a connection ten years later: the ban of the first hour is still there. -/
example : (((node0 .py3 125).run Hashes.toy (comesBack ++
    [.accept (some ("10.0.0.3".toList, 4000)) (315360000 * second) (315360000 * second) [0, 0, 0, 0, 0, 0, 0, 3]])).banned) =
      [(.ip "10.0.0.2".toList, 6005)] := by
  decide +kernel

/-- A node for the last theorem, and two ips. -/
example (es' : List Event) : ∃ es, 2 ≤ ((node0 .py3 125).run Hashes.toy (es ++ es')).banned.length := by
  obtain ⟨es, -, h⟩ := C170_grows_false (H := Hashes.toy) (node0 .py3 125) _ (node0_presentable .py3 125) rfl ip_10_0_0_1 rfl rfl rfl rfl
    (20 * second) (by unfold Current; decide) [0, 0, 0, 0, 0, 0, 0, 1] rfl 4000 ["10.0.0.1".toList, "10.0.0.2".toList]
    (by
      intro ip hip
      simp only [List.mem_cons, List.not_mem_nil, or_false] at hip
      rcases hip with rfl | rfl
      · exact ⟨ip_10_0_0_1, show inRange .H 4000 by unfold inRange; decide⟩
      · exact ⟨⟨v4Prefix ++ [10, 0, 0, 2], by decide, by decide⟩, show inRange .H 4000 by unfold inRange; decide⟩) (by decide)
  exact ⟨es, (h es').2⟩

end NBC.Props
