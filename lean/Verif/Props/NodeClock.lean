import Verif.Props.NodeBeat
import Verif.Props.NodeIdle

/-!
# C159: setting the clock

The node reads the time of day.  What does it do when the clock is set back or forward, or the computer has slept?
-/

namespace NBC.Props
open NBC NBC.Spec NBC.Spec.Wire NBC.Proto NBC.P2P

variable {H : Hashes}

/-- Only `items` notes the time of a heartbeat. -/
theorem beat_other (n : Node) (e : Event) (he : ∀ now envs choice, e ≠ .items now envs choice) :
    (n.step H e).lastHeartbeat = n.lastHeartbeat := by
  refine run_invariant_clock (H := H) (Q := fun w _ _ => w ≠ .beat) (fun m => m.lastHeartbeat = n.lastHeartbeat) (fun a b hp ha => ?_) n [e]
    (fun e' he' w c t hs => ?_) rfl
  · rcases beat_prim hp with h | h
    · rw [h]
      exact ha
    · exact absurd rfl h
  · rw [List.mem_singleton] at he'
    subst he'
    rintro rfl
    cases e' <;> first | exact hs.elim | exact he _ _ _ rfl

/-- **C159 is false of a clock set back**: after a heartbeat at time `t` there is none, whatever happens, before the clock
shows more than `t` and ten seconds again, however long that takes. -/
theorem C159_back_false (n : Node) (t : Int) (envs : List AnyEnv) (choice : Nat) (hb : t - n.lastHeartbeat > 10 * second)
    (es : List Event) (hes : ∀ e ∈ es, ∀ now envs choice, e = .items now envs choice → now ≤ t + 10 * second) :
    ((n.step H (.items t envs choice)).run H es).lastHeartbeat = t ∧
    ∀ now envs' choice', now ≤ t + 10 * second →
      ((n.step H (.items t envs choice)).run H es).step H (.items now envs' choice') =
        (n.step H (.items t envs choice)).run H es := by
  have h0 := (C101_items (H := H) n t envs choice).2 hb
  generalize n.step H (.items t envs choice) = m at *
  have key : (m.run H es).lastHeartbeat = t := by
    clear hb
    induction es generalizing m with
    | nil => exact h0
    | cons e es ih =>
      rw [run_cons]
      refine ih (fun e' he' => hes e' (by simp [he'])) _ ?_
      by_cases hi : ∃ now envs choice, e = .items now envs choice
      · obtain ⟨now, envs', choice', rfl⟩ := hi
        have := hes _ (by simp) now envs' choice' rfl
        rw [(C101_items (H := H) m now envs' choice').1 (by omega), h0]
      · rw [beat_other m e (fun a b c h => hi ⟨a, b, c, h⟩), h0]
  refine ⟨key, fun now envs' choice' hnow => ?_⟩
  exact (C101_items (H := H) _ now envs' choice').1 (by omega)

/-- The polls of these connections at one moment -/
def pollAll (now now' : Int) (nonce : Nat → Bytes) (cs : List Nat) : List Event :=
  cs.map (fun c => .poll c now now' (nonce c))

/-- A poll of a connection leaves the times of reception of the others. -/
theorem poll_rx (n : Node) (c : Nat) (now now' : Int) (nonce : Bytes) (hl : nonce.length = 8) (hm : n.magic.length = 4)
    (i : Nat) (k : Conn) (hk : n.conns[i]? = some k) : ∃ k', (n.step H (.poll c now now' nonce)).conns[i]? = some k' ∧
      k'.lastRx = k.lastRx ∧ (k.isOpen = false → k'.isOpen = false) := by
  unfold Node.step
  simp only
  split
  · rename_i hc
    obtain ⟨kc, hkc, ho⟩ := mem_peers.1 hc
    obtain ⟨-, h1, h2⟩ := C78_poll (H := H) n c kc now now' nonce hl hm hkc
    by_cases hi : i = c
    · subst hi
      rw [hkc] at hk
      cases hk
      refine ⟨_, h1, rfl, fun h => ?_⟩
      simp only
      split
      · rfl
      · exact h
    · exact ⟨k, by rw [h2 i hi, hk], rfl, id⟩
  · exact ⟨k, hk, rfl, id⟩

theorem poll_magic (n : Node) (e : Event) : (n.step H e).magic = n.magic := (run_event (H := H) n [e]).magic

/-- **C159 is false of a clock set forward**, and of a computer that slept: the first round of polls more than three hours
after the last reception closes every connection that has ever received anything, though the peers are there. -/
theorem C159_forward_false (n : Node) (hm : n.magic.length = 4) (now now' : Int) (nonce : Nat → Bytes)
    (hl : ∀ c, (nonce c).length = 8)
    (h : ∀ (c : Nat) (k : Conn), n.conns[c]? = some k → k.lastRx ≠ 0 → now - k.lastRx > 3 * 60 * 60 * second) :
    ∀ (c : Nat) (k : Conn), n.conns[c]? = some k → k.lastRx ≠ 0 → c ∉ (n.run H (pollAll now now' nonce n.peers)).peers := by
  intro c k hk h0 hc
  -- a connection that is closed, or silent and still to be polled
  have key : ∀ (cs : List Nat) (m : Node), m.magic.length = 4 →
      (∃ k, m.conns[c]? = some k ∧ Silent k now ∧ (k.isOpen = true → c ∈ cs)) →
      c ∉ (m.run H (pollAll now now' nonce cs)).peers := by
    intro cs
    induction cs with
    | nil =>
      rintro m - ⟨k, h1, -, h2⟩ hp
      obtain ⟨k', h3, h4⟩ := mem_peers.1 hp
      rw [show m.run H (pollAll now now' nonce []) = m from rfl, h1] at h3
      cases h3
      simpa using h2 h4
    | cons d cs ih =>
      rintro m hm ⟨k, h1, h2, h3⟩
      rw [show pollAll now now' nonce (d :: cs) = .poll d now now' (nonce d) :: pollAll now now' nonce cs from rfl, run_cons]
      refine ih _ (by rw [poll_magic]; exact hm) ?_
      obtain ⟨k', e1, e2, e3⟩ := poll_rx (H := H) m d now now' (nonce d) (hl d) hm c k h1
      refine ⟨k', e1, by unfold Silent at *; rw [e2]; exact h2, fun ho => ?_⟩
      have hok : k.isOpen = true := by
        cases hb : k.isOpen
        · rw [e3 hb] at ho
          cases ho
        · rfl
      rcases List.mem_cons.1 (h3 hok) with rfl | h4
      · exfalso
        unfold Node.step at e1
        simp only [if_pos (mem_peers.2 ⟨k, h1, hok⟩)] at e1
        obtain ⟨-, e4, -⟩ := C78_poll (H := H) m c k now now' (nonce c) (hl c) hm h1
        rw [e4] at e1
        injection e1 with e1
        rw [← e1] at ho
        simp [h2] at ho
      · exact h4
  exact key n.peers n hm ⟨k, hk, ⟨h0, h c k hk h0⟩, fun ho => mem_peers.2 ⟨k, hk, ho⟩⟩ hc

/-- C159, what holds: as long as all readings of the clock lie within three hours (from `T` on), no poll closes a
connection. -/
theorem C159_steady_partial (n : Node) (hm : n.magic.length = 4) (c : Nat) (k : Conn) (hk : n.conns[c]? = some k) (T : Int)
    (h0 : k.lastRx = 0 ∨ T ≤ k.lastRx) (es : List Event) (hes : ∀ e ∈ es, ∀ r t, e = .read c r t → T ≤ t) (now now' : Int)
    (nonce : Bytes) (hl : nonce.length = 8) (hnow : now ≤ T + 3 * 60 * 60 * second) (hc : c ∈ (n.run H es).peers) :
    c ∈ ((n.run H es).step H (.poll c now now' nonce)).peers := by
  obtain ⟨k1, h1, h2⟩ := run_ticks (H := H) n c .rx (fun x => x = 0 ∨ T ≤ x) (·.lastRx) (fun _ _ _ h => h.rx) es
    (fun e he t' hst => by
      cases e with
      | read c' r now => obtain ⟨rfl, rfl⟩ := hst; exact .inr (hes _ he r _ rfl)
      | _ => exact hst.elim) k hk h0
  have hmag : (n.run H es).magic.length = 4 := by rw [(run_event _ es).magic]; exact hm
  generalize n.run H es = m at *
  obtain ⟨k2, e1, e2⟩ := mem_peers.1 hc
  rw [h1] at e1
  cases e1
  unfold Node.step
  simp only [if_pos hc]
  obtain ⟨-, h5, -⟩ := C78_poll (H := H) m c k1 now now' nonce hl hmag h1
  have hsil : ¬ Silent k1 now := by
    rintro ⟨a, b⟩
    rcases h2 with h2 | h2
    · exact a h2
    · omega
  rw [if_neg hsil] at h5
  exact mem_peers.2 ⟨_, h5, e2⟩

/-- C159, what holds: a clock that goes on beyond the last heartbeat and ten seconds starts the next one. -/
theorem C159_beats_partial (n : Node) (now : Int) (envs : List AnyEnv) (choice : Nat) (h : n.lastHeartbeat + 10 * second < now) :
    (n.step H (.items now envs choice)).lastHeartbeat = now :=
  (C101_items (H := H) n now envs choice).2 (by omega)

/-! ### Cases -/

/-- A node with one connection that received bytes at 5000 s: a poll at the same moment keeps it, one after the clock was
set forward by three hours and a second closes it. -/
example :
    let m := (node0 .py3 125).run Hashes.toy
      [.accept (some ("10.0.0.2".toList, 4000)) (5000 * second) (5000 * second) [0, 0, 0, 0, 0, 0, 0, 1],
        .read 0 (.data [1, 2]) (5000 * second)]
    m.conns.map (·.lastRx) = [5000 * second] ∧
    (m.step Hashes.toy (.poll 0 (5000 * second) (5000 * second) [1, 2, 3, 4, 5, 6, 7, 8])).peers = [0] ∧
    (m.run Hashes.toy (pollAll (15801 * second) (15801 * second) (fun _ => [1, 2, 3, 4, 5, 6, 7, 8]) m.peers)).peers = [] := by
  decide +kernel

/-- A heartbeat at 5000 s, and none after the clock was set back by an hour, nor an hour later. -/
example :
    let m := (node0 .py3 125).step Hashes.toy (.items (5000 * second) [] 0)
    m.lastHeartbeat = 5000 * second ∧
    (m.run Hashes.toy [.items (1400 * second) [] 0, .items (3000 * second) [] 0, .items (5000 * second) [] 0]).lastHeartbeat =
      5000 * second := by
  decide +kernel

end NBC.Props
