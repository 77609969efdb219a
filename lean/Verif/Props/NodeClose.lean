import Verif.Model.NodeClose
import Verif.Props.NodePoll
import Verif.Props.NodeIdle
import Verif.Props.TwoNodes

/-!
# Property C151: closing a node from another thread
-/

namespace NBC.Props
open NBC NBC.Spec NBC.Spec.Wire NBC.Proto NBC.P2P

variable {H : Hashes}

/-! ### Without the call it is the loop of C149 -/

theorem pollC_none (n : Node) (t : CTurn) (h : t.close = none) : n.pollC H t = n.poll H t.turn := by
  unfold Node.pollC Node.poll
  simp only [h, reduceCtorEq, false_and, if_false]
  rfl

/-- C151: a call before the loop asks anything is the same as one between two turns. -/
theorem C151_early (n : Node) (t : CTurn) (h : t.close = some .early) :
    n.pollC H t = n.closeListener.poll H t.turn := by
  unfold Node.pollC Node.poll
  simp only [h, reduceCtorEq, false_and, if_false, if_true, Option.some.injEq]
  rfl

/-- C151: a call while `select` waits changes nothing in that turn but that the listener is gone at its end. -/
theorem C151_waiting (n : Node) (t : CTurn) (h : t.close = some .waiting) :
    n.pollC H t = match n.poll H t.turn with
      | (m, .ok a) => (m.closeListener, .ok a)
      | r => r := by
  unfold Node.pollC Node.poll
  simp only [h, reduceCtorEq, false_and, if_false, Option.some.injEq]
  generalize n.items H t.turn.now t.turn.envs t.turn.choice = r
  obtain ⟨m, o⟩ := r
  cases o with
  | some e => rfl
  | none =>
    simp only
    generalize m.askAll H t.turn.reads m.peers = r
    obtain ⟨m, o⟩ := r
    cases o with
    | error e => rfl
    | ok a =>
      simp only
      cases m.select a <;> rfl

theorem C151_none (ts : List CTurn) (hc : ∀ t ∈ ts, t.close = none) (n : Node) :
    n.loopC H ts = n.loop H (ts.map (·.turn)) := by
  induction ts generalizing n with
  | nil => rfl
  | cons t ts ih =>
    rw [Node.loopC, List.map_cons, Node.loop, pollC_none n t (hc t (List.mem_cons_self ..))]
    split
    · generalize n.poll H t.turn = r
      obtain ⟨m, o⟩ := r
      cases o with
      | error e => rfl
      | ok a => exact ih (fun t ht => hc t (List.mem_cons_of_mem _ ht)) _
    · rfl

/-! ### A closed node takes no connections -/

/-- After `close`, whatever happens, an incoming connection changes nothing. -/
theorem C151_deaf (n : Node) (es : List Event) (pair : Option Addr) (now now' : Int) (nonce : Bytes) :
    (n.closeListener.run H es).listening = false ∧
    (n.closeListener.run H es).step H (.accept pair now now' nonce) = n.closeListener.run H es := by
  have h := deaf_run (H := H) es n.closeListener rfl
  refine ⟨h, ?_⟩
  rw [Node.step, if_neg (by rw [h]; decide)]

/-- **C151 is false of peers that have yet to introduce themselves.**  `close` of `asyncore` hides the method `connected` of
the node; after it, whatever happens, no version message is acknowledged, and nothing else is sent for it. -/
theorem C151_unanswered_false (n : Node) (es : List Event) (c : Nat) (now : Int) (vs vs' : List (String × Val))
    (payload : Bytes) (hw : wFields versionSpec vs payload vs') (hp : payload.length < 2 ^ 32) (hm : n.magic.length = 4) :
    let m := n.closeListener.run H es
    (m.handleFrame H c now (wireFrame H n.magic "version" payload)).conns.map (·.sendBuf) = m.conns.map (·.sendBuf) := by
  intro m
  have h1 : m.listening = false := deaf_run (H := H) es n.closeListener rfl
  have h2 : m.magic = n.magic := by
    have key : ∀ (es : List Event) (n : Node), (n.run H es).magic = n.magic := by
      intro es
      induction es with
      | nil => exact fun _ => rfl
      | cons e es ih =>
        intro n
        rw [run_cons, ih]
        exact (steps2_same (steps2_step (H := H) (Q := fun _ _ _ => True) n e (fun _ _ _ _ => trivial))).magic
    exact key es n.closeListener
  have := C76_closed_false (H := H) m c now vs vs' payload hw hp (by rw [h2]; exact hm) h1
  rw [h2] at this
  exact this.2.1

/-! ### The call between the listing and `select` -/

/-- **C151 is false of that moment.**  The listener's file is given to `select` closed: the loop ends with an exception,
whatever the state. -/
theorem C151_listed_false (n : Node) (hm : n.magic.length = 4) (hl : n.listening = true) (t : CTurn)
    (hr : ∀ c, (t.turn.reads c).nonce.length = 8) (hc : t.close = some .listed) (ts : List CTurn) :
    (n.loopC H (t :: ts)).2 = .raised .ioError := by
  have htr : n.truthy = true := by
    by_contra h
    have := ((truthy_iff n).1 (Bool.not_eq_true _ ▸ h)).2.1
    rw [hl] at this
    cases this
  have hi := (C98_loop (H := H) n hm).1 t.turn.now t.turn.envs t.turn.choice
  have hst := steps2_step (H := H) (Q := Event.stores (.items t.turn.now t.turn.envs t.turn.choice)) n
    (.items t.turn.now t.turn.envs t.turn.choice) (fun _ _ _ h => h)
  have hmm : (n.items H t.turn.now t.turn.envs t.turn.choice).1.magic.length = 4 := by
    have := (steps2_same hst).magic
    rw [Node.step] at this
    rw [this]
    exact hm
  have hll : (n.items H t.turn.now t.turn.envs t.turn.choice).1.listening = true := by
    have : (n.step H (.items t.turn.now t.turn.envs t.turn.choice)).listening = n.listening :=
      steps2_inv (P := fun m => m.listening = n.listening) (fun a b hp ha => by
        rw [← ha]
        exact listening_prim hp (fun hq => hq)) hst rfl
    rw [Node.step] at this
    rw [this]
    exact hl
  have hp : (n.pollC H t).2 = .error .ioError := by
    unfold Node.pollC
    simp only [hc, Option.some.injEq, reduceCtorEq, if_false]
    generalize n.items H t.turn.now t.turn.envs t.turn.choice = r at hi hmm hll
    obtain ⟨m, o⟩ := r
    cases hi
    obtain ⟨m2, asked, e1, -⟩ := askAll_spec (H := H) t.turn.reads hr m.peers (peers_nodup m) m hmm
      (fun c hc => by
        obtain ⟨k, hk, -⟩ := mem_peers.1 hc
        exact ⟨k, hk⟩)
    simp only [e1]
    simp only at hll
    rw [hll]
    simp
  rw [Node.loopC, if_pos htr]
  generalize n.pollC H t = r at hp
  obtain ⟨m, o⟩ := r
  cases hp
  rfl

/-! ### After the call -/

theorem items_ver (n : Node) (now : Int) (envs : List AnyEnv) (choice : Nat) :
    (n.items H now envs choice).1.ver = n.ver :=
  (steps2_same (steps2_step (H := H) (Q := fun _ _ _ => True) n (.items now envs choice)
    (fun _ _ _ _ => trivial))).ver

theorem run_ver (es : List Event) (n : Node) : (n.run H es).ver = n.ver := by
  induction es generalizing n with
  | nil => rfl
  | cons e es ih =>
    rw [run_cons, ih]
    exact (steps2_same (steps2_step (H := H) (Q := fun _ _ _ => True) n e (fun _ _ _ _ => trivial))).ver

theorem pollC_ver (n : Node) (t : CTurn) : (n.pollC H t).1.ver = n.ver := by
  have h0 : (if t.close = some .early then n.closeListener else n).ver = n.ver := by split <;> rfl
  unfold Node.pollC
  generalize (if t.close = some .early then n.closeListener else n) = n0 at h0
  have h1 := items_ver (H := H) n0 t.turn.now t.turn.envs t.turn.choice
  simp only
  generalize n0.items H t.turn.now t.turn.envs t.turn.choice = r at h1
  obtain ⟨m, b⟩ := r
  cases b with
  | some e => exact h1.trans h0
  | none =>
    have h2 := askAll_ver (H := H) t.turn.reads m.peers m
    simp only
    generalize m.askAll H t.turn.reads m.peers = q at h2
    obtain ⟨m2, b2⟩ := q
    cases b2 with
    | error e => exact (h2.trans h1).trans h0
    | ok asked =>
      simp only
      split
      · exact (h2.trans h1).trans h0
      · cases m2.select asked with
        | error e => exact (h2.trans h1).trans h0
        | ok _ =>
          simp only
          split <;> exact (h2.trans h1).trans h0

/-- **C151 is false under Python 2.**  The loop never returns, with `close` or without. -/
theorem C151_python2_false (ts : List CTurn) (n : Node) (hv : n.ver = .py2) : (n.loopC H ts).2 ≠ .returned := by
  induction ts generalizing n with
  | nil => exact fun h => by cases h
  | cons t ts ih =>
    have ht : n.truthy = true := by unfold Node.truthy; rw [hv]
    rw [Node.loopC, if_pos ht]
    have h1 := pollC_ver (H := H) n t
    generalize n.pollC H t = r at h1
    obtain ⟨m, o⟩ := r
    cases o with
    | error e => exact fun h => by cases h
    | ok a => exact ih _ ((run_ver _ _).trans (h1.trans hv))

/-- Under Python 3 the loop returns in a turn that finds the listener and all connections closed: at once, if there is no
connection. -/
theorem C151_python3 (n : Node) (hv : n.ver = .py3) (hp : n.peers = []) (ts : List CTurn) (hts : ts ≠ []) :
    n.closeListener.loopC H ts = (n.closeListener, .returned) := by
  cases ts with
  | nil => exact absurd rfl hts
  | cons t ts => rw [Node.loopC, if_neg (by rw [(truthy_iff n.closeListener).2 ⟨hv, rfl, hp⟩]; decide)]

/-- Nothing has been received on any connection. -/
def Mute (n : Node) : Prop := ∀ k ∈ n.conns, k.lastRx = 0

theorem mute_modify {n m : Node} (h : Mute n) (c : Nat) {f : Conn → Conn} (hc : m.conns = n.conns.modify c f)
    (hf : ∀ k, k.lastRx = 0 → (f k).lastRx = 0) : Mute m := by
  intro k hk
  rw [hc] at hk
  obtain ⟨i, hi⟩ := List.mem_iff_getElem?.1 hk
  rw [List.getElem?_modify] at hi
  cases hn : n.conns[i]? with
  | none => rw [hn] at hi; cases hi
  | some k0 =>
    rw [hn] at hi
    have h0 := h k0 (List.mem_of_getElem? hn)
    by_cases hci : c = i
    · simp only [hci, if_true, Option.map_eq_map, Option.map_some, Option.some.injEq] at hi
      rw [← hi]
      exact hf k0 h0
    · simp only [hci, if_false, Option.map_eq_map, Option.map_some, Option.some.injEq, id] at hi
      rw [← hi]
      exact h0

theorem mute_steps {Q : Clock → Nat → Int → Prop} (hq : ∀ c t, ¬ Q .rx c t) (hq2 : ∀ c t, ¬ Q .info c t)
    {n m : Node} (h : Steps2 H Q n m) (hn : Mute n) : Mute m := by
  refine steps2_inv (P := Mute) (fun a b hp ha => ?_) h hn
  cases hp with
  | prim _ hp =>
    cases hp with
    | queue c t fields b h ho => exact mute_modify ha c rfl (fun _ h => h)
    | close c => exact mute_modify ha c rfl (fun _ h => h)
    | sent c k j now hk hj h => exact mute_modify ha c rfl (fun _ h => h)
    | tx c t h => exact mute_modify ha c rfl (fun _ h => h)
    | info c f hf hx h => exact absurd h (hq2 _ _)
    | ping c t h => exact mute_modify ha c rfl (fun _ h => h)
    | new a' inc h ho =>
      intro k hk
      rcases List.mem_append.1 hk with hk | hk
      · exact ha k hk
      · rw [List.mem_singleton.1 hk]
    | add c h hq => exact mute_modify ha c rfl (fun _ h => h)
    | reduce c => exact mute_modify ha c rfl (fun _ h => h)
    | _ => exact ha
  | recv c k chunk now hk h => exact absurd h (hq _ _)
  | setBuf c b => exact mute_modify ha c rfl (fun _ h => h)

theorem mute_askAll (reads : Nat → Reading) (cs : List Nat) (n : Node) (hn : Mute n) :
    Mute (n.askAll H reads cs).1 := by
  induction cs generalizing n with
  | nil => exact hn
  | cons c cs ih =>
    have h : Mute (n.ask H c (reads c)).1 := by
      have h := mute_steps (H := H) (Q := fun w _ _ => w = .ping) (fun _ _ h => by cases h) (fun _ _ h => by cases h)
        (steps_readable (H := H) n c (reads c).now (reads c).now' (reads c).nonce rfl).two hn
      unfold Node.ask
      generalize n.readable H c (reads c).now (reads c).now' (reads c).nonce = r at h
      obtain ⟨m, b⟩ := r
      cases b <;> exact h
    rw [Node.askAll]
    generalize n.ask H c (reads c) = r at h
    obtain ⟨m, b⟩ := r
    cases b with
    | error e => exact h
    | ok b =>
      have h2 := ih m h
      simp only
      generalize m.askAll H reads cs = q at h2
      obtain ⟨m2, b2⟩ := q
      cases b2 <;> exact h2

theorem mute_poll (n : Node) (hm : n.magic.length = 4) (hn : Mute n) (t : Turn)
    (hr : ∀ c, (t.reads c).nonce.length = 8) (c : Nat) (hc : c ∈ n.peers) :
    ∃ m asked, n.poll H t = (m, .ok asked) ∧ m.magic = n.magic ∧ Mute m ∧ c ∈ m.peers := by
  obtain ⟨k, hk, ho⟩ := mem_peers.1 hc
  have hst := steps2_step (H := H) (Q := Event.stores (.items t.now t.envs t.choice)) n
    (.items t.now t.envs t.choice) (fun _ _ _ h => h)
  have h1 : Mute (n.step H (.items t.now t.envs t.choice)) := mute_steps (fun _ _ h => h) (fun _ _ h => h) hst hn
  have h1m : (n.step H (.items t.now t.envs t.choice)).magic = n.magic := (steps2_same hst).magic
  obtain ⟨b, extra, hk1, -⟩ := items_conn (H := H) n hm t.now t.envs t.choice c k hk
  have hi := (C98_loop (H := H) n hm).1 t.now t.envs t.choice
  obtain ⟨hmag, -, hok⟩ := poll_spec (H := H) n hm t hr
  obtain ⟨asked, ha, -⟩ := hok (fun c' _ k' hk' hf => hf.1.1 (h1 k' (List.mem_of_getElem? hk')))
  rw [Node.step] at h1 h1m hk1
  unfold Node.poll at ha hmag ⊢
  generalize n.items H t.now t.envs t.choice = r at hi h1 h1m hk1 ha hmag
  obtain ⟨p, o⟩ := r
  cases hi
  simp only at h1 h1m hk1 ha hmag ⊢
  obtain ⟨m, asked', e1, e0, e2, -, -⟩ := askAll_spec (H := H) t.reads hr p.peers (peers_nodup p) p
    (by rw [h1m]; exact hm) (fun c hc => by obtain ⟨k, hk, -⟩ := mem_peers.1 hc; exact ⟨k, hk⟩)
  have h2 := mute_askAll (H := H) t.reads p.peers p h1
  rw [e1] at h2 ha hmag ⊢
  simp only at ha hmag ⊢
  cases hs : m.select asked' with
  | error e => rw [hs] at ha; cases ha
  | ok u =>
    rw [hs] at hmag
    refine ⟨m, asked', rfl, hmag, h2, mem_peers.2 ⟨_, e2 c (mem_peers.2 ⟨_, hk1, ho⟩) _ hk1, ?_⟩⟩
    unfold Conn.polled
    rw [if_neg (fun hs => hs.1 (hn k (List.mem_of_getElem? hk)))]
    exact ho

/-- **C151 is false while a connection is open.**  One that takes nothing and says nothing is enough: after `close` the
loop goes on for any number of turns, at any times. -/
theorem C151_goes_on_false (n : Node) (hm : n.magic.length = 4) (hn : Mute n) (hp : n.peers ≠ []) (ts : List CTurn)
    (hts : ∀ t ∈ ts, t.close = none ∧ t.turn.calls = [] ∧ ∀ c, (t.turn.reads c).nonce.length = 8) :
    (n.closeListener.loopC H ts).2 = .running := by
  obtain ⟨c, hc⟩ := List.exists_mem_of_ne_nil _ hp
  have key : ∀ (ts : List CTurn) (n : Node), n.magic.length = 4 → Mute n → c ∈ n.peers →
      (∀ t ∈ ts, t.close = none ∧ t.turn.calls = [] ∧ ∀ c, (t.turn.reads c).nonce.length = 8) →
      (n.loopC H ts).2 = .running := by
    intro ts
    induction ts with
    | nil => exact fun _ _ _ _ _ => rfl
    | cons t ts ih =>
      intro n hm hn hc hts
      obtain ⟨t1, t2, t3⟩ := hts t (List.mem_cons_self ..)
      have ht : n.truthy = true := by
        by_contra h
        have := ((truthy_iff n).1 (Bool.not_eq_true _ ▸ h)).2.2
        rw [this] at hc
        cases hc
      obtain ⟨m, asked, e1, e2, e3, e4⟩ := mute_poll (H := H) n hm hn t.turn t3 c hc
      rw [Node.loopC, if_pos ht, pollC_none n t t1, e1]
      simp only [t2]
      exact ih m (by rw [e2]; exact hm) e3 e4 (fun t ht => hts t (List.mem_cons_of_mem _ ht))
  exact key ts n.closeListener hm hn hc hts

/-! ### Cases -/

/-- A node with one connection, on which nothing has been received. -/
def node1 (ver : Aes.PyVer) : Node :=
  (node0 ver 125).step Hashes.toy (.accept (some ("10.0.0.2".toList, 4000)) 1 1 [0, 0, 0, 0, 0, 0, 0, 1])

/-- It meets the hypotheses of `C151_goes_on_false`. -/
example : (node1 .py3).magic.length = 4 ∧ Mute (node1 .py3) ∧ (node1 .py3).peers ≠ [] ∧
    (node1 .py3).listening = true := by
  refine ⟨by decide +kernel, ?_, by decide +kernel, by decide +kernel⟩
  unfold Mute
  decide +kernel

/-- A turn at time `T`. -/
def quietTurn (T : Int) (close : Option Moment) : CTurn := ⟨⟨T, [], 0, at' T, []⟩, close⟩

/-- Closing it at each of the moments: it goes on, it ends with an exception, it goes on; and the node without a
connection returns. -/
example :
    ((node1 .py3).loopC Hashes.toy [quietTurn 1 none, quietTurn 2 (some .early), quietTurn 3 none]).2 = .running ∧
    ((node1 .py3).loopC Hashes.toy [quietTurn 1 none, quietTurn 2 (some .listed), quietTurn 3 none]).2 = .raised .ioError ∧
    ((node1 .py3).loopC Hashes.toy [quietTurn 1 none, quietTurn 2 (some .waiting), quietTurn 3 none]).2 = .running ∧
    ((node0 .py3 125).loopC Hashes.toy [quietTurn 1 none, quietTurn 2 (some .waiting), quietTurn 3 none]).2 = .returned ∧
    ((node0 .py2 125).loopC Hashes.toy [quietTurn 1 none, quietTurn 2 (some .waiting), quietTurn 3 none]).2 = .running := by
  decide +kernel

end NBC.Props
