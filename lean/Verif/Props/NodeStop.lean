import Verif.Model.NodeStop
import Verif.Props.NodePoll

/-!
# Property C150: stopping a node
-/

namespace NBC.Props
open NBC NBC.Spec NBC.Spec.Wire NBC.Proto NBC.P2P

variable {H : Hashes}

/-! ### The model with the methods of `BaseNode` is the model without a subclass -/

theorem base_frame (c : Nat) (now : Int) (n : Node) (f : Bytes) :
    (Subclass.base H).frame H c now n f = (n.handleFrame H c now f, none) := by
  unfold Subclass.frame Node.handleFrame
  cases hp : parseMessage H f n.magic with
  | error e => cases e <;> rfl
  | ok m =>
    simp only [Subclass.base]
    cases h : (n.handleMessage H c m now).2 with
    | none => simp [h]
    | some e => cases e <;> rfl

theorem base_readLoop (c : Nat) (now : Int) (buf : Bytes) (n : Node) :
    (Subclass.base H).readLoop H c now n buf =
      ((readLoop (Node.setRecvBuf c) (Node.handleFrame H c now) n buf).1,
        (readLoop (Node.setRecvBuf c) (Node.handleFrame H c now) n buf).2.map .err) := by
  induction hl : buf.length using Nat.strong_induction_on generalizing buf n with
  | _ l ih =>
    rw [Subclass.readLoop, readLoop]
    cases firstMsgLen buf with
    | error e => rfl
    | ok o =>
      cases o with
      | none => rfl
      | some length =>
        simp only
        by_cases h1 : length > buf.length
        · simp only [if_pos h1]
          rfl
        · by_cases h2 : length = 0
          · simp only [if_neg h1, if_pos h2]
            rfl
          · simp only [if_neg h1, if_neg h2, base_frame]
            refine ih (buf.drop length).length ?_ _ _ rfl
            rw [List.length_drop]
            omega

theorem base_read (n : Node) (c : Nat) (r : RecvRes) (now : Int) :
    (Subclass.base H).read H n c r now = ((n.handleRead H c r now).1, none) := by
  have h : (Subclass.base H).handleRead H n c r now =
      ((n.handleRead H c r now).1, (n.handleRead H c r now).2.map .err) := by
    unfold Subclass.handleRead Node.handleRead
    cases r with
    | raised => rfl
    | data chunk =>
      simp only
      split
      · rfl
      · cases n.conns[c]? with
        | none => rfl
        | some k => exact base_readLoop ..
  rw [Subclass.read, h, C68_total]
  rfl

theorem base_calls (es : List Event) (n : Node) : (Subclass.base H).calls H n es = (n.run H es, none) := by
  induction es generalizing n with
  | nil => rfl
  | cons e es ih =>
    rw [run_cons]
    cases e with
    | read c r now =>
      rw [Subclass.calls, Node.step]
      split
      · rw [base_read]
        exact ih _
      · exact ih _
    | _ => exact ih _

/-- How the loop without a subclass stands, as one with. -/
def LoopState.ofEnd : LoopEnd → LoopState
  | .running => .running
  | .returned => .returned
  | .raised e => .raised (.err e)

/-- The loop of `BaseNode` itself is the one of C149. -/
theorem C150_base (ts : List Turn) (n : Node) :
    (Subclass.base H).loop H n ts = ((n.loop H ts).1, LoopState.ofEnd (n.loop H ts).2) := by
  induction ts generalizing n with
  | nil => rfl
  | cons t ts ih =>
    rw [Subclass.loop, Node.loop]
    split
    · simp only [Subclass.base]
      generalize n.poll H t = p
      obtain ⟨m, r⟩ := p
      cases r with
      | error e => rfl
      | ok a =>
        simp only
        have := base_calls (H := H) t.calls m
        simp only [Subclass.base] at this
        rw [this]
        exact ih _
    · rfl

/-! ### What stops the loop -/

/-- Turns of the loop that end without an exception, from one node to another. -/
inductive Turns (S : Subclass) (H : Hashes) : Node → List Turn → Node → Prop where
  | nil (n : Node) : Turns S H n [] n
  | cons {n m p q r : Node} {t : Turn} {ts : List Turn} {asked : List Nat} (ht : n.truthy = true)
      (hb : S.beginLoop n = (m, none)) (hp : m.poll H t = (p, .ok asked)) (hc : S.calls H p t.calls = (q, none))
      (hr : Turns S H q ts r) : Turns S H n (t :: ts) r

theorem read_raises (S : Subclass) (n : Node) (c : Nat) (r : RecvRes) (now : Int) :
    (S.read H n c r now).2 = none ∨ (S.read H n c r now).2 = some .exit := by
  rw [Subclass.read]
  split
  · exact .inl rfl
  · exact .inr rfl
  · exact .inl rfl

/-- Whatever the methods of the subclass that handle messages raise, nothing but `KeyboardInterrupt` and `SystemExit`
leaves the calls for the sockets. -/
theorem C150_calls (S : Subclass) (es : List Event) (n : Node) :
    (S.calls H n es).2 = none ∨ (S.calls H n es).2 = some .exit := by
  induction es generalizing n with
  | nil => exact .inl rfl
  | cons e es ih =>
    cases e with
    | read c r now =>
      rw [Subclass.calls]
      split
      · have h := read_raises (H := H) S n c r now
        generalize S.read H n c r now = p at h
        obtain ⟨m, o⟩ := p
        cases o with
        | none => exact ih _
        | some e => exact h
      · exact ih _
    | _ => exact ih _

/-- **C150.**  The loop ends with `StopNode` exactly if, after some turns without an exception, `begin_loop` raises
it. -/
theorem C150_stops (S : Subclass) (ts : List Turn) (n : Node) :
    (S.loop H n ts).2 = .raised .stopNode ↔
      ∃ before t after m, ts = before ++ t :: after ∧ Turns S H n before m ∧ m.truthy = true ∧
        (S.beginLoop m).2 = some .stopNode := by
  constructor
  · intro h
    induction ts generalizing n with
    | nil => cases h
    | cons t ts ih =>
      rw [Subclass.loop] at h
      split at h
      · rename_i ht
        generalize hb : S.beginLoop n = b at h
        obtain ⟨m, o⟩ := b
        cases o with
        | some e =>
          cases h
          exact ⟨[], t, ts, n, rfl, .nil n, ht, by rw [hb]⟩
        | none =>
          simp only at h
          generalize hp : m.poll H t = p at h
          obtain ⟨p, r⟩ := p
          cases r with
          | error e => cases h
          | ok asked =>
            simp only at h
            have hcalls := C150_calls (H := H) S t.calls p
            generalize hc : S.calls H p t.calls = q at h hcalls
            obtain ⟨q, o⟩ := q
            cases o with
            | some e =>
              rcases hcalls with h' | h'
              · cases h'
              · cases h'
                cases h
            | none =>
              obtain ⟨before, t', after, r, e1, e2, e3, e4⟩ := ih q h
              exact ⟨t :: before, t', after, r, by rw [e1]; rfl, .cons ht hb hp hc e2, e3, e4⟩
      · cases h
  · rintro ⟨before, t, after, m, rfl, hT, ht, hb⟩
    induction hT with
    | nil m =>
      rw [List.nil_append, Subclass.loop, if_pos ht]
      generalize S.beginLoop m = b at hb
      obtain ⟨b, o⟩ := b
      cases hb
      rfl
    | cons ht' hb' hp' hc' _ ih =>
      rw [List.cons_append, Subclass.loop, if_pos ht', hb']
      simp only [hp', hc']
      exact ih ht hb

theorem loop_turns (S : Subclass) {before : List Turn} {n m : Node} (h : Turns S H n before m) (ts : List Turn) :
    S.loop H n (before ++ ts) = S.loop H m ts := by
  induction h with
  | nil => rfl
  | cons ht hb hp hc _ ih =>
    rw [List.cons_append, Subclass.loop, if_pos ht, hb]
    simp only [hp, hc]
    exact ih

/-- `serve_forever` then returns, with the listener closed and everything else as `begin_loop` left it. -/
theorem C150_serve (S : Subclass) (before after : List Turn) (t : Turn) (n m p : Node) (h : Turns S H n before m)
    (ht : m.truthy = true) (hb : S.beginLoop m = (p, some .stopNode)) :
    S.serve H n (before ++ t :: after) = ({ p with listening := false }, .returned) := by
  rw [Subclass.serve, loop_turns S h, Subclass.loop, if_pos ht, hb]

/-- An exception other than `StopNode` also closes the listener, and is raised. -/
theorem C150_finally (S : Subclass) (ts : List Turn) (n : Node) :
    ((S.serve H n ts).2 = .running ↔ (S.loop H n ts).2 = .running) ∧
    ((S.serve H n ts).2 ≠ .running → (S.serve H n ts).1.listening = false) ∧
    ∀ e, (S.serve H n ts).2 = .raised e ↔ (S.loop H n ts).2 = .raised e ∧ e ≠ .stopNode := by
  rw [Subclass.serve]
  generalize S.loop H n ts = r
  obtain ⟨m, s⟩ := r
  cases s with
  | running => simp
  | returned => simp
  | raised e =>
    cases e with
    | stopNode =>
      refine ⟨by simp, by simp, fun e => ?_⟩
      constructor
      · intro h
        cases h
      · rintro ⟨h, hne⟩
        cases h
        exact absurd rfl hne
    | err e =>
      refine ⟨by simp, by simp, fun e' => ?_⟩
      constructor
      · intro h
        cases h
        exact ⟨rfl, fun h => by cases h⟩
      · exact fun h => h.1
    | exit =>
      refine ⟨by simp, by simp, fun e' => ?_⟩
      constructor
      · intro h
        cases h
        exact ⟨rfl, fun h => by cases h⟩
      · exact fun h => h.1

/-- **C150 is false of the connections.**  They are open after the node has stopped. -/
theorem C150_connections_false (S : Subclass) (before after : List Turn) (t : Turn) (n m p : Node)
    (h : Turns S H n before m) (ht : m.truthy = true) (hb : S.beginLoop m = (p, some .stopNode)) :
    (S.serve H n (before ++ t :: after)).1.openConns = p.openConns := by
  rw [C150_serve S before after t n m p h ht hb]
  rfl

/-! ### `StopNode` in a handler -/

/-- The same subclass, with a handler of messages that returns where the other one raises `StopNode`. -/
def Subclass.quiet (S : Subclass) : Subclass :=
  { S with message := fun n c m now =>
      match S.message n c m now with
      | (n, some .stopNode) => (n, none)
      | r => r }

theorem quiet_frame (S : Subclass) (c : Nat) (now : Int) (n : Node) (f : Bytes) :
    (Subclass.quiet S).frame H c now n f = S.frame H c now n f := by
  unfold Subclass.frame
  cases hp : parseMessage H f n.magic with
  | error e => rfl
  | ok m =>
    simp only [Subclass.quiet]
    generalize S.message n c m now = r
    obtain ⟨p, o⟩ := r
    cases o with
    | none => rfl
    | some e =>
      cases e with
      | err e => cases e <;> rfl
      | stopNode => rfl
      | exit => rfl

theorem quiet_readLoop (S : Subclass) (c : Nat) (now : Int) (buf : Bytes) (n : Node) :
    (Subclass.quiet S).readLoop H c now n buf = S.readLoop H c now n buf := by
  induction hl : buf.length using Nat.strong_induction_on generalizing buf n with
  | _ l ih =>
    rw [Subclass.readLoop, Subclass.readLoop]
    split
    · rfl
    · rfl
    · rename_i length _
      split
      · rfl
      · split
        · rfl
        · rw [quiet_frame]
          split
          · refine ih (buf.drop length).length ?_ _ _ rfl
            rw [List.length_drop]
            omega
          · rfl

theorem quiet_read (S : Subclass) (n : Node) (c : Nat) (r : RecvRes) (now : Int) :
    (Subclass.quiet S).read H n c r now = S.read H n c r now := by
  have h : (Subclass.quiet S).handleRead H n c r now = S.handleRead H n c r now := by
    unfold Subclass.handleRead
    cases r with
    | raised => rfl
    | data chunk =>
      simp only
      split
      · rfl
      · split
        · rfl
        · exact quiet_readLoop ..
  rw [Subclass.read, h, Subclass.read]

theorem quiet_calls (S : Subclass) (es : List Event) (n : Node) :
    (Subclass.quiet S).calls H n es = S.calls H n es := by
  induction es generalizing n with
  | nil => rfl
  | cons e es ih =>
    cases e with
    | read c r now =>
      rw [Subclass.calls, Subclass.calls]
      split
      · rw [quiet_read]
        split
        · exact ih _
        · rfl
      · exact ih _
    | _ => exact ih _

theorem quiet_loop (S : Subclass) (ts : List Turn) (n : Node) :
    (Subclass.quiet S).loop H n ts = S.loop H n ts := by
  induction ts generalizing n with
  | nil => rfl
  | cons t ts ih =>
    rw [Subclass.loop, Subclass.loop]
    split
    · have hb : (Subclass.quiet S).beginLoop n = S.beginLoop n := rfl
      rw [hb]
      split
      · rfl
      · split
        · rfl
        · rw [quiet_calls]
          split
          · rfl
          · exact ih _
    · rfl

/-- **C150 is false of the handlers.**  A handler of messages that raises `StopNode` does what it would do if it
returned there: the node goes on. -/
theorem C150_handler_false (S : Subclass) (n : Node) (ts : List Turn) :
    S.serve H n ts = (Subclass.quiet S).serve H n ts := by
  rw [Subclass.serve, Subclass.serve, quiet_loop]

/-- `StopNode` raised by `invalid_command` closes the connection, if it is the first frame, and the node goes on. -/
theorem C150_invalid_false (S : Subclass) (n p : Node) (c : Nat) (now : Int) (k : Conn) (f : Bytes) (e : PyErr)
    (hk : n.conns[c]? = some k) (hb : k.recvBuf = []) (hf : IsFrame f)
    (he : parseMessage H f n.magic = .error e) (hu : e = .unknownMsgError ∨ e = .msgFormatError)
    (hi : S.invalid (Node.setRecvBuf c (n.received c f now) []) c f = (p, some .stopNode)) :
    S.read H n c (.data f) now = (p.handleClose c, none) := by
  have h24 : 24 ≤ f.length := by rw [hf.2]; unfold frameLength; omega
  have hne : f ≠ [] := by
    intro h
    rw [h] at h24
    simp at h24
  have hl : firstMsgLen f = .ok (some f.length) := by
    rw [firstMsgLen_eq, if_neg (by omega), ← hf.2]
  have hm : (Node.setRecvBuf c (n.received c f now) []).magic = n.magic := rfl
  have hr : S.handleRead H n c (.data f) now = (p, some .stopNode) := by
    rw [Subclass.handleRead]
    simp only [hk, hb, List.nil_append, if_neg hne]
    rw [Subclass.readLoop, hl]
    simp only [gt_iff_lt, lt_irrefl, if_false, List.drop_length, List.take_length]
    rw [if_neg (by omega), Subclass.frame]
    simp only [hm, he]
    rcases hu with rfl | rfl <;> simp only [hi]
  rw [Subclass.read, hr]

/-- `KeyboardInterrupt` and `SystemExit` in a handler of messages do end the loop: the frames after are not handled, and
`serve_forever` raises it, with the listener closed. -/
theorem C150_exit (S : Subclass) (n p q : Node) (c : Nat) (now : Int) (k : Conn) (f rest : Bytes) (m : Msg)
    (hk : n.conns[c]? = some k) (ho : k.isOpen = true) (hb : k.recvBuf = []) (hf : IsFrame f)
    (he : parseMessage H f n.magic = .ok m)
    (hi : S.message (Node.setRecvBuf c (n.received c (f ++ rest) now) rest) c m now = (p, some .exit))
    (t : Turn) (es : List Event) (ts : List Turn) (before : List Turn) (n0 n1 : Node) (asked : List Nat)
    (hT : Turns S H n0 before q) (htr : q.truthy = true) (hbeg : S.beginLoop q = (n1, none))
    (hpoll : n1.poll H t = (n, .ok asked)) (hcalls : t.calls = .read c (.data (f ++ rest)) now :: es) :
    S.read H n c (.data (f ++ rest)) now = (p, some .exit) ∧
    S.serve H n0 (before ++ t :: ts) = ({ p with listening := false }, .raised .exit) := by
  have h24 : 24 ≤ f.length := by rw [hf.2]; unfold frameLength; omega
  have hne : f ++ rest ≠ [] := by
    intro h
    have := congrArg List.length h
    rw [List.length_append, List.length_nil] at this
    omega
  have hl : firstMsgLen (f ++ rest) = .ok (some f.length) := by
    rw [firstMsgLen_eq, if_neg (by rw [List.length_append]; omega), frameLength_append hf.1, ← hf.2]
  have hm : (Node.setRecvBuf c (n.received c (f ++ rest) now) rest).magic = n.magic := rfl
  have hr : S.handleRead H n c (.data (f ++ rest)) now = (p, some .exit) := by
    rw [Subclass.handleRead]
    simp only [hk, hb, List.nil_append, if_neg hne]
    rw [Subclass.readLoop, hl]
    simp only
    rw [if_neg (by rw [List.length_append]; omega), if_neg (by omega), List.drop_left, List.take_left, Subclass.frame]
    simp only [hm, he, hi]
  have hread : S.read H n c (.data (f ++ rest)) now = (p, some .exit) := by rw [Subclass.read, hr]
  refine ⟨hread, ?_⟩
  have hp : c ∈ n.peers := mem_peers.2 ⟨k, hk, ho⟩
  rw [Subclass.serve, loop_turns S hT, Subclass.loop, if_pos htr, hbeg]
  simp only [hpoll, hcalls]
  rw [Subclass.calls, if_pos hp, hread]

/-! ### Cases -/

/-- A subclass that stops when it has a peer, and raises `StopNode` for every message and every invalid one. -/
def stopper (needs : Nat) : Subclass where
  message n _ _ _ := (n, some .stopNode)
  invalid n _ _ := (n, some .stopNode)
  beginLoop n := (n, if needs ≤ n.conns.length then some .stopNode else none)

/-- A turn with an incoming connection. -/
def turn1 : Turn :=
  { now := 0, envs := [], choice := 0, reads := fun _ => ⟨0, 0, List.replicate 8 0⟩,
    calls := [.accept (some ("10.0.0.1".toList, 8333)) 1 1 (List.replicate 8 0)] }

/-- The node stops in the second turn, and returns; its connection is open. -/
example : ((stopper 1).serve Hashes.toy (node0 .py3 125) [turn1, turn1]).2 = .returned ∧
    ((stopper 1).serve Hashes.toy (node0 .py3 125) [turn1, turn1]).1.openConns.length = 1 ∧
    ((stopper 1).serve Hashes.toy (node0 .py3 125) [turn1]).2 = .running := by decide +kernel

/-- A turn in which the peer sends a `verack`. -/
def turn2 (f : Bytes) : Turn := { turn1 with calls := [.read 0 (.data f) 2] }

/-- A message for which the handler raises `StopNode`: the loop goes on and the connection is open. -/
example : ((stopper 2).serve Hashes.toy (node0 .py3 125)
      [turn1, turn2 (wireFrame Hashes.toy (node0 .py3 125).magic "verack" [])]).2 = .running ∧
    ((stopper 2).serve Hashes.toy (node0 .py3 125)
      [turn1, turn2 (wireFrame Hashes.toy (node0 .py3 125).magic "verack" [])]).1.openConns.length = 1 := by
  decide +kernel

/-- An invalid one: the loop goes on and the connection is closed. -/
example : ((stopper 2).serve Hashes.toy (node0 .py3 125)
      [turn1, turn2 (wireFrame Hashes.toy (node0 .py3 125).magic "nothing" [])]).2 = .running ∧
    ((stopper 2).serve Hashes.toy (node0 .py3 125)
      [turn1, turn2 (wireFrame Hashes.toy (node0 .py3 125).magic "nothing" [])]).1.openConns.length = 0 := by
  decide +kernel

/-- The same subclass, interrupted from the keyboard while it handles a message. -/
def interrupted : Subclass := { stopper 2 with message := fun n _ _ _ => (n, some .exit) }

example : (interrupted.serve Hashes.toy (node0 .py3 125)
      [turn1, turn2 (wireFrame Hashes.toy (node0 .py3 125).magic "verack" [] ++ [1, 2, 3]), turn1]).2 = .raised .exit := by
  decide +kernel

/-- The hypotheses of `C150_invalid_false` hold of it. -/
example : IsFrame (wireFrame Hashes.toy [1, 2, 3, 4] "nothing" []) ∧
    (match parseMessage Hashes.toy (wireFrame Hashes.toy [1, 2, 3, 4] "nothing" []) [1, 2, 3, 4] with
      | .error e => decide (e = .unknownMsgError)
      | .ok _ => false) = true := by
  refine ⟨⟨?_, ?_⟩, ?_⟩ <;> decide +kernel

end NBC.Props
