import Verif.Model.Node

/-!
# Observations of a node's history

Not code: what an observer of the calls made by `asyncore` would write down.
-/

namespace NBC.P2P
open NBC NBC.Proto

/-- The loop of `handle_read`, `connection.py:137-154`, run on pairs of a node and a list of the frames handled so far:
the same `readLoop` as in `Node.handleRead`. -/
def Node.tracedLoop (H : Hashes) (c : Nat) (now : Int) (n : Node) (buf : Bytes) : (Node × List Bytes) × Option PyErr :=
  readLoop (fun s b => (Node.setRecvBuf c s.1 b, s.2)) (fun s f => (s.1.handleFrame H c now f, s.2 ++ [f])) (n, []) buf

/-- The frames that `handle_read` takes out of the buffer, `connection.py:143-147`, in this event, on connection `c` -/
def Node.stepFrames (H : Hashes) (n : Node) (e : Event) (c : Nat) : List Bytes :=
  match e with
  | .read c' (.data chunk) now =>
    if c' = c ∧ c ∈ n.peers ∧ chunk ≠ [] then
      match n.conns[c]? with
      | none => []
      | some k => (Node.tracedLoop H c now (n.received c chunk now) (k.recvBuf ++ chunk)).1.2
    else []
  | _ => []

/-- The bytes that `recv` returns in this event, `connection.py:124`, on connection `c` -/
def Node.stepBytes (n : Node) (e : Event) (c : Nat) : Bytes :=
  match e with
  | .read c' (.data chunk) _ => if c' = c ∧ c ∈ n.peers then chunk else []
  | _ => []

/-- The frames handled on connection `c` in a history, `connection.py:143-147` -/
def Node.handled (H : Hashes) (n : Node) : List Event → Nat → List Bytes
  | [], _ => []
  | e :: es, c => n.stepFrames H e c ++ (n.step H e).handled H es c

/-- The bytes received on connection `c` in a history, `connection.py:124` -/
def Node.stream (H : Hashes) (n : Node) : List Event → Nat → Bytes
  | [], _ => []
  | e :: es, c => n.stepBytes e c ++ (n.step H e).stream H es c

/-- The receive buffer of connection `c`, `connection.py:26` (empty before the connection exists) -/
def Node.bufOf (n : Node) (c : Nat) : Bytes := ((n.conns[c]?).map (·.recvBuf)).getD []

/-- The counter of received bytes of connection `c`, `connection.py:28` (zero before the connection exists) -/
def Node.rxOf (n : Node) (c : Nat) : Nat := ((n.conns[c]?).map (·.rxBytes)).getD 0

end NBC.P2P
