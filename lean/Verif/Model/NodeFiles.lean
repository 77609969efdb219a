import Verif.Model.NodePoll

/-!
# The files of a node

The operating system gives a process a limited number of open files, and `select` takes file numbers below `FD_SETSIZE`, 1024,
only.  `Node.step` leaves both out; here they are put back around the methods of `basenode.py:249-266` (`handle_accept`) and
`basenode.py:154-165` (`add_peer`), and around the turn of the loop (`Model/NodePoll`).
-/

namespace NBC.P2P
open NBC NBC.Proto

/-- The node after an event when the process may have `limit` sockets open.  With none left `accept` raises `OSError` with
`EMFILE`, which `asyncore.dispatcher.accept` passes on (it excepts `EWOULDBLOCK`, `ECONNABORTED` and `EAGAIN`), as does
`handle_accept`, `basenode.py:250`; then `asyncore` calls `handle_error` of the node, which closes it.  In the constructor of an outgoing
connection, `connection.py:50-55`, `create_socket` raises.  Simplified: for the connections `heartbeat` makes, the event says
whether there was a file. -/
def Node.stepF (H : Hashes) (limit : Nat) (n : Node) : Event → Node
  | .accept pair now now' nonce =>
    if n.listening ∧ limit ≤ n.mapSize then { n with listening := false }
    else n.step H (.accept pair now now' nonce)
  | .addPeer address force connects now nonce =>
    n.step H (.addPeer address force (connects && decide (n.mapSize < limit)) now nonce)
  | e => n.step H e

/-- Several events, `basenode.py:127-141` -/
def Node.runF (H : Hashes) (limit : Nat) (n : Node) (es : List Event) : Node := es.foldl (Node.stepF H limit) n

/-- `FD_SETSIZE` of the C library on Linux and darwin; for `basenode.py:127-141,268-269` -/
def fdSetSize : Nat := 1024

/-- A turn of `asyncore.poll` (`Node.poll`), where `file` has the number of the file of each connection, and of the listener
(`none`): `select.select` raises `ValueError` for a number from 1024 on, before it asks the system.
For `basenode.py:127-141,268-269`. -/
def Node.pollF (H : Hashes) (file : Option Nat → Nat) (n : Node) (t : Turn) : Node × Py (List Nat) :=
  match n.items H t.now t.envs t.choice with
  | (n, some e) => (n, .error e)
  | (n, none) =>
    match n.askAll H t.reads n.peers with
    | (n, .error e) => (n, .error e)
    | (n, .ok asked) =>
      let files := (if n.listening then [file none] else []) ++ asked.map (fun c => file (some c))
      if files.any (fun f => decide (fdSetSize ≤ f)) then (n, .error .valueError)
      else
        match n.select asked with
        | .error e => (n, .error e)
        | .ok _ => (n, .ok asked)

end NBC.P2P
