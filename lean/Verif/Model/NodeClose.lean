import Verif.Model.NodePoll

/-!
# Closing a node that is served by another thread

The program at the foot of `basenode.py:348-352,354-359` starts the loop in a thread, `startServer(node)`, and ends with
`node.close()`, which the main thread calls while the loop runs.
-/

namespace NBC.P2P
open NBC NBC.Proto

/-- `BaseNode.close`, `basenode.py:141-142`: `asyncore.dispatcher.close` takes the listener out of the map and closes
its socket. -/
def Node.closeListener (n : Node) : Node := { n with listening := false }

/-- When the call comes in a turn of the loop: before the sockets are listed, after that and before `select` has begun
to wait, or while it waits.  Simplified: not between the instructions of one method; and a closed socket does not end a
`select` that waits. For `basenode.py:127-141`. -/
inductive Moment where
  | early
  | listed
  | waiting
  deriving DecidableEq, Repr

/-- A turn of the loop, with the call of `close` if there is one in it. For `basenode.py:127-141`. -/
structure CTurn where
  turn : Turn
  close : Option Moment

/-- `asyncore.poll` up to the answer of `select`.  The listener is among the files given to `select` if it was in the map
when they were listed (`basenode.py:268-269`). -/
def Node.pollC (H : Hashes) (n : Node) (t : CTurn) : Node × Py (List Nat) :=
  let n := if t.close = some .early then n.closeListener else n
  match n.items H t.turn.now t.turn.envs t.turn.choice with
  | (n, some e) => (n, .error e)
  | (n, none) =>
    let listed := n.listening
    match n.askAll H t.turn.reads n.peers with
    | (n, .error e) => (n, .error e)
    | (n, .ok asked) =>
      if t.close = some .listed ∧ listed then (n.closeListener, .error .ioError)
      else
        match n.select asked with
        | .error e => (n, .error e)
        | .ok _ => ((if t.close = some .waiting then n.closeListener else n), .ok asked)

/-- `asyncore.loop`, for the turns given. For `basenode.py:127-141`. -/
def Node.loopC (H : Hashes) : Node → List CTurn → Node × LoopEnd
  | n, [] => (n, .running)
  | n, t :: ts =>
    if n.truthy then
      match n.pollC H t with
      | (n, .error e) => (n, .raised e)
      | (n, .ok _) => (n.run H t.turn.calls).loopC H ts
    else (n, .returned)

end NBC.P2P
