import Verif.Model.NodePoll

/-!
# The table of connections while two threads use it

`startServer` (`nbc/node/basenode.py:348-352`) runs the loop in a thread; the program's own thread goes on to call
`node.close()`, `node.add_peer(...)`, `node.remove_peer(...)`, `node.peers`.  All of them work on the dictionary
`self._peers` (`basenode.py:41,283-311`), which has no lock.

The dictionary is that of CPython 3.6 and later: an array of entries in the order of insertion, with holes where entries were
deleted; an insertion that finds the array full moves the entries together.  An iterator over its values
(`dictiter_iternextvalue`, `Objects/dictobject.c`) keeps a position in the array and the number of entries at its creation,
and raises `RuntimeError` if the number is another one at a call of `next`.  Between two calls of `next` in a list
comprehension the other thread may run.  In Python 2 `values()` makes a list, in one step.
-/

namespace NBC.P2P
open NBC NBC.Proto

/-- What the table holds: the node itself, which is the listener, and connections (by number).
For `basenode.py:174-176,288-311`. -/
inductive Chan where
  | listener
  | conn (c : Nat)
  deriving DecidableEq, Repr

/-- `isinstance(n,connection.Connection)`, `basenode.py:176` -/
def Chan.conn? : Chan → Option Nat
  | .listener => none
  | .conn c => some c

/-- The entries of the dictionary, from file numbers to objects, with holes. For `basenode.py:174-176,288-311`. -/
abbrev Table := List (Option (Nat × Chan))

/-- `len(self._peers)`, `basenode.py:295-296` -/
def Table.used (t : Table) : Nat := (t.filter Option.isSome).length

/-- The values, in the order of the entries; for `basenode.py:174-176,288-311` -/
def Table.values (t : Table) : List Chan := t.filterMap (Option.map Prod.snd)

/-- `fd in self._peers`, `basenode.py:310-311` -/
def Table.has (t : Table) (fd : Nat) : Bool := t.any (fun e => e.any (fun p => p.1 == fd))

/-- A change by the other thread: `map[fd] = obj` (`asyncore.dispatcher.add_channel`, `basenode.py:301-302`), where `resize`
tells whether the array was full, and `del map[fd]` (`del_channel`, which looks first; `basenode.py:304-305`). -/
inductive Write where
  | add (fd : Nat) (o : Chan) (resize : Bool)
  | del (fd : Nat)
  deriving DecidableEq, Repr

/-- The file number, the key of `self._peers` (`basenode.py:301-305`) -/
def Write.fd : Write → Nat
  | .add fd _ _ => fd
  | .del fd => fd

/-- Whether the entries were moved together (CPython, for `basenode.py:301-302`) -/
def Write.resizes : Write → Bool
  | .add _ _ r => r
  | .del _ => false

/-- `__setitem__` and `__delitem__`, `basenode.py:301-305`: a new value of an old key stays in its place. -/
def Table.write (t : Table) : Write → Table
  | .add fd o resize =>
    if t.has fd then t.map (fun e => if e.any (fun p => p.1 == fd) then some (fd, o) else e)
    else (if resize then t.filter Option.isSome else t) ++ [some (fd, o)]
  | .del fd => t.map (fun e => if e.any (fun p => p.1 == fd) then none else e)

/-- Several changes, `basenode.py:301-305`, in order -/
def Table.writes (t : Table) (ws : List Write) : Table := ws.foldl Table.write t

/-- The first entry that is not a hole, with the position after it; `pos` is the position of the first one given;
for `basenode.py:174-176,288-311` -/
def Table.scan (pos : Nat) : Table → Option (Chan × Nat)
  | [] => none
  | some (_, o) :: _ => some (o, pos + 1)
  | none :: t => Table.scan (pos + 1) t

/-- The rest of a comprehension over the values, from a position.  `sched` has what the other thread does before each of the
next calls of `next`; after these it does nothing, and the rest is read in one step. For `basenode.py:174-176,288-311`. -/
def listRest (used : Nat) (pos : Nat) (t : Table) : List (List Write) → Py (List Chan)
  | [] => if t.used ≠ used then .error .runtimeError else .ok (Table.values (t.drop pos))
  | ws :: sched =>
    let t := t.writes ws
    if t.used ≠ used then .error .runtimeError
    else
      match Table.scan pos (t.drop pos) with
      | none => .ok []
      | some (o, pos) => do
        let rest ← listRest used pos t sched
        .ok (o :: rest)

/-- `[n for n in self.values() if isinstance(n,connection.Connection)]`, the property `peers`, `basenode.py:174-176` -/
def peersOf (ver : Aes.PyVer) (t : Table) (sched : List (List Write)) : Py (List Nat) :=
  match ver with
  | .py2 => .ok (t.values.filterMap Chan.conn?)
  | .py3 => do
    let l ← listRest t.used 0 t sched
    .ok (l.filterMap Chan.conn?)

/-- `asyncore.poll` up to the answer of `select`, when the heartbeat that `items` makes (`basenode.py:227-228,276-279`) finds
the table in the state `t` and the other thread at work.  Simplified: the other thread is at work only during the first
statement of `heartbeat`. -/
def Node.pollT (H : Hashes) (n : Node) (turn : Turn) (t : Table) (sched : List (List Write)) : Node × Py (List Nat) :=
  if turn.now - n.lastHeartbeat > 10 * second then
    match peersOf n.ver t sched with
    | .error e => ({ n with lastHeartbeat := turn.now }, .error e)
    | .ok _ => n.poll H turn
  else n.poll H turn

/-- `serve_forever`, `basenode.py:127-139`, without the port mapping, for a turn of this kind and the turns after it: an
exception other than `StopNode` goes through the `finally` clause, which closes the listener. -/
def Node.serveT (H : Hashes) (n : Node) (turn : Turn) (t : Table) (sched : List (List Write)) (ts : List Turn) :
    Node × LoopEnd :=
  if n.truthy then
    match n.pollT H turn t sched with
    | (n, .error e) => ({ n with listening := false }, .raised e)
    | (n, .ok _) => (n.run H turn.calls).loop H ts
  else ({ n with listening := false }, .returned)

end NBC.P2P
