import Verif.Model.Node

/-!
# The event loop of a node: `asyncore.loop(5, map=self)`, `basenode.py:127-141`

`asyncore` is outside `/repo`; what the node hands to it is in `basenode.py:268-311` (the node is the map) and
`connection.py:105-120,156-157` (`readable` and `writable`).  Here is the part of `asyncore.loop` and `asyncore.poll`
(`Lib/asyncore.py`, the same in Python 2.7 and 3) that asks these methods and calls `select`:

    while map: poll(timeout, map)

    def poll(timeout, map):
        if map:
            r = []; w = []; e = []
            for fd, obj in list(map.items()):
                is_r = obj.readable()
                is_w = obj.writable()
                if is_r: r.append(fd)
                if is_w and not obj.accepting: w.append(fd)
                if is_r or is_w: e.append(fd)
            if [] == r == w == e: time.sleep(timeout); return
            r, w, e = select.select(r, w, e, timeout)
            ... the methods of what is ready, in their exception handlers

None of this is in an exception handler (in Python 2.7 an interrupted call of `select` is excepted), and `select` raises
`OSError` (`select.error` in Python 2.7) with `EBADF` for the number of a closed file.
-/

namespace NBC.P2P
open NBC NBC.Proto

/-- What one call of `readable` reads: the clock, twice, and `os.urandom(8)`. For `basenode.py:127-141,268-281`. -/
structure Reading where
  now : Int
  now' : Int
  nonce : Bytes

/-- One turn of the loop: what `items` reads, what the calls of `readable` read, and the calls that are made for the
sockets that are ready. For `basenode.py:127-141,268-281`. -/
structure Turn where
  now : Int
  envs : List AnyEnv
  choice : Nat
  reads : Nat → Reading
  calls : List Event

/-- The truth of a node, `basenode.py:292-296`: Python 2 calls `__nonzero__`, Python 3 `__len__`. -/
def Node.truthy (n : Node) : Bool :=
  match n.ver with
  | .py2 => true
  | .py3 => decide (0 < n.mapSize)

/-- `is_r = obj.readable(); is_w = obj.writable()` for a connection. For `basenode.py:127-141,268-281`. -/
def Node.ask (H : Hashes) (n : Node) (c : Nat) (t : Reading) : Node × Py (Bool × Bool) :=
  match n.readable H c t.now t.now' t.nonce with
  | (n, .error e) => (n, .error e)
  | (n, .ok isR) => (n, .ok (isR, ((n.conns[c]?).map Conn.writable).getD false))

/-- The loop over `list(map.items())`: the connections whose file numbers are put in a list for `select`.  (The
listener is readable, `basenode.py:268-269`; it is in the map while it is open and its number is always given.) -/
def Node.askAll (H : Hashes) (reads : Nat → Reading) : Node → List Nat → Node × Py (List Nat)
  | n, [] => (n, .ok [])
  | n, c :: cs =>
    match n.ask H c (reads c) with
    | (n, .error e) => (n, .error e)
    | (n, .ok (isR, isW)) =>
      match n.askAll H reads cs with
      | (n, .error e) => (n, .error e)
      | (n, .ok asked) => (n, .ok (if isR || isW then c :: asked else asked))

/-- `select` raises if one of the files is closed. For `basenode.py:127-141,268-281`. -/
def Node.select (n : Node) (asked : List Nat) : Py Unit :=
  if asked.all (fun c => ((n.conns[c]?).map (·.isOpen)).getD false) then .ok () else .error .ioError

/-- `asyncore.poll` up to the answer of `select`, with the connections it waits for. For `basenode.py:127-141,268-281`. -/
def Node.poll (H : Hashes) (n : Node) (t : Turn) : Node × Py (List Nat) :=
  match n.items H t.now t.envs t.choice with
  | (n, some e) => (n, .error e)
  | (n, none) =>
    match n.askAll H t.reads n.peers with
    | (n, .error e) => (n, .error e)
    | (n, .ok asked) =>
      match n.select asked with
      | .error e => (n, .error e)
      | .ok _ => (n, .ok asked)

/-- How `asyncore.loop` stands. For `basenode.py:127-141,268-281`. -/
inductive LoopEnd where
  | running
  | returned
  | raised (e : PyErr)
  deriving DecidableEq, Repr

/-- `asyncore.loop`, for the turns given. For `basenode.py:127-141,268-281`. -/
def Node.loop (H : Hashes) : Node → List Turn → Node × LoopEnd
  | n, [] => (n, .running)
  | n, t :: ts =>
    if n.truthy then
      match n.poll H t with
      | (n, .error e) => (n, .raised e)
      | (n, .ok _) => (n.run H t.calls).loop H ts
    else (n, .returned)

end NBC.P2P
