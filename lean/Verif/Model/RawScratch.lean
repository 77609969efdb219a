import Verif.Model.Aes

/-!
# `nbc/node/raw_.py`

The node of `raw_.py`, an `asyncore.dispatcher` that hands itself to `asyncore.loop` as the map of channels
(`raw_.py:49-55,88-129`).  Its constructor calls `asyncore.dispatcher.__init__(self)` without a map (`raw_.py:13`), so that the
listening socket is entered into `asyncore.socket_map` (`create_socket`, `raw_.py:29`), not into `self._peers`.

From `asyncore` (the same in Python 2.7 and 3): `loop(timeout, map)` is `while map: poll(timeout, map)`; `poll` asks the
channels of `map.items()`, sleeps and returns if there are none to wait for; `read(obj)` calls `obj.handle_read_event()`,
which calls `handle_accept` for a listener, and for an exception `obj.handle_error()`, which prints it and calls
`handle_close`, which closes the channel.
-/

namespace NBC.RawScratch
open NBC NBC.Aes

/-- A node: whether its socket is open (then it is in `asyncore.socket_map`), `_listen`, and `_peers` by file number.
For `raw_.py:11-40`. -/
structure Raw where
  ver : PyVer
  isOpen : Bool
  listen : Bool
  peers : List Nat
  deriving DecidableEq, Repr

/-- `RawNode.__init__`, `raw_.py:12-40`, when the port is free: `listen` is whether an address is given. -/
def Raw.init (ver : PyVer) (listen : Bool) : Raw := ⟨ver, true, listen, []⟩

/-- The truth of the node: `__nonzero__` (Python 2) or `__len__` (Python 3), `raw_.py:110-114` -/
def Raw.truthy (n : Raw) : Bool :=
  match n.ver with
  | .py2 => true
  | .py3 => decide (0 < n.peers.length)

/-- `handle_accept`, `raw_.py:63-83`, where `pair` is what `accept` gives: the name `addr` in line 68 is not bound.  The
connection accepted is dropped with the frame. -/
def Raw.handleAccept (_n : Raw) (pair : Option (Nat × List Char)) : Py Unit :=
  match pair with
  | none => .ok ()
  | some _ => .error .nameError

/-- `handle_close` of `asyncore`, by `close`, `raw_.py:57-58` -/
def Raw.handleClose (n : Raw) : Raw := { n with isOpen := false }

/-- One event in the listening socket as `asyncore.read` deals with it. For `raw_.py:63-83`. -/
def Raw.read (n : Raw) (pair : Option (Nat × List Char)) : Raw :=
  match n.handleAccept pair with
  | .ok _ => n
  | .error _ => n.handleClose

/-- How the loop stands after some turns. For `raw_.py:49-55`. -/
inductive Stand where
  | running
  | returned
  deriving DecidableEq, Repr

/-- `asyncore.loop(5, map=self)`, `raw_.py:51`, for a number of turns; `incoming` has the connection that waits at the listener
in a turn.  A turn asks the channels in `_peers` only (`items`, `raw_.py:90-99`), and of these there are none that were not
entered by `__setitem__` (`raw_.py:119-120`). Simplified: no connection is entered from outside. -/
def Raw.loop (n : Raw) : List (Option (Nat × List Char)) → Raw × Stand
  | [] => (n, if n.truthy then .running else .returned)
  | _ :: turns => if n.truthy then n.loop turns else (n, .returned)

/-- `serve_forever`, `raw_.py:49-55` -/
def Raw.serve (n : Raw) (turns : List (Option (Nat × List Char))) : Raw × Stand :=
  match n.loop turns with
  | (n, .running) => (n, .running)
  | (n, .returned) => (n.handleClose, .returned)

/-- `asyncore.loop()` over `asyncore.socket_map`, by which a program could wait for the listener itself;
for `raw_.py:63-83` -/
def Raw.watch (n : Raw) : List (Option (Nat × List Char)) → Raw
  | [] => n
  | pair :: rest => if n.isOpen then (n.read pair).watch rest else n

end NBC.RawScratch
