import Verif.Model.NodePoll

/-!
# A program's own node: the methods it overrides, and `StopNode`

A program that uses the node derives a class from `BaseNode` and overrides `begin_loop` (`basenode.py:246-247`, "will
override in sub-class"), `invalid_command`, `connected`, and the methods `command_*`.  What these do is arbitrary here.
`StopNode` (`node/__init__.py:13`) is the exception that `serve_forever` takes for a request to stop.
-/

namespace NBC.P2P
open NBC NBC.Proto

/-- What a method of the subclass can raise.  `StopNode` is a subclass of `Exception`, `node/__init__.py:13`; `exit` is
`KeyboardInterrupt` or `SystemExit`, which are not. -/
inductive Raised where
  | stopNode
  | err (e : PyErr)
  | exit
  deriving DecidableEq, Repr

/-- The methods of a subclass of `BaseNode`: what `Connection.handle_message` (`connection.py:186-211`) does with a
message by `connected` and `command_*`; `invalid_command`, `basenode.py:144-145`; `begin_loop`, `basenode.py:246-247`.
Simplified: they leave `_recv_buffer` alone. -/
structure Subclass where
  message : Node → Nat → Msg → Int → Node × Option Raised
  invalid : Node → Nat → Bytes → Node × Option Raised
  beginLoop : Node → Node × Option Raised

/-- `BaseNode` itself, `basenode.py:144-148,246-247,315-346` -/
def Subclass.base (H : Hashes) : Subclass where
  message n c m now := ((n.handleMessage H c m now).1, (n.handleMessage H c m now).2.map .err)
  invalid n _ _ := (n, none)
  beginLoop n := (n, none)

/-- One frame, `connection.py:146-154`: the three `except` clauses. -/
def Subclass.frame (S : Subclass) (H : Hashes) (c : Nat) (now : Int) (n : Node) (payload : Bytes) :
    Node × Option Raised :=
  let r : Node × Option Raised :=
    match parseMessage H payload n.magic with
    | .error e => (n, some (.err e))
    | .ok m => S.message n c m now
  match r.2 with
  | none => r
  | some (.err .unknownMsgError) => S.invalid r.1 c payload
  | some (.err .msgFormatError) => S.invalid r.1 c payload
  | some (.err _) => (r.1, none)
  | some .stopNode => (r.1, none)
  | some .exit => r

/-- The loop `connection.py:137-154`, for the buffer given, which is `_recv_buffer`. -/
def Subclass.readLoop (S : Subclass) (H : Hashes) (c : Nat) (now : Int) (n : Node) (buf : Bytes) :
    Node × Option Raised :=
  match firstMsgLen buf with
  | .error e => (n, some (.err e))
  | .ok none => (n, none)
  | .ok (some length) =>
    if length > buf.length then (n, none)
    else if length = 0 then (n, some (.err .recursionError))
    else
      match S.frame H c now (Node.setRecvBuf c n (buf.drop length)) (buf.take length) with
      | (n, none) => S.readLoop H c now n (buf.drop length)
      | (n, some e) => (n, some e)
termination_by buf.length
decreasing_by
  simp only [List.length_drop]
  omega

/-- `Connection.handle_read`, `connection.py:122-154` -/
def Subclass.handleRead (S : Subclass) (H : Hashes) (n : Node) (c : Nat) (r : RecvRes) (now : Int) :
    Node × Option Raised :=
  match r with
  | .raised => (n.handleClose c, none)
  | .data chunk =>
    if chunk = [] then ((n.handleClose c).handleClose c, none)
    else
      match n.conns[c]? with
      | none => (n, none)
      | some k => S.readLoop H c now (n.received c chunk now) (k.recvBuf ++ chunk)

/-- `asyncore.read(obj)`: `KeyboardInterrupt` and `SystemExit` are raised again; for anything else
`Connection.handle_error` (`connection.py:170-177`) logs it and closes the connection. -/
def Subclass.read (S : Subclass) (H : Hashes) (n : Node) (c : Nat) (r : RecvRes) (now : Int) : Node × Option Raised :=
  match S.handleRead H n c r now with
  | (n, none) => (n, none)
  | (n, some .exit) => (n, some .exit)
  | (n, some _) => (n.handleClose c, none)

/-- The calls `asyncore.poll` makes after `select`, until one raises. For `basenode.py:274`. -/
def Subclass.calls (S : Subclass) (H : Hashes) : Node → List Event → Node × Option Raised
  | n, [] => (n, none)
  | n, .read c r now :: es =>
    if c ∈ n.peers then
      match S.read H n c r now with
      | (n, none) => S.calls H n es
      | (n, some e) => (n, some e)
    else S.calls H n es
  | n, e :: es => S.calls H (n.step H e) es

/-- How the loop of a subclass stands. For `basenode.py:274`, `basenode.py:127-141`. -/
inductive LoopState where
  | running
  | returned
  | raised (e : Raised)
  deriving DecidableEq, Repr

/-- `asyncore.loop`, for the turns given, with `begin_loop` first in each turn (`basenode.py:274`). -/
def Subclass.loop (S : Subclass) (H : Hashes) : Node → List Turn → Node × LoopState
  | n, [] => (n, .running)
  | n, t :: ts =>
    if n.truthy then
      match S.beginLoop n with
      | (n, some e) => (n, .raised e)
      | (n, none) =>
        match n.poll H t with
        | (n, .error e) => (n, .raised (.err e))
        | (n, .ok _) =>
          match S.calls H n t.calls with
          | (n, some e) => (n, .raised e)
          | (n, none) => S.loop H n ts
    else (n, .returned)

/-- `serve_forever`, `basenode.py:127-141`, without the port mapping (`Portmap.serveForever`): the `finally` clause
closes the dispatcher, which is the listener. -/
def Subclass.serve (S : Subclass) (H : Hashes) (n : Node) (ts : List Turn) : Node × LoopState :=
  match S.loop H n ts with
  | (n, .running) => (n, .running)
  | (n, .returned) => ({ n with listening := false }, .returned)
  | (n, .raised .stopNode) => ({ n with listening := false }, .returned)
  | (n, .raised e) => ({ n with listening := false }, .raised e)

end NBC.P2P
