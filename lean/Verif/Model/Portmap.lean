import Verif.Model.Py

/-!
# Port mappings: `nbc/node/__init__.py:14-67` and `serve_forever`, `nbc/node/basenode.py:127-141`
-/

namespace NBC.Portmap

/-- A mapping in the router's table for one protocol: the host and port that an external port leads to.
For `nbc/node/__init__.py:17-67`. -/
structure Entry where
  host : String
  port : Int
deriving DecidableEq

/-- What the functions depend on and change. For `nbc/node/__init__.py:17-67`. -/
structure World where
  /-- `sys.platform == 'darwin'`: only then is `miniupnpc` imported, `nbc/node/__init__.py:4-9` -/
  darwin : Bool
  /-- whether the global `_upnp` is set -/
  upnp : Bool
  /-- `u.discover()` returns (otherwise it raises) -/
  discovers : Bool
  /-- `u.selectigd()` and the calls that only read and print return -/
  gateway : Bool
  /-- the router agrees to add a mapping at a port (otherwise it answers false or raises) -/
  allowsAdd : Int → Bool
  /-- the router agrees to delete the mapping at a port, if there is one -/
  allowsDelete : Int → Bool
  /-- the router's table -/
  table : Int → Option Entry

/-- A table with another entry at a port. For `nbc/node/__init__.py:17-67`. -/
def setEntry (t : Int → Option Entry) (p : Int) (e : Option Entry) : Int → Option Entry :=
  fun q => if q = p then e else t q

/-- `_init_upnp`, `nbc/node/__init__.py:16-29`: whether the result is not `None`.  `miniupnpc` is an unknown name
except on darwin, and this line is outside the `try`. -/
def initUpnp (w : World) : Py (Bool × World) :=
  if w.upnp then .ok (true, w)
  else if ¬ w.darwin then .error .nameError
  else if w.discovers then .ok (true, { w with upnp := true })
  else .ok (false, w)

/-- The loop that looks for a free port, `nbc/node/__init__.py:43-47` -/
def freePort (table : Int → Option Entry) (eport : Int) : Int :=
  if (table eport).isSome ∧ eport < 65536 then freePort table (eport + 1) else eport
termination_by (65536 - eport).toNat
decreasing_by omega

/-- `add_portmap(port, 'TCP', label)`, `nbc/node/__init__.py:31-54`; `lan` is `u.lanaddr`.  All exceptions after
the first line are caught (a call on `None` is an `AttributeError`). -/
def addPortmap (w : World) (port : Int) (lan : String) : Py World := do
  let (u, w) ← initUpnp w
  if ¬ u ∨ ¬ w.gateway then .ok w
  else
    let eport := freePort w.table port
    if w.allowsAdd eport then .ok { w with table := setEntry w.table eport (some ⟨lan, port⟩) } else .ok w

/-- `remove_portmap(port, 'TCP')`, `nbc/node/__init__.py:56-67` -/
def removePortmap (w : World) (port : Int) : World :=
  if ¬ w.upnp then w
  else if w.allowsDelete port then { w with table := setEntry w.table port none } else w

/-- How a run of `serve_forever` went: whether the loop was entered, the router's table during the loop, the world
afterwards, and the result. For `nbc/node/basenode.py:127-141`. -/
structure Run where
  entered : Bool
  during : Int → Option Entry
  after : World
  result : Py Unit

/-- `serve_forever`, `nbc/node/basenode.py:127-141`; `loop` is how `asyncore.loop` ends: with `StopNode` or an
empty map (`ok`), or with an exception.  Simplified: the loop and `handle_close` leave the router alone and
`handle_close` returns. -/
def serveForever (w : World) (listen : Bool) (port : Int) (lan : String) (loop : Py Unit) : Run :=
  if listen then
    match addPortmap w port lan with
    | .error e => ⟨false, w.table, w, .error e⟩
    | .ok w' => ⟨true, w'.table, removePortmap w' port, loop⟩
  else ⟨true, w.table, w, loop⟩

end NBC.Portmap
