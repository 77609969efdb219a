import Verif.Model.Node

/-!
# Comparing connections, `connection.py:222-226`

Objects are the numbers of `Node.conns`; two are identical if their numbers are.
-/

namespace NBC.P2P
open NBC

/-- `Connection.__eq__`, `connection.py:225-226`: `return self == other`, which calls the method again.  `limit` is the
number of calls the interpreter lets nest (`RecursionError` in Python 3, a `RuntimeError` in Python 2: one constructor
here). -/
def connEq : (limit : Nat) → (a b : Nat) → Py Bool
  | 0, _, _ => .error .recursionError
  | limit + 1, a, b => connEq limit a b

/-- `a == b` inside a container: Python compares by identity first. For `nbc/node/connection.py:225-226`. -/
def sameOrEq (limit : Nat) (a b : Nat) : Py Bool := if a = b then .ok true else connEq limit a b

/-- `peer in peers` for a list; for `nbc/node/connection.py:225-226` -/
def inList (limit : Nat) (peer : Nat) : List Nat → Py Bool
  | [] => .ok false
  | p :: ps => do
    if ← sameOrEq limit p peer then .ok true else inList limit peer ps

/-- `peer in s` for a set, or the keys of a dictionary: the entries that the lookup meets, in the order in which it
meets them; those with another hash are passed over.  The hash is that of the address, `connection.py:222-223`; `hash`
is Python's. -/
def inSet (limit : Nat) (hash : Addr → Int) (n : Node) (peer : Nat) : List Nat → Py Bool
  | [] => .ok false
  | p :: ps => do
    if p = peer then .ok true
    else if ((n.conns[p]?).map (fun k => hash k.address)) = ((n.conns[peer]?).map (fun k => hash k.address)) then
      if ← connEq limit p peer then .ok true else inSet limit hash n peer ps
    else inSet limit hash n peer ps

end NBC.P2P
