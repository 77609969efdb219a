import Verif.Model.Messages
import Verif.Model.Util

/-!
# Methods of the objects of `nbc/protocol/format.py` and `messages.py`
-/

namespace NBC.Proto

/-- `a == b` for two byte strings; other values do not occur in the fields compared here and are unequal.
For `nbc/protocol/format.py:446-449`. -/
def sameBytes : Val → Val → Bool
  | .bytes a, .bytes b => decide (a = b)
  | _, _ => false

/-- `OutPoint.__eq__`, `nbc/protocol/format.py:446-449`; `and` does not look at the index when the hashes
differ, and looking at it is a `NameError` (`otehr`). -/
def outPointEq (self : List (String × Val)) (other : Val) : Py Bool :=
  match other with
  | .obj cls fields =>
    if cls ≠ outPoint.name then .ok false
    else do
      let h ← getField self "hash"
      let h' ← getField fields "hash"
      if sameBytes h h' then .error .nameError else .ok false
  | _ => .ok false

/-- The property `hash` of `Txn` and `BlockHeader`, `nbc/protocol/format.py:481-485,507-511`, with the cache:
`cut` is `[:80]` for headers.  The result is `_properties` afterwards and the value. -/
def hashProperty (H : Hashes) (c : Cls) (cut : Bytes → Bytes) (fields : List (String × Val)) :
    List (String × Val) × Py Val :=
  match fields.find? (fun p => p.1 = "__hash") with
  | some p => (fields, .ok p.2)
  | none =>
    match compBinary c.props fields with
    | .error e => (fields, .error e)
    | .ok b => (fields ++ [("__hash", .bytes (H.sha256d (cut b)))], .ok (.bytes (H.sha256d (cut b))))

/-- What can be done with such an object: read its hash, or serialise it. For `nbc/protocol/format.py:481-485,507-511`. -/
inductive Use where
  | hash
  | binary

/-- A sequence of uses of an object, with their results. For `nbc/protocol/format.py:481-485,507-511`. -/
def uses (H : Hashes) (c : Cls) (cut : Bytes → Bytes) : List (String × Val) → List Use → List (Py Val)
  | _, [] => []
  | fields, .hash :: us =>
    let (fields', v) := hashProperty H c cut fields
    v :: uses H c cut fields' us
  | fields, .binary :: us => (compBinary c.props fields).map Val.bytes :: uses H c cut fields us

/-- The attributes of a block that the two `from_block` read.
For `nbc/protocol/format.py:501-505`, `nbc/protocol/messages.py:216-220`. -/
structure BlockAttrs where
  version : Val
  previousHash : Val
  merkleRoot : Val
  timestamp : Val
  bits : Val
  nonce : Val
  transactions : List Val

/-- `BlockHeader.from_block`, `nbc/protocol/format.py:501-505` -/
def headerFromBlock (a : BlockAttrs) : Py (List (String × Val)) :=
  compInit blockHeader.props
    [a.version, a.previousHash, a.merkleRoot, a.timestamp, a.bits, a.nonce, .int a.transactions.length] []

/-- `Block.from_block`, `nbc/protocol/messages.py:216-220` -/
def messageFromBlock (a : BlockAttrs) : Py (List (String × Val)) :=
  compInit msgBlock.props
    [a.version, a.previousHash, a.merkleRoot, a.timestamp, a.bits, a.nonce, .tuple a.transactions] []

end NBC.Proto
