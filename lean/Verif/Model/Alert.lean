import Verif.Model.Messages

/-!
# `Alert._parse_and_get`, `nbc/protocol/messages.py:348-399`
-/

namespace NBC.Proto

/-- `struct.unpack('<' + formats, d)` with names for the values: `struct.error` unless the length of `d` is
that of the formats. For `nbc/protocol/messages.py:359-397`. -/
def unpackNames : List (String × Fmt) → Bytes → Py (List (String × Val))
  | [], [] => .ok []
  | [], _ :: _ => .error .structError
  | (k, f) :: fs, d => do
    let v ← unpack f false (d.take f.size)
    let r ← unpackNames fs (d.drop f.size)
    .ok ((k, .int v) :: r)

/-- One paragraph of `_parse_and_get`: from the data at the offset to new entries of `_data` and the number of
bytes taken. For `nbc/protocol/messages.py:359-397`. -/
abbrev AlertStep := Bytes → Py (List (String × Val) × Nat)

/-- `struct.unpack` of a slice of the size of the formats. For `nbc/protocol/messages.py:359-397`. -/
def numbersStep (fs : List (String × Fmt)) : AlertStep := fun data => do
  let n := (fs.map (fun p => p.2.size)).sum
  let r ← unpackNames fs (data.take n)
  .ok (r, n)

/-- `format.parse_var_set(data[offset:], kind)`; the list is a `tuple` here. For `nbc/protocol/messages.py:359-397`. -/
def setStep (k : String) (kind : FType) : AlertStep := fun data => do
  let (vl, s) ← parseVarSet data kind
  .ok ([(k, .tuple s)], vl)

/-- `format.FtVarString.parse(data[offset:])`; for `nbc/protocol/messages.py:359-397` -/
def stringStep (k : String) : AlertStep := fun data => do
  let (vl, s) ← varStringParse data
  .ok ([(k, .bytes s)], vl)

/-- `nbc/protocol/messages.py:359-397`, paragraph by paragraph. -/
def alertSteps : List AlertStep :=
  [numbersStep [("version", .i), ("relay_until", .q), ("expiration", .q), ("id", .i), ("cancel", .i)],
   setStep "set_cancel" (ftNumber .i),
   numbersStep [("min_ver", .i), ("max_ver", .i)],
   setStep "set_sub_ver" ftVarString,
   numbersStep [("priority", .i)],
   stringStep "comment",
   stringStep "status_bar",
   stringStep "reserved"]

/-- Running the paragraphs: what is in `_data` afterwards, and the exception that ended them, if any.
For `nbc/protocol/messages.py:348-399`. -/
def alertFill : List AlertStep → Bytes → List (String × Val) × Option PyErr
  | [], _ => ([], none)
  | s :: ss, data =>
    match s data with
    | .error e => ([], some e)
    | .ok (d, n) =>
      let (ds, r) := alertFill ss (data.drop n)
      (d ++ ds, r)

/-- `Alert._parse_and_get(name)`, `nbc/protocol/messages.py:348-399`: `cache` is `self._data` (empty when there
is none yet); the result is `self._data` afterwards and the value. -/
def alertGet (payload : Bytes) (cache : List (String × Val)) (name : String) :
    List (String × Val) × Py Val :=
  match cache with
  | _ :: _ => (cache, getField cache name)
  | [] =>
    match alertFill alertSteps payload with
    | (d, some e) => (d, .error e)
    | (d, none) => (d, getField d name)

/-- Reading attributes one after the other. For `nbc/protocol/messages.py:333-345`. -/
def alertReads (payload : Bytes) : List (String × Val) → List String → List (Py Val)
  | _, [] => []
  | cache, k :: ks =>
    let (cache', v) := alertGet payload cache k
    v :: alertReads payload cache' ks

end NBC.Proto
