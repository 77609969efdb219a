import Verif.Model.Node
import Verif.Model.Alert
import Verif.Model.Util

/-!
# The texts of messages for the log

`str(message)` and `message._debug()` (`nbc/protocol/format.py:108-152,181-182,255-256,344-345,373-374,402-403`,
`nbc/protocol/messages.py:16-41` and the `_debug` methods there) and where the node asks for them
(`nbc/node/connection.py:187-191,214-218`).  Simplified: only whether a text can be made is modelled, not its
characters.
-/

namespace NBC.Proto
open NBC.Aes (PyVer)

/-- What the `str` method of a field type returns: text, or (in Python 3) `bytes`.
For `nbc/protocol/format.py:126-127,255-256,373-374`, `nbc/protocol/format.py:344-345`. -/
inductive TextKind where
  | text
  | bytes
  deriving DecidableEq

/-- A `str` method. For `nbc/protocol/format.py:126-127,255-256,373-374`, `nbc/protocol/format.py:344-345`. -/
abbrev StrFn := Val → Py TextKind

/-- `FormatType.str`, `FtVarInteger.str` and `FtVarString.str`, `nbc/protocol/format.py:126-127,255-256,373-374`:
`str` and `repr` of a number or a string. -/
def strPlain : StrFn := fun _ => .ok .text

/-- `FtBytes.str`, `nbc/protocol/format.py:344-345`; `bytes` is `str` in Python 2. -/
def strBytes (ver : PyVer) : StrFn
  | .bytes _ => .ok (match ver with | .py2 => .text | .py3 => .bytes)
  | _ => .error .typeError

/-- `", ".join(..)`; for `nbc/protocol/format.py:402-403`, `nbc/protocol/messages.py:410-411` -/
def joinText (ks : List TextKind) : Py Unit :=
  if TextKind.bytes ∈ ks then .error .typeError else .ok ()

/-- `FtArray.str`, `nbc/protocol/format.py:402-403` -/
def strArray (child : StrFn) : StrFn
  | .tuple l => do
    let ks ← l.mapM child
    joinText ks
    .ok .text
  | _ => .error .typeError

/-- `CompoundType.__str__`, `nbc/protocol/format.py:108-112`; `'%s' % b` is text for any object. -/
def compStr : List (String × StrFn) → List (String × Val) → Py Unit
  | [], _ => .ok ()
  | (key, s) :: ps, fields => do
    let v ← getField fields key
    let _ ← s v
    compStr ps fields

/-- `FtCompoundType.str`, `nbc/protocol/format.py:150-152` -/
def strObject (ps : List (String × StrFn)) : StrFn
  | .obj _ fields => do
    compStr ps fields
    .ok .text
  | _ => .ok .text

/-- `NetworkAddress`, `nbc/protocol/format.py:408-414` -/
def networkAddressStr : List (String × StrFn) :=
  [("timestamp", strPlain), ("services", strPlain), ("address", strPlain), ("port", strPlain)]

/-- `InventoryVector`, `nbc/protocol/format.py:428-432` -/
def inventoryVectorStr (ver : PyVer) : List (String × StrFn) :=
  [("object_type", strPlain), ("hash", strBytes ver)]

/-- `OutPoint`, `nbc/protocol/format.py:437-441` -/
def outPointStr (ver : PyVer) : List (String × StrFn) := [("hash", strBytes ver), ("index", strPlain)]

/-- `TxnIn`, `nbc/protocol/format.py:454-459` -/
def txnInStr (ver : PyVer) : List (String × StrFn) :=
  [("previous_output", strObject (outPointStr ver)), ("signature_script", strPlain), ("sequence", strPlain)]

/-- `TxnOut`, `nbc/protocol/format.py:464-468` -/
def txnOutStr : List (String × StrFn) := [("value", strPlain), ("pk_script", strPlain)]

/-- `Txn`, `nbc/protocol/format.py:473-479`, and `Transaction`, `nbc/protocol/messages.py:189-198` -/
def txnStr (ver : PyVer) : List (String × StrFn) :=
  [("version", strPlain), ("tx_in", strArray (strObject (txnInStr ver))),
    ("tx_out", strArray (strObject txnOutStr)), ("lock_time", strPlain)]

/-- The first six fields of `BlockHeader`, `Block` and `MerkleBlock`, `nbc/protocol/format.py:491-497`,
`nbc/protocol/messages.py:206-212,305-311` -/
def headerStr (ver : PyVer) : List (String × StrFn) :=
  [("version", strPlain), ("prev_block", strBytes ver), ("merkle_root", strBytes ver), ("timestamp", strPlain),
    ("bits", strPlain), ("nonce", strPlain)]

/-- `BlockHeader`, `nbc/protocol/format.py:490-499` -/
def blockHeaderStr (ver : PyVer) : List (String × StrFn) := headerStr ver ++ [("txn_count", strPlain)]

/-- The `str` methods of the fields of a message class, `nbc/protocol/messages.py:117-315`. -/
def msgStrFns (ver : PyVer) (command : String) : List (String × StrFn) :=
  if command = "version" then
    [("version", strPlain), ("services", strPlain), ("timestamp", strPlain),
      ("addr_recv", strObject networkAddressStr), ("addr_from", strObject networkAddressStr),
      ("nonce", strBytes ver), ("user_agent", strPlain), ("start_height", strPlain), ("relay", strPlain)]
  else if command = "addr" then [("addr_list", strArray (strObject networkAddressStr))]
  else if command = "inv" ∨ command = "getdata" ∨ command = "notfound" then
    [("inventory", strArray (strObject (inventoryVectorStr ver)))]
  else if command = "getblocks" ∨ command = "getheaders" then
    [("version", strPlain), ("block_locator_hashes", strArray (strBytes ver)), ("hash_stop", strBytes ver)]
  else if command = "tx" then txnStr ver
  else if command = "block" then headerStr ver ++ [("txns", strArray (strObject (txnStr ver)))]
  else if command = "headers" then [("headers", strArray (strObject (blockHeaderStr ver)))]
  else if command = "ping" ∨ command = "pong" then [("nonce", strBytes ver)]
  else if command = "reject" then [("message", strPlain), ("ccode", strPlain), ("reason", strPlain)]
  else if command = "filterload" then
    [("filter", strArray strPlain), ("n_hashes_func", strPlain), ("n_tweak", strPlain), ("n_flags", strPlain)]
  else if command = "filteradd" then [("data", strPlain)]
  else if command = "merkleblock" then
    headerStr ver ++ [("total_transactions", strPlain), ("hashes", strArray (strBytes ver)),
      ("flags", strArray strPlain)]
  else []

/-- The payload of an alert as `struct.unpack` wants it.
For `nbc/protocol/messages.py:410-411`, `nbc/protocol/messages.py:114-115,132-136,150-151,161-162,182-183,200-201,222-225,234-235`. -/
def payloadBytes : Val → Py Bytes
  | .bytes b => .ok b
  | _ => .error .typeError

/-- The strings in a list, as `", ".join` sees them. For `nbc/protocol/messages.py:410-411`. -/
def subVersions (ver : PyVer) : Val → Py (List TextKind)
  | .tuple l => l.mapM (strBytes ver)
  | _ => .error .typeError

/-- `Alert.__str__`, `nbc/protocol/messages.py:410-411`.  The first attribute that is read parses the payload, the
others are found in `_data` (C111). -/
def alertStr (ver : PyVer) (fields : List (String × Val)) : Py Unit := do
  let p ← getField fields "payload"
  let payload ← payloadBytes p
  let r := alertGet payload [] "version"
  let _ ← r.2
  let s ← getField r.1 "set_sub_ver"
  let ks ← subVersions ver s
  joinText ks

/-- `str(message)`; for `nbc/node/connection.py:187-191` -/
def msgStr (ver : PyVer) (m : Msg) : Py Unit :=
  if m.command = "alert" then alertStr ver m.fields else compStr (msgStrFns ver m.command) m.fields

/-- `hexlify(v)`; for `nbc/protocol/messages.py:24-39`, `nbc/protocol/messages.py:183` -/
def hexlifyOk : Val → Py Unit
  | .bytes _ => .ok ()
  | _ => .error .typeError

/-- `['error', 'tx', 'block'][object_type]` when it is at most 2, `nbc/protocol/messages.py:29-30` -/
def objectTypeOk : Val → Py Unit
  | .int i => if i ≤ 2 ∧ i < -3 then .error .indexError else .ok ()
  | _ => .error .typeError

/-- The text of one value, `nbc/protocol/messages.py:24-39`; no text is made of a value that is false, and making one
of a number or string does not raise. -/
def debugValue (ver : PyVer) : Val → Py Unit
  | .obj cls fields =>
    if cls = "NetworkAddress" then do
      let _ ← getField fields "address"
      let p ← getField fields "port"
      let _ ← toInt p
      .ok ()
    else if cls = "InventoryVector" then do
      let o ← getField fields "object_type"
      objectTypeOk o
      let h ← getField fields "hash"
      hexlifyOk h
    else if cls = "Txn" then do
      let _ ← compBinary txn.props fields
      .ok ()
    else if cls = "BlockHeader" then do
      let _ ← compBinary blockHeader.props fields
      .ok ()
    else if cls = "TxnIn" then compStr (txnInStr ver) fields
    else if cls = "TxnOut" then compStr txnOutStr fields
    else .ok ()
  | _ => .ok ()

/-- `_debug(obj, params)`, `nbc/protocol/messages.py:16-41`: of a list only the first element is shown. -/
def debugParams (ver : PyVer) : List Val → Py Unit
  | [] => .ok ()
  | .tuple [] :: vs => debugParams ver vs
  | .tuple (v :: _) :: vs => do
    debugValue ver v
    debugParams ver vs
  | v :: vs => do
    debugValue ver v
    debugParams ver vs

/-- `[hexlify(h) for h in v]`, `nbc/protocol/messages.py:183` -/
def hexlifyAll : Val → Py Unit
  | .tuple l => do
    let _ ← l.mapM hexlifyOk
    .ok ()
  | _ => .error .typeError

/-- The fields with these names, in order.
For `nbc/protocol/messages.py:114-115,132-136,150-151,161-162,182-183,200-201,222-225,234-235`. -/
def getFields (fields : List (String × Val)) (keys : List String) : Py (List Val) := keys.mapM (getField fields)

/-- `message._debug()`, `nbc/protocol/messages.py:114-115,132-136,150-151,161-162,182-183,200-201,222-225,234-235,
252-253,267-268,413-414` -/
def msgDebug (ver : PyVer) (m : Msg) : Py Unit :=
  if m.command = "version" then do
    let vs ← getFields m.fields ["version", "services", "user_agent", "start_height"]
    debugParams ver vs
  else if m.command = "addr" then do
    let vs ← getFields m.fields ["addr_list"]
    debugParams ver vs
  else if m.command = "inv" ∨ m.command = "getdata" ∨ m.command = "notfound" then do
    let vs ← getFields m.fields ["inventory"]
    debugParams ver vs
  else if m.command = "getblocks" ∨ m.command = "getheaders" then do
    let v ← getField m.fields "block_locator_hashes"
    hexlifyAll v
  else if m.command = "tx" then do
    let vs ← getFields m.fields ["tx_in", "tx_out"]
    debugParams ver vs
  else if m.command = "block" then do
    let version ← getField m.fields "version"
    let prevBlock ← getField m.fields "prev_block"
    let merkleRoot ← getField m.fields "merkle_root"
    let timestamp ← getField m.fields "timestamp"
    let bits ← getField m.fields "bits"
    let nonce ← getField m.fields "nonce"
    let _ ← Util.getBlockHeader version prevBlock merkleRoot timestamp bits nonce
    let vs ← getFields m.fields ["txns"]
    debugParams ver vs
  else if m.command = "headers" then do
    let vs ← getFields m.fields ["headers"]
    debugParams ver vs
  else if m.command = "ping" ∨ m.command = "pong" then do
    let v ← getField m.fields "nonce"
    hexlifyOk v
  else if m.command = "reject" then do
    let vs ← getFields m.fields ["message", "reason"]
    debugParams ver vs
  else if m.command = "alert" then do
    let p ← getField m.fields "payload"
    let payload ← payloadBytes p
    let _ ← (alertGet payload [] "status_bar").2
    .ok ()
  else .ok ()

/-- `LOG_LEVEL_PROTOCOL`, `nbc/node/basenode.py:27` -/
def levelProtocol : Int := 0

/-- `LOG_LEVEL_DEBUG`, `nbc/node/basenode.py:28` -/
def levelDebug : Int := 1

/-- `nbc/node/connection.py:187-191` and `214-218`: the text is made even if there is no log (`_log is None`). -/
def logText (ver : PyVer) (level : Int) (m : Msg) : Py Unit :=
  if level ≤ levelProtocol then msgStr ver m
  else if level ≤ levelDebug then msgDebug ver m
  else .ok ()

end NBC.Proto

namespace NBC.P2P
open NBC NBC.Proto

/-- `Connection.handle_message`, `nbc/node/connection.py:186-211`, on a node with this log level -/
def Node.handleMessageLogged (H : Hashes) (level : Int) (n : Node) (c : Nat) (m : Msg) (now : Int) : Res :=
  match logText n.ver level m with
  | .error e => (n, some e)
  | .ok _ => n.handleMessage H c m now

/-- `Connection.send_message`, `nbc/node/connection.py:213-220`, on a node with this log level -/
def Node.sendMessageLogged (H : Hashes) (level : Int) (n : Node) (c : Nat) (t : MsgType)
    (fields : List (String × Val)) : Res :=
  match logText n.ver level { command := t.command, fields := fields } with
  | .error e => (n, some e)
  | .ok _ => n.sendMessage H c t fields

/-- One frame, `nbc/node/connection.py:146-154`, on a node with this log level -/
def Node.handleFrameLogged (H : Hashes) (level : Int) (c : Nat) (now : Int) (n : Node) (frame : Bytes) : Node :=
  match parseMessage H frame n.magic with
  | .error _ => n
  | .ok m => (n.handleMessageLogged H level c m now).1

end NBC.P2P
