import Verif.Model.LogText

/-!
# What is written to the log

The characters of `str(message)` and `message._debug()` (`nbc/protocol/format.py:108-152,181-182,255-256,344-345,373-374,
402-403`, `nbc/protocol/messages.py:16-41` and the methods there), of `invalid_command` (`nbc/node/basenode.py:144-145`) and
of `BaseNode.log` (`nbc/node/basenode.py:118-125`).  `Model/LogText` says whether a text can be made, this file which.

Simplified: text is a list of characters; a byte string of Python 2 is shown as the characters of the same numbers
(latin-1).  Values that no received message holds (floats, `None`, a list or an object in place of a number) are shown as
`?`; the `True` of an absent field `relay` is shown as the number 1.  Tracebacks (`connection.py:155,174`) are not modelled.
-/

namespace NBC.Proto
open NBC.Aes (PyVer)

/-- Text of a literal; for `nbc/protocol/format.py:402-403`, `nbc/protocol/format.py:110-111` -/
def lit (s : String) : List Char := s.toList

/-- A decimal number: `str(i)`, `'%d' % i`;
for `nbc/protocol/format.py:126-127,255-256`, `nbc/protocol/messages.py:25-38` -/
def decText (i : Int) : List Char :=
  if i < 0 then '-' :: Nat.toDigits 10 i.natAbs else Nat.toDigits 10 i.natAbs

/-- `\xhh`; for `nbc/protocol/format.py:373-374` -/
def hexEscape (n : Nat) : List Char :=
  ['\\', 'x', Nat.digitChar (n / 16 % 16), Nat.digitChar (n % 16)]

/-- The quote `repr` chooses: a double quote if there are single quotes and no double ones.
For `nbc/protocol/format.py:373-374`. -/
def reprQuote (s : List Char) : Char := if '\'' ∈ s ∧ '"' ∉ s then '"' else '\''

/-- A character in `repr`: `plain` says which characters from 127 on are shown as they are.
For `nbc/protocol/format.py:373-374`. -/
def reprChar (plain : Char → Bool) (q c : Char) : List Char :=
  if c = q ∨ c = '\\' then ['\\', c]
  else if c = '\t' then ['\\', 't']
  else if c = '\n' then ['\\', 'n']
  else if c = '\r' then ['\\', 'r']
  else if c.toNat < 32 then hexEscape c.toNat
  else if c.toNat < 127 then [c]
  else if plain c then [c]
  else hexEscape c.toNat

/-- `repr` of the characters of a string (those below 256); for `nbc/protocol/format.py:373-374` -/
def reprWith (plain : Char → Bool) (s : List Char) : List Char :=
  reprQuote s :: (s.flatMap (reprChar plain (reprQuote s)) ++ [reprQuote s])

/-- `repr` of `bytes` (Python 3: with a `b` before it);
for `nbc/protocol/format.py:373-374`, `nbc/protocol/messages.py:87,97,103` -/
def reprBytes (ver : PyVer) (b : Bytes) : List Char :=
  match ver with
  | .py2 => reprWith (fun _ => false) (latin1Decode b)
  | .py3 => 'b' :: reprWith (fun _ => false) (latin1Decode b)

/-- `repr` of what `decode('latin-1')` returns: in Python 2 `unicode`, with a `u` before it; in Python 3 the printable
characters of latin-1 are shown as they are (`str.isprintable`: from U+00A1 on, without the soft hyphen).
For `nbc/protocol/messages.py:87,97,103`. -/
def reprUnicode (ver : PyVer) (s : List Char) : List Char :=
  match ver with
  | .py2 => 'u' :: reprWith (fun _ => false) s
  | .py3 => reprWith (fun c => decide (161 ≤ c.toNat ∧ c.toNat ≠ 173)) s

/-- What a `str` method returns: text, or (in Python 3) `bytes`. For `nbc/protocol/format.py:108-131`. -/
inductive Shown where
  | text (t : List Char)
  | bytes (b : Bytes)

/-- What is returned for a byte string: it is text in Python 2. For `nbc/protocol/format.py:108-131`. -/
def shownBytes (ver : PyVer) (b : Bytes) : Shown :=
  match ver with
  | .py2 => .text (latin1Decode b)
  | .py3 => .bytes b

/-- `'%s' % x`; for `nbc/protocol/format.py:108-131` -/
def percentS (ver : PyVer) : Shown → List Char
  | .text t => t
  | .bytes b => reprBytes ver b

/-- `str(b)` of a byte string; for `nbc/protocol/format.py:108-131` -/
def strOfBytes (ver : PyVer) (b : Bytes) : List Char := percentS ver (shownBytes ver b)

/-- A `str` method, with its text. For `nbc/protocol/format.py:108-131`. -/
abbrev TextFn := Val → Py Shown

/-- `FormatType.str`, `FtVarInteger.str`, `nbc/protocol/format.py:126-127,255-256`: of a number or the text of an address -/
def textPlain (ver : PyVer) : TextFn
  | .int i => .ok (.text (decText i))
  | .str s => .ok (.text s)
  | .bytes b => .ok (.text (strOfBytes ver b))
  | _ => .ok (.text ['?'])

/-- `FtVarString.str`, `nbc/protocol/format.py:373-374` -/
def textRepr (ver : PyVer) : TextFn
  | .bytes b => .ok (.text (reprBytes ver b))
  | .str s => .ok (.text (reprWith (fun c => decide (161 ≤ c.toNat ∧ c.toNat ≠ 173)) s))
  | _ => .ok (.text ['?'])

/-- `FtBytes.str`, `nbc/protocol/format.py:344-345` -/
def textBytes (ver : PyVer) : TextFn
  | .bytes b => .ok (shownBytes ver ([48, 120] ++ hexlify b))
  | _ => .error .typeError

/-- `", ".join(..)` and `" ".join(..)` of texts; for `nbc/protocol/format.py:402-403`, `nbc/protocol/format.py:108-112` -/
def joinWith (sep : List Char) : List (List Char) → List Char
  | [] => []
  | [x] => x
  | x :: y :: l => x ++ sep ++ joinWith sep (y :: l)

/-- The texts among what is joined; `bytes` raises `TypeError`.
For `nbc/protocol/format.py:402-403`, `nbc/protocol/messages.py:410-411`. -/
def onlyText : List Shown → Py (List (List Char))
  | [] => .ok []
  | .text t :: l => do
    let ts ← onlyText l
    .ok (t :: ts)
  | .bytes _ :: _ => .error .typeError

/-- `FtArray.str`, `nbc/protocol/format.py:402-403` -/
def textArray (child : TextFn) : TextFn
  | .tuple l => do
    let ks ← l.mapM child
    let ts ← onlyText ks
    .ok (.text ('[' :: (joinWith (lit ", ") ts ++ [']'])))
  | _ => .error .typeError

/-- The loop of `CompoundType.__str__`, `nbc/protocol/format.py:110-111` -/
def fieldTexts (ver : PyVer) : List (String × TextFn) → List (String × Val) → Py (List (List Char))
  | [], _ => .ok []
  | (key, s) :: ps, fields => do
    let v ← getField fields key
    let x ← s v
    let l ← fieldTexts ver ps fields
    .ok ((lit key ++ '=' :: percentS ver x) :: l)

/-- `CompoundType.__str__`, `nbc/protocol/format.py:108-112` -/
def compText (ver : PyVer) (name : String) (ps : List (String × TextFn)) (fields : List (String × Val)) : Py (List Char) := do
  let l ← fieldTexts ver ps fields
  .ok ('<' :: (joinWith [' '] (lit name :: l) ++ ['>']))

/-- `FtCompoundType.str`, `nbc/protocol/format.py:150-152`; the class of the object is that of the field. -/
def textObject (ver : PyVer) (name : String) (ps : List (String × TextFn)) : TextFn
  | .obj _ fields => do
    let t ← compText ver name ps fields
    .ok (.text t)
  | _ => .ok (.text ['?'])

/-- `NetworkAddress`, `nbc/protocol/format.py:408-414` -/
def networkAddressText (ver : PyVer) : List (String × TextFn) :=
  [("timestamp", textPlain ver), ("services", textPlain ver), ("address", textPlain ver), ("port", textPlain ver)]

/-- `InventoryVector`, `nbc/protocol/format.py:428-432` -/
def inventoryVectorText (ver : PyVer) : List (String × TextFn) := [("object_type", textPlain ver), ("hash", textBytes ver)]

/-- `OutPoint`, `nbc/protocol/format.py:437-441` -/
def outPointText (ver : PyVer) : List (String × TextFn) := [("hash", textBytes ver), ("index", textPlain ver)]

/-- `TxnIn`, `nbc/protocol/format.py:454-459` -/
def txnInText (ver : PyVer) : List (String × TextFn) :=
  [("previous_output", textObject ver "OutPoint" (outPointText ver)), ("signature_script", textRepr ver),
    ("sequence", textPlain ver)]

/-- `TxnOut`, `nbc/protocol/format.py:464-468` -/
def txnOutText (ver : PyVer) : List (String × TextFn) := [("value", textPlain ver), ("pk_script", textRepr ver)]

/-- `Txn`, `nbc/protocol/format.py:473-479`, and `Transaction`, `nbc/protocol/messages.py:189-198` -/
def txnText (ver : PyVer) : List (String × TextFn) :=
  [("version", textPlain ver), ("tx_in", textArray (textObject ver "TxnIn" (txnInText ver))),
    ("tx_out", textArray (textObject ver "TxnOut" (txnOutText ver))), ("lock_time", textPlain ver)]

/-- The first six fields of `BlockHeader`, `Block` and `MerkleBlock`, `nbc/protocol/format.py:491-497`,
`nbc/protocol/messages.py:206-212,305-311` -/
def headerText (ver : PyVer) : List (String × TextFn) :=
  [("version", textPlain ver), ("prev_block", textBytes ver), ("merkle_root", textBytes ver), ("timestamp", textPlain ver),
    ("bits", textPlain ver), ("nonce", textPlain ver)]

/-- `BlockHeader`, `nbc/protocol/format.py:490-499` -/
def blockHeaderText (ver : PyVer) : List (String × TextFn) := headerText ver ++ [("txn_count", textPlain ver)]

/-- The name of the class with this command, `nbc/protocol/messages.py:117-317` -/
def className (command : String) : String :=
  if command = "version" then "Version" else if command = "verack" then "VersionAck"
  else if command = "addr" then "Address" else if command = "inv" then "Inventory"
  else if command = "getdata" then "GetData" else if command = "notfound" then "NotFound"
  else if command = "getblocks" then "GetBlocks" else if command = "getheaders" then "GetHeaders"
  else if command = "tx" then "Transaction" else if command = "block" then "Block"
  else if command = "headers" then "Headers" else if command = "getaddr" then "GetAddress"
  else if command = "mempool" then "MemoryPool" else if command = "ping" then "Ping"
  else if command = "pong" then "Pong" else if command = "reject" then "Reject"
  else if command = "filterload" ∨ command = "filteradd" then "FilterLoad"
  else if command = "filterclear" then "FilterClear" else if command = "merkleblock" then "MerkleBlock"
  else "Alert"

/-- The `str` methods of the fields of a message class, `nbc/protocol/messages.py:117-315`. -/
def msgTextFns (ver : PyVer) (command : String) : List (String × TextFn) :=
  if command = "version" then
    [("version", textPlain ver), ("services", textPlain ver), ("timestamp", textPlain ver),
      ("addr_recv", textObject ver "NetworkAddress" (networkAddressText ver)),
      ("addr_from", textObject ver "NetworkAddress" (networkAddressText ver)),
      ("nonce", textBytes ver), ("user_agent", textRepr ver), ("start_height", textPlain ver), ("relay", textPlain ver)]
  else if command = "addr" then [("addr_list", textArray (textObject ver "NetworkAddress" (networkAddressText ver)))]
  else if command = "inv" ∨ command = "getdata" ∨ command = "notfound" then
    [("inventory", textArray (textObject ver "InventoryVector" (inventoryVectorText ver)))]
  else if command = "getblocks" ∨ command = "getheaders" then
    [("version", textPlain ver), ("block_locator_hashes", textArray (textBytes ver)), ("hash_stop", textBytes ver)]
  else if command = "tx" then txnText ver
  else if command = "block" then headerText ver ++ [("txns", textArray (textObject ver "Txn" (txnText ver)))]
  else if command = "headers" then [("headers", textArray (textObject ver "BlockHeader" (blockHeaderText ver)))]
  else if command = "ping" ∨ command = "pong" then [("nonce", textBytes ver)]
  else if command = "reject" then [("message", textRepr ver), ("ccode", textPlain ver), ("reason", textRepr ver)]
  else if command = "filterload" then
    [("filter", textArray (textPlain ver)), ("n_hashes_func", textPlain ver), ("n_tweak", textPlain ver),
      ("n_flags", textPlain ver)]
  else if command = "filteradd" then [("data", textRepr ver)]
  else if command = "merkleblock" then
    headerText ver ++ [("total_transactions", textPlain ver), ("hashes", textArray (textBytes ver)),
      ("flags", textArray (textPlain ver))]
  else []

/-- `'%d' % v`; for `nbc/protocol/messages.py:410-411` -/
def percentD : Val → Py (List Char)
  | .int i => .ok (decText i)
  | _ => .error .typeError

/-- The elements of a list; for `nbc/protocol/messages.py:410-411` -/
def elementsOf : Val → Py (List Val)
  | .tuple l => .ok l
  | _ => .error .typeError

/-- `%r` of an entry of an alert; for `nbc/protocol/messages.py:410-411` -/
def percentR (ver : PyVer) : Val → Py (List Char)
  | .bytes b => .ok (reprBytes ver b)
  | _ => .error .typeError

/-- An entry of `set_sub_ver`, as it is joined; for `nbc/protocol/messages.py:410-411` -/
def subText (ver : PyVer) : TextFn
  | .bytes b => .ok (shownBytes ver b)
  | _ => .error .typeError

/-- `str(i)` for the numbers of `set_cancel`; for `nbc/protocol/messages.py:410-411` -/
def cancelTexts (l : List Val) : Py (List (List Char)) := l.mapM percentD

/-- `Alert.__str__`, `nbc/protocol/messages.py:410-411` -/
def alertText (ver : PyVer) (fields : List (String × Val)) : Py (List Char) := do
  let p ← getField fields "payload"
  let payload ← payloadBytes p
  let r := alertGet payload [] "version"
  let _ ← r.2
  let d := r.1
  let num (k : String) : Py (List Char) := do percentD (← getField d k)
  let rep (k : String) : Py (List Char) := do percentR ver (← getField d k)
  let version ← num "version"
  let relay ← num "relay_until"
  let expiration ← num "expiration"
  let ident ← num "id"
  let cancel ← num "cancel"
  let cs ← getField d "set_cancel"
  let cs ← elementsOf cs
  let cs ← cancelTexts cs
  let minVer ← num "min_ver"
  let maxVer ← num "max_ver"
  let ss ← getField d "set_sub_ver"
  let ss ← elementsOf ss
  let ss ← ss.mapM (subText ver)
  let ss ← onlyText ss
  let priority ← num "priority"
  let comment ← rep "comment"
  let status ← rep "status_bar"
  let reserved ← rep "reserved"
  .ok (lit "<message.Alert version=" ++ version ++ lit " relay_until=" ++ relay ++ lit " expiration=" ++ expiration ++
    lit " id=" ++ ident ++ lit " cancel=" ++ cancel ++ lit " cancel_set=[" ++ joinWith (lit ", ") cs ++ lit "] min_ver=" ++
    minVer ++ lit " maxver=" ++ maxVer ++ lit " set_sub_ver=[" ++ joinWith (lit ", ") ss ++ lit "] priority=" ++ priority ++
    lit " comment=" ++ comment ++ lit " status_bar=" ++ status ++ lit " reserverd=" ++ reserved ++ lit ">")

/-- `str(message)`; for `nbc/node/connection.py:187-191` -/
def msgText (ver : PyVer) (m : Msg) : Py (List Char) :=
  if m.command = "alert" then alertText ver m.fields
  else compText ver (className m.command) (msgTextFns ver m.command) m.fields

/-- `if v:`, `nbc/protocol/messages.py:24` -/
def truthy : Val → Bool
  | .none => false
  | .int i => decide (i ≠ 0)
  | .float m _ => decide (m ≠ 0)
  | .nonfinite => true
  | .bytes b => decide (b ≠ [])
  | .str s => decide (s ≠ [])
  | .tuple l => !l.isEmpty
  | .obj _ _ => true

/-- `['error', 'tx', 'block'][v.object_type]` and `'unknown'`, `nbc/protocol/messages.py:28-30` -/
def objectTypeText : Val → Py (List Char)
  | .int i =>
    if i ≤ 2 then
      if i = 0 ∨ i = -3 then .ok (lit "error")
      else if i = 1 ∨ i = -2 then .ok (lit "tx")
      else if i = 2 ∨ i = -1 then .ok (lit "block")
      else .error .indexError
    else .ok (lit "unknown")
  | _ => .error .typeError

/-- `hexlify(v)`; for `nbc/protocol/messages.py:25-38` -/
def hexText (ver : PyVer) : Val → Py (List Char)
  | .bytes b => .ok (strOfBytes ver (hexlify b))
  | _ => .error .typeError

/-- The text of one value that is true, `nbc/protocol/messages.py:25-38` -/
def debugValueText (ver : PyVer) (H : Hashes) : Val → Py (List Char)
  | .obj cls fields =>
    if cls = "NetworkAddress" then do
      let a ← getField fields "address"
      let p ← getField fields "port"
      let i ← toInt p
      match a with
      | .str s => .ok (s ++ ':' :: decText i)
      | _ => .ok (lit "?:" ++ decText i)
    else if cls = "InventoryVector" then do
      let o ← getField fields "object_type"
      let t ← objectTypeText o
      let h ← getField fields "hash"
      let x ← hexText ver h
      .ok (t ++ ':' :: x)
    else if cls = "Txn" then do
      let b ← compBinary txn.props fields
      .ok (strOfBytes ver (hexlify (H.sha256d b)))
    else if cls = "BlockHeader" then do
      let b ← Util.blockHash H fields
      .ok (strOfBytes ver (hexlify b))
    else if cls = "TxnIn" then compText ver "TxnIn" (txnInText ver) fields
    else if cls = "TxnOut" then compText ver "TxnOut" (txnOutText ver) fields
    else .ok ['?']
  | .int i => .ok (decText i)
  | .bytes b => .ok (strOfBytes ver b)
  | .str s => .ok s
  | _ => .ok ['?']

/-- `if v: .. message.append('%s=%s' % (k,text))`, `nbc/protocol/messages.py:24-39` -/
def debugItem (ver : PyVer) (H : Hashes) (k : List Char) (v : Val) : Py (List (List Char)) :=
  if truthy v then do
    let t ← debugValueText ver H v
    .ok [k ++ '=' :: t]
  else .ok []

/-- One round of the loop, `nbc/protocol/messages.py:18-39` -/
def debugParam (ver : PyVer) (H : Hashes) (k : String) : Val → Py (List (List Char))
  | .tuple [] => .ok [lit "len(" ++ lit k ++ lit ")=0"]
  | .tuple (v :: l) => do
    let r ← debugItem ver H (lit k ++ lit "[0]") v
    .ok ((lit "len(" ++ lit k ++ lit ")=" ++ decText (l.length + 1)) :: r)
  | v => debugItem ver H (lit k) v

/-- The loop of `_debug`, `nbc/protocol/messages.py:18-39` -/
def debugItems (ver : PyVer) (H : Hashes) : List (String × Val) → Py (List (List Char))
  | [] => .ok []
  | (k, v) :: ps => do
    let x ← debugParam ver H k v
    let l ← debugItems ver H ps
    .ok (x ++ l)

/-- `_debug(obj, params)`, `nbc/protocol/messages.py:16-41` -/
def debugText (ver : PyVer) (H : Hashes) (name : String) (params : List (String × Val)) : Py (List Char) := do
  let l ← debugItems ver H params
  .ok (joinWith [' '] (('<' :: lit name) :: l) ++ ['>'])

/-- The parameters with these names, from the fields with these names.
For `nbc/protocol/messages.py:114-115,132-136,150-151,161-162,182-183,200-201`. -/
def namedFields (fields : List (String × Val)) (keys : List (String × String)) : Py (List (String × Val)) :=
  keys.mapM (fun p => do
    let v ← getField fields p.2
    .ok (p.1, v))

/-- `hexlify(v)` as a value;
for `nbc/protocol/messages.py:183`, `nbc/protocol/messages.py:114-115,132-136,150-151,161-162,182-183,200-201` -/
def hexVal' : Val → Py Val
  | .bytes b => .ok (.bytes (hexlify b))
  | _ => .error .typeError

/-- `[hexlify(h) for h in v]`, `nbc/protocol/messages.py:183` -/
def hexVals : Val → Py Val
  | .tuple l => do
    let r ← l.mapM hexVal'
    .ok (.tuple r)
  | _ => .error .typeError

/-- The parameters each `_debug` method passes, `nbc/protocol/messages.py:114-115,132-136,150-151,161-162,182-183,200-201,
222-225,234-235,252-253,267-268,413-414` -/
def debugArgs (m : Msg) : Py (List (String × Val)) :=
  if m.command = "version" then
    namedFields m.fields [("v", "version"), ("s", "services"), ("ua", "user_agent"), ("sh", "start_height")]
  else if m.command = "addr" then namedFields m.fields [("a", "addr_list")]
  else if m.command = "inv" ∨ m.command = "getdata" ∨ m.command = "notfound" then
    namedFields m.fields [("i", "inventory")]
  else if m.command = "getblocks" ∨ m.command = "getheaders" then do
    let v ← getField m.fields "block_locator_hashes"
    let x ← hexVals v
    .ok [("blh", x)]
  else if m.command = "tx" then namedFields m.fields [("in", "tx_in"), ("out", "tx_out")]
  else if m.command = "block" then do
    let version ← getField m.fields "version"
    let prevBlock ← getField m.fields "prev_block"
    let merkleRoot ← getField m.fields "merkle_root"
    let timestamp ← getField m.fields "timestamp"
    let bits ← getField m.fields "bits"
    let nonce ← getField m.fields "nonce"
    let h ← Util.getBlockHeader version prevBlock merkleRoot timestamp bits nonce
    let l ← namedFields m.fields [("t", "txns")]
    .ok (("h", .bytes (hexlify h)) :: l)
  else if m.command = "headers" then namedFields m.fields [("h", "headers")]
  else if m.command = "ping" ∨ m.command = "pong" then do
    let v ← getField m.fields "nonce"
    let x ← hexVal' v
    .ok [("n", x)]
  else if m.command = "reject" then namedFields m.fields [("m", "message"), ("r", "reason")]
  else if m.command = "alert" then do
    let p ← getField m.fields "payload"
    let payload ← payloadBytes p
    let v ← (alertGet payload [] "status_bar").2
    .ok [("s", v)]
  else .ok []

/-- `message._debug()`; for `nbc/node/connection.py:187-191` -/
def msgDebugText (ver : PyVer) (H : Hashes) (m : Msg) : Py (List Char) := do
  let l ← debugArgs m
  debugText ver H (className m.command) l

/-- `message.name`, `nbc/protocol/messages.py:110-112` and the classes -/
def msgName (command : String) : String :=
  if command = "verack" then "version_ack" else if command = "addr" then "address"
  else if command = "inv" then "inventory" else if command = "getdata" then "get_data"
  else if command = "notfound" then "not_found" else if command = "getblocks" then "get_blocks"
  else if command = "getheaders" then "get_headers" else if command = "tx" then "transaction"
  else if command = "getaddr" then "get_address" else if command = "mempool" then "memory_pool"
  else if command = "filterload" then "filter_load" else if command = "filteradd" then "filter_add"
  else if command = "filterclear" then "filter_clear" else if command = "merkleblock" then "merkle_block"
  else command

/-- What is given to `log` for a received message, before it is handled, `nbc/node/connection.py:187-191` -/
def receivedText (ver : PyVer) (H : Hashes) (level : Int) (m : Msg) : Py (Option (List Char)) :=
  if level ≤ levelProtocol then do
    let t ← msgText ver m
    .ok (some (lit "<<< " ++ t))
  else if level ≤ levelDebug then do
    let t ← msgDebugText ver H m
    .ok (some (lit "<<< " ++ t))
  else .ok none

/-- The text of the exception of `Message.parse`, `nbc/protocol/messages.py:87,97,103` -/
def invalidText (ver : PyVer) (H : Hashes) (data magic : Bytes) : List Char :=
  if data.take 4 ≠ magic then lit "bad magic number"
  else match unpack .I false ((data.drop 16).take 4) with
    | .error _ => []
    | .ok length =>
      if (data.drop 20).take 4 ≠ checksum H ((data.drop 24).take length.toNat) then lit "bad checksum"
      else lit "command: " ++ reprUnicode ver (latin1Decode (stripZeros ((data.drop 4).take 12))) ++ lit " (" ++
        reprBytes ver data ++ lit ")"

/-- `LOG_LEVEL_INFO`, `nbc/node/basenode.py:29` -/
def levelInfo : Int := 2

/-- What `BaseNode.log` prints for a message, `nbc/node/basenode.py:118-125`; `source` is the address of the peer or `node`. -/
def logLine (source message : List Char) : List Char := '(' :: (source ++ lit ") " ++ message ++ ['\n'])

/-- The names of the methods `command_..` of the node, `nbc/node/basenode.py:315-343` -/
def handled : List String := ["version", "version_ack", "ping", "pong", "get_address", "address"]

/-- What is printed for one frame, up to a traceback, `nbc/node/connection.py:146-155,186-211` and
`nbc/node/basenode.py:144-145`, on a node with a log at this level: each entry is one call of `log`.  Of the calls after the
message is taken up only the one for a message without a method is modelled. -/
def frameLog (ver : PyVer) (H : Hashes) (level : Int) (source : List Char) (magic frame : Bytes) : List (List Char) :=
  match parseMessage H frame magic with
  | .ok m =>
    match receivedText ver H level m with
    | .error _ => []
    | .ok r =>
      r.toList.map (logLine source) ++
        if msgName m.command ∈ handled then []
        else [logLine source (lit "error: method not defined: command_" ++ lit (msgName m.command))]
  | .error e =>
    if (e = .unknownMsgError ∨ e = .msgFormatError) ∧ level ≤ levelInfo then
      [logLine (lit "node") (lit "invalid command: " ++ reprBytes ver frame ++ lit " (" ++ invalidText ver H frame magic ++
        lit ")")]
    else []

end NBC.Proto
