import Verif.Model.Format

/-!
# `nbc/protocol/messages.py`: messages, their registration, framing
-/

namespace NBC.Proto

/-- A message class: its `command` and `properties`. For `nbc/protocol/messages.py:46-62`. -/
structure MsgType where
  command : String
  props : Props

/-- `Version`, `nbc/protocol/messages.py:117-130` -/
def msgVersion : MsgType where
  command := "version"
  props := [("version", ftNumber .i), ("services", ftNumber .Q),
    ("timestamp", ftNumber .q (allowFloat := true)), ("addr_recv", ftNetworkAddressNoTimestamp),
    ("addr_from", ftNetworkAddressNoTimestamp), ("nonce", ftBytes 8), ("user_agent", ftVarString),
    ("start_height", ftNumber .i), ("relay", ftOptional (ftNumber .B) (.int 1))]

/-- `VersionAck`, `nbc/protocol/messages.py:138-140` -/
def msgVerack : MsgType := ⟨"verack", []⟩

/-- `Address`, `nbc/protocol/messages.py:142-148` -/
def msgAddr : MsgType := ⟨"addr", [("addr_list", ftArray ftNetworkAddress none (some 1000))]⟩

/-- The `properties` of `Inventory`, `nbc/protocol/messages.py:157-159`. -/
def invProps : Props := [("inventory", ftArray (ftCompound inventoryVector) none (some 50000))]

/-- `Inventory`, `nbc/protocol/messages.py:153-159` -/
def msgInv : MsgType := ⟨"inv", invProps⟩

/-- `GetData`, `nbc/protocol/messages.py:164-166` -/
def msgGetdata : MsgType := ⟨"getdata", invProps⟩

/-- `NotFound`, `nbc/protocol/messages.py:168-170` -/
def msgNotfound : MsgType := ⟨"notfound", invProps⟩

/-- The `properties` of `GetBlocks`, `nbc/protocol/messages.py:176-180`. -/
def getBlocksProps : Props :=
  [("version", ftNumber .I), ("block_locator_hashes", ftArray (ftBytes 32) (some 1) none),
    ("hash_stop", ftBytes 32)]

/-- `GetBlocks`, `nbc/protocol/messages.py:172-180` -/
def msgGetblocks : MsgType := ⟨"getblocks", getBlocksProps⟩

/-- `GetHeaders`, `nbc/protocol/messages.py:185-187` -/
def msgGetheaders : MsgType := ⟨"getheaders", getBlocksProps⟩

/-- `Transaction`, `nbc/protocol/messages.py:189-198` -/
def msgTx : MsgType := ⟨"tx", txn.props⟩

/-- `Block`, `nbc/protocol/messages.py:203-214` -/
def msgBlock : MsgType where
  command := "block"
  props := [("version", ftNumber .I), ("prev_block", ftBytes 32), ("merkle_root", ftBytes 32),
    ("timestamp", ftNumber .I (allowFloat := true)), ("bits", ftNumber .I), ("nonce", ftNumber .I),
    ("txns", ftArray (ftCompound txn) none none)]

/-- `Headers`, `nbc/protocol/messages.py:227-232` -/
def msgHeaders : MsgType := ⟨"headers", [("headers", ftArray (ftCompound blockHeader) none none)]⟩

/-- `GetAddress`, `nbc/protocol/messages.py:237-239` -/
def msgGetaddr : MsgType := ⟨"getaddr", []⟩

/-- `MemoryPool`, `nbc/protocol/messages.py:241-243` -/
def msgMempool : MsgType := ⟨"mempool", []⟩

/-- `Ping`, `nbc/protocol/messages.py:245-250` -/
def msgPing : MsgType := ⟨"ping", [("nonce", ftBytes 8)]⟩

/-- `Pong`, `nbc/protocol/messages.py:255-256` -/
def msgPong : MsgType := ⟨"pong", [("nonce", ftBytes 8)]⟩

/-- `Reject`, `nbc/protocol/messages.py:258-265` -/
def msgReject : MsgType :=
  ⟨"reject", [("message", ftVarString), ("ccode", ftNumber .B), ("reason", ftVarString)]⟩

/-- The first `FilterLoad`, `nbc/protocol/messages.py:270-281` -/
def msgFilterload : MsgType :=
  ⟨"filterload", [("filter", ftArray (ftNumber .B) none none), ("n_hashes_func", ftNumber .I),
    ("n_tweak", ftNumber .I), ("n_flags", ftNumber .B)]⟩

/-- The second `FilterLoad`, `nbc/protocol/messages.py:283-291` -/
def msgFilteradd : MsgType := ⟨"filteradd", [("data", ftVarString)]⟩

/-- `FilterClear`, `nbc/protocol/messages.py:293-297` -/
def msgFilterclear : MsgType := ⟨"filterclear", []⟩

/-- `MerkleBlock`, `nbc/protocol/messages.py:299-315` -/
def msgMerkleblock : MsgType where
  command := "merkleblock"
  props := [("version", ftNumber .I), ("prev_block", ftBytes 32), ("merkle_root", ftBytes 32),
    ("timestamp", ftNumber .I (allowFloat := true)), ("bits", ftNumber .I), ("nonce", ftNumber .I),
    ("total_transactions", ftNumber .I), ("hashes", ftArray (ftBytes 32) none none),
    ("flags", ftArray (ftNumber .b) none none)]

/-- `Alert`, `nbc/protocol/messages.py:317-323` -/
def msgAlert : MsgType := ⟨"alert", [("payload", ftVarString), ("signature", ftVarString)]⟩

/-- `Message.MessageTypes`, `nbc/protocol/messages.py:73-77`.  The metaclass
(`nbc/protocol/format.py:51-55`) looks at `not_regist` of the *base* class, which is `False` for
`Message` and `VersionAck`, so the classes that set `not_regist = True` are registered as well. -/
def registry : List MsgType :=
  [msgVersion, msgVerack, msgAddr, msgInv, msgGetdata, msgNotfound, msgGetblocks, msgGetheaders, msgTx,
    msgBlock, msgHeaders, msgGetaddr, msgMempool, msgPing, msgPong, msgReject, msgFilterload,
    msgFilteradd, msgFilterclear, msgMerkleblock, msgAlert]

/-- `cls.MessageTypes.get(command)`, `nbc/protocol/messages.py:101` -/
def lookup (command : List Char) : Option MsgType :=
  registry.find? (fun t => t.command.toList = command)

/-- A message object: its class (by command) and its `_properties`. For `nbc/protocol/messages.py:46-112`. -/
structure Msg where
  command : String
  fields : List (String × Val)

/-- The checksum of `nbc/protocol/messages.py:68,95`. -/
def checksum (H : Hashes) (payload : Bytes) : Bytes := (H.sha256 (H.sha256 payload)).take 4

/-- `nbc/protocol/messages.py:69-71` for a given payload. -/
def frame (H : Hashes) (command : String) (payload magic : Bytes) : Py Bytes := do
  let c ← latin1Encode command.toList
  let c := c ++ List.replicate (12 - c.length) 0
  let l ← pack .I false payload.length
  .ok (magic ++ c ++ l ++ checksum H payload ++ payload)

/-- `Message.binary`, `nbc/protocol/messages.py:66-71` -/
def MsgType.binary (H : Hashes) (t : MsgType) (fields : List (String × Val)) (magic : Bytes) :
    Py Bytes := do
  let payload ← compBinary t.props fields
  frame H t.command payload magic

/-- `Message.first_msg_len`, `nbc/protocol/messages.py:79-83` -/
def firstMsgLen (data : Bytes) : Py (Option Nat) :=
  if data.length < 20 then .ok none
  else do
    let l ← unpack .I false ((data.drop 16).take 4)
    .ok (some (l.toNat + 24))

/-- `b.strip(b'\x00')`; for `nbc/protocol/messages.py:85-108` -/
def stripZeros (b : Bytes) : Bytes := ((b.dropWhile (· = 0)).reverse.dropWhile (· = 0)).reverse

/-- `Message.parse`, `nbc/protocol/messages.py:85-108` -/
def parseMessage (H : Hashes) (data magic : Bytes) : Py Msg :=
  if data.take 4 ≠ magic then .error .msgFormatError
  else do
    let length ← unpack .I false ((data.drop 16).take 4)
    let payload := (data.drop 24).take length.toNat
    if (data.drop 20).take 4 ≠ checksum H payload then .error .msgFormatError
    else
      let command := latin1Decode (stripZeros ((data.drop 4).take 12))
      match lookup command with
      | none => .error .unknownMsgError
      | some t => do
        let (_, kw) ← parseFields payload t.props 0
        .ok { command := t.command, fields := kw }

end NBC.Proto
