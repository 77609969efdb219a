import Verif.Model.Coin
import Verif.Model.Messages
import Verif.Proofs.Sha

/-!
# Published messages of the Bitcoin protocol

The hex dumps of the page "Protocol documentation" of the Bitcoin wiki and the coinbase transaction of block 0, read
and written by the model with the real hash functions.  These are tests of the model, not proofs of a property.
-/

namespace NBC.Tests

open NBC Proto Coins

/-- The magic bytes of the dumps. -/
def mainMagic : Bytes := [0xf9, 0xbe, 0xb4, 0xd9]

/-- Read a frame and write it again. -/
def reread (t : MsgType) (data : Bytes) : Py (String × Bytes) := do
  let m ← parseMessage Sha.hashes data mainMagic
  return (m.command, ← t.binary Sha.hashes m.fields mainMagic)

/-- The `version` message of the wiki. -/
def wikiVersion : Bytes :=
  (Sha.unword 124 0xf9beb4d976657273696f6e0000000000640000003b648d5a62ea0000010000000000000011b2d05000000000010000000000000000000000000000000000ffff000000000000010000000000000000000000000000000000ffff0000000000003b2eb35d8ce617650f2f5361746f7368693a302e372e322fc03e0300)

/-- It has no `relay` field; the model, like the code, gives it the default 1 and writes that. -/
example : (reread msgVersion wikiVersion).map (fun x => (x.1, x.2.drop 24)) =
    .ok ("version", wikiVersion.drop 24 ++ [1]) := by decide +kernel

/-- The `verack` message. -/
example : msgVerack.binary Sha.hashes [] mainMagic =
    .ok (Sha.unword 24 0xf9beb4d976657261636b000000000000000000005df6e0e2) := by decide +kernel

/-- The `addr` message of the wiki: one address, 10.0.0.1 port 8333. -/
def wikiAddr : Bytes :=
  (Sha.unword 55 0xf9beb4d96164647200000000000000001f000000ed52399b01e215104d010000000000000000000000000000000000ffff0a000001208d)

example : reread msgAddr wikiAddr = .ok ("addr", wikiAddr) := by decide +kernel

/-- The coinbase transaction of block 0. -/
def genesisTx : Bytes :=
  (Sha.unword 204 0x01000000010000000000000000000000000000000000000000000000000000000000000000ffffffff4d04ffff001d0104455468652054696d65732030332f4a616e2f32303039204368616e63656c6c6f72206f6e206272696e6b206f66207365636f6e64206261696c6f757420666f722062616e6b73ffffffff0100f2052a01000000434104678afdb0fe5548271967f1a67130b7105cd6a828e03909a67962e0ea1f61deb649f6bc3f4cef38c4f35504e51ec112de5c384df7ba0b8d578a4c702b6bf11d5fac00000000)

/-- The `tx` message with it. -/
def genesisTxFrame : Bytes :=
  (Sha.unword 24 0xf9beb4d9747800000000000000000000cc0000003ba3edfd) ++ genesisTx

example : reread msgTx genesisTxFrame = .ok ("tx", genesisTxFrame) := by decide +kernel

/-- Its hash is the Merkle root in the header of block 0 (`newbitcoin.py`). -/
example : (do
      let m ← parseMessage Sha.hashes genesisTxFrame mainMagic
      Util.getMerkleRoot Sha.hashes [m.fields]) = .ok newbitcoin.genesisMerkleRoot := by decide +kernel

end NBC.Tests
