import Verif.Model.Keys
import Verif.Model.Util

/-!
# `nbc/coins/`: the constants of the coin, `get_coin`
-/

namespace NBC.Coins
open NBC.Proto

/-- The attributes of a coin that the theorems are about. For `nbc/coins/coin.py:7-37`. -/
structure Coin where
  name : String
  symbols : List String
  genesisVersion : Int
  genesisBlockHash : Bytes
  genesisMerkleRoot : Bytes
  genesisTimestamp : Int
  genesisBits : Int
  genesisNonce : Int
  alertPublicKey : Bytes

/-- `Newbitcoin`, `nbc/coins/newbitcoin.py:13-47` -/
def newbitcoin : Coin where
  name := "newbitcoin"
  symbols := ["NBC"]
  genesisVersion := 1
  genesisBlockHash := [0x6f, 0xe2, 0x8c, 0x0a, 0xb6, 0xf1, 0xb3, 0x72, 0xc1, 0xa6, 0xa2, 0x46, 0xae, 0x63, 0xf7, 0x4f,
    0x93, 0x1e, 0x83, 0x65, 0xe1, 0x5a, 0x08, 0x9c, 0x68, 0xd6, 0x19, 0x00, 0x00, 0x00, 0x00, 0x00]
  genesisMerkleRoot := [0x3b, 0xa3, 0xed, 0xfd, 0x7a, 0x7b, 0x12, 0xb2, 0x7a, 0xc7, 0x2c, 0x3e, 0x67, 0x76, 0x8f, 0x61,
    0x7f, 0xc8, 0x1b, 0xc3, 0x88, 0x8a, 0x51, 0x32, 0x3a, 0x9f, 0xb8, 0xaa, 0x4b, 0x1e, 0x5e, 0x4a]
  genesisTimestamp := 1231006505
  genesisBits := 486604799
  genesisNonce := 2083236893
  alertPublicKey := [0x04,
    0xfc, 0x97, 0x02, 0x84, 0x78, 0x40, 0xaa, 0xf1, 0x95, 0xde, 0x84, 0x42, 0xeb, 0xec, 0xed, 0xf5,
    0xb0, 0x95, 0xcd, 0xbb, 0x9b, 0xc7, 0x16, 0xbd, 0xa9, 0x11, 0x09, 0x71, 0xb2, 0x8a, 0x49, 0xe0,
    0xea, 0xd8, 0x56, 0x4f, 0xf0, 0xdb, 0x22, 0x20, 0x9e, 0x03, 0x74, 0x78, 0x2c, 0x09, 0x3b, 0xb8,
    0x99, 0x69, 0x2d, 0x52, 0x4e, 0x9d, 0x6a, 0x69, 0x56, 0xe7, 0xc5, 0xec, 0xbc, 0xd6, 0x82, 0x84]

/-- The fields of the genesis block's header: the previous hash of a first block is zero.
For `nbc/coins/newbitcoin.py:13-43`, `nbc/protocol/format.py:490-499`. -/
def Coin.genesisFields (c : Coin) : List (String × Val) :=
  [("version", .int c.genesisVersion), ("prev_block", .bytes (List.replicate 32 0)),
    ("merkle_root", .bytes c.genesisMerkleRoot), ("timestamp", .int c.genesisTimestamp), ("bits", .int c.genesisBits),
    ("nonce", .int c.genesisNonce), ("txn_count", .int 1)]

/-- `Coins`, `nbc/coins/__init__.py:10-12` -/
def coins : List Coin := [newbitcoin]

/-- `get_coin(name, symbol)`, `nbc/coins/__init__.py:15-23`; `lower` and `upper` are `str.lower` and `str.upper`. -/
def getCoin (lower upper : String → String) (coins : List Coin) (name symbol : Option String) : Option Coin :=
  let name := name.getD ""
  let symbol := symbol.getD ""
  coins.find? (fun c => (name ≠ "" && lower name = c.name) || c.symbols.contains (upper symbol))

/-- `Alert.verify`, `nbc/protocol/messages.py:407-408` -/
def alertVerify (H : Hashes) (payload signature publicKey : Bytes) : Py Bool :=
  Ecc.verify H payload publicKey signature

end NBC.Coins
