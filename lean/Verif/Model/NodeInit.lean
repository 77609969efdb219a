import Verif.Model.Node

/-!
# Making a node

`BaseNode.__init__` (`nbc/node/basenode.py:33-86`) with what the operating system and the version of `asyncore` have to do with
it, and `RawNode.__init__` (`nbc/node/raw.py:7-8`).
-/

namespace NBC.P2P
open NBC NBC.Proto

/-- The attributes of a coin that a node uses, `nbc/coins/coin.py:8-14`, `nbc/coins/newbitcoin.py:14,23,43` -/
structure NetCoin where
  name : List Char
  magic : Bytes
  protocolVersion : Int
  dnsSeeds : List Addr

/-- `Newbitcoin`, `nbc/coins/newbitcoin.py:12-43`; `protocol_version` from `nbc/coins/coin.py:13` -/
def newbitcoinNet : NetCoin where
  name := "newbitcoin".toList
  magic := [0xf9, 0x6e, 0x62, 0x63]
  protocolVersion := 70002
  dnsSeeds := [("127.0.0.1".toList, 20303)]

/-- The operating systems by their number for "address already in use" (`errno.EADDRINUSE`), `basenode.py:84` -/
inductive System where
  | darwin
  | linux
  | windows
  deriving DecidableEq, Repr

/-- `errno.EADDRINUSE` on each system; `basenode.py:84` has the first. -/
def System.addrInUse : System → Nat
  | .darwin => 48
  | .linux => 98
  | .windows => 10048

/-- The Python that runs it: its version, and whether `asyncore.dispatcher` has the method `__getattr__` that looks for missing
attributes in the socket (Python 2.7 and the earlier versions of Python 3; not 3.11).
For `basenode.py:33-86`, `basenode.py:33`. -/
structure Runtime where
  ver : Aes.PyVer
  delegates : Bool

/-- What the system answers to the calls of `basenode.py:76-81`: the error number of `socket.socket`, `bind` and `listen` if they
fail, and the name of the socket bound. -/
structure Answers where
  socket : Option Nat
  bind : Option Nat
  listen : Option Nat
  name : Addr

/-- The exceptions of `basenode.py:75-86` -/
inductive MakeErr where
  | addrInUse
  | socketError (errno : Nat)
  | attributeError
  deriving DecidableEq, Repr

/-- How the constructor ends: with a node, or with an exception, when its socket may still be open.
For `basenode.py:33-86`, `basenode.py:33`. -/
inductive Made where
  | node (n : Node)
  | raised (e : MakeErr) (socketOpen : Bool)

/-- `'/nbc:%s(%s)/' % ('.'.join(str(i) for i in VERSION), coin.name)`, `basenode.py:18,55` -/
def userAgentOf (coin : NetCoin) : List Char := "/nbc:0.0.1(".toList ++ coin.name ++ ")/".toList

/-- The handler `basenode.py:83-86`, for `socket.error` -/
def onSocketError (errno : Nat) : MakeErr := if errno = 48 then .addrInUse else .socketError errno

/-- `BaseNode.__init__`, `basenode.py:33-86`; `height` is `blockchain_height`, line 92, which classes derived from it override.
`AttributeError` is no `socket.error` and passes the handler.  Simplified: `set_reuse_addr` (line 77) catches its errors; a
`bootstrap` that is not true is `None`, here the empty list, which lines 201 treats alike; `data_dir` and `log` are left out. -/
def makeNode (py : Runtime) (os : Answers) (coin : NetCoin) (height : Int) (address : Option Addr) (seekPeers maxPeers : Int)
    (bootstrap : Bool) : Made :=
  let listen := address.isSome
  let address := address.getD ("127.0.0.1".toList, 0)
  let n := Node.init py.ver coin.magic coin.protocolVersion height (userAgentOf coin) address listen seekPeers maxPeers
    (if bootstrap then coin.dnsSeeds else [])
  match os.socket with
  | some e => .raised (onSocketError e) false
  | none =>
    match os.bind with
    | some e => .raised (onSocketError e) true
    | none =>
      match os.listen with
      | some e => .raised (onSocketError e) true
      | none =>
        if address.2 = 0 then
          if py.delegates then .node { n with address := os.name } else .raised .attributeError true
        else .node n

/-- `BaseNode(address = ..)`, the other arguments by default, `basenode.py:33` -/
def baseNode (py : Runtime) (os : Answers) (address : Option Addr) : Made :=
  makeNode py os newbitcoinNet 0 address 16 125 true

/-- `RawNode(address = ..)`, `nbc/node/raw.py:7-8` -/
def rawNode (py : Runtime) (os : Answers) (address : Option Addr) : Made :=
  makeNode py os newbitcoinNet 0 address 16 125 false

end NBC.P2P
