import Verif.Model.Format
import Verif.Spec.Bytes

/-!
# Specification of the wire format

A field type is a relation `W v b v'`: the value `v` may be sent, is written as the bytes `b`, and is
read back as `v'`.  The combinators follow the protocol description and use none of the model's
functions; only the types of values (`Val`) and format letters (`Fmt`) are shared.
-/

namespace NBC.Spec.Wire
open NBC NBC.Spec Proto

/-- A field type. -/
abbrev WType := Val → Bytes → Val → Prop

/-- The width of a format. -/
def bits : Fmt → Nat
  | .b | .B => 8
  | .h | .H => 16
  | .i | .I => 32
  | .q | .Q => 64

/-- Whether the format is two's complement. -/
def twos : Fmt → Bool
  | .b | .h | .i | .q => true
  | .B | .H | .I | .Q => false

/-- The smallest representable integer. -/
def lo (f : Fmt) : Int := if twos f then -2 ^ (bits f - 1) else 0

/-- The first integer above the representable ones. -/
def hi (f : Fmt) : Int := if twos f then 2 ^ (bits f - 1) else 2 ^ bits f

/-- The representable integers. -/
def inRange (f : Fmt) (i : Int) : Prop := lo f ≤ i ∧ i < hi f

/-- The bytes of an integer: two's complement residue, in the byte order. -/
def numBytes (f : Fmt) (big : Bool) (i : Int) : Bytes :=
  let be := beBytes (bits f / 8) (i % 2 ^ bits f).toNat
  if big then be else be.reverse

/-- The integer part of `m / 2^k`, towards zero. -/
def trunc (m : Int) (k : Nat) : Int :=
  if 0 ≤ m then m / 2 ^ k else -(-m / 2 ^ k)

/-- A fixed-width number; a float `m / 2^k` in range is sent as its integer part when floats are
allowed. -/
def wNumber (f : Fmt) (big allowFloat : Bool) : WType := fun v b v' =>
  (∃ i, v = .int i ∧ inRange f i ∧ b = numBytes f big i ∧ v' = .int i) ∨
  (allowFloat = true ∧ ∃ m k, v = .float m k ∧ lo f * 2 ^ k ≤ m ∧ m < hi f * 2 ^ k ∧
    b = numBytes f big (trunc m k) ∧ v' = .int (trunc m k))

/-- The variable-length integer as this code writes it.  It is Bitcoin's CompactSize except that `0xffff`
and `0xffffffff` are written in the next longer form. -/
def varSize (n : Nat) : Bytes :=
  if n < 0xfd then [UInt8.ofNat n]
  else if n < 0xffff then 0xfd :: (beBytes 2 n).reverse
  else if n < 0xffffffff then 0xfe :: (beBytes 4 n).reverse
  else 0xff :: (beBytes 8 n).reverse

/-- The bound below which the variable-length integer can be read back. -/
def varLimit : Nat := 0xffffffff

/-- A variable-length integer below `varLimit`. -/
def wVarInteger : WType := fun v b v' =>
  ∃ n : Nat, n < varLimit ∧ v = .int n ∧ b = varSize n ∧ v' = .int n

/-- Exactly `n` bytes. -/
def wBytes (n : Nat) : WType := fun v b v' => b.length = n ∧ v = .bytes b ∧ v' = .bytes b

/-- A string with its length in front.  Text of code points below 256 is sent as those bytes; the reader
gets bytes. -/
def wVarString : WType := fun v b v' =>
  ∃ s : Bytes, s.length < varLimit ∧ (v = .bytes s ∨ v = .str (s.map (fun x => Char.ofNat x.toNat))) ∧
    b = varSize s.length ++ s ∧ v' = .bytes s

/-- The numeral of `n` in base `base`, most significant digit first, lower-case letters, `0` for zero. -/
def numeral (base n : Nat) : List Char := Nat.toDigits base n

/-- Words joined by a separator. -/
def joined (c : Char) (words : List (List Char)) : List Char := [c].intercalate words

/-- The prefix of IPv4 addresses in the 16-byte form. -/
def v4Prefix : Bytes := [0, 0, 0, 0, 0, 0, 0, 0, 0, 0, 0xff, 0xff]

/-- Canonical text of a 16-byte address: a dotted quad behind the IPv4 prefix, else eight groups of
lower-case hexadecimal without leading zeros. -/
def ipText (a : Bytes) : List Char :=
  if a.take 12 = v4Prefix then joined '.' ((a.drop 12).map (fun x => numeral 10 x.toNat))
  else joined ':' ((List.range 8).map (fun i =>
    numeral 16 ((a.getD (2 * i) 0).toNat * 256 + (a.getD (2 * i + 1) 0).toNat)))

/-- An IP address in canonical text. -/
def wIPAddress : WType := fun v b v' => b.length = 16 ∧ v = .str (ipText b) ∧ v' = v

/-- An array with its length in front, `lo ≤ length` and `length ≤ hi` when there is a bound. -/
def wArray (W : WType) (lo : Nat) (hi : Option Nat) : WType := fun v b v' =>
  ∃ items : List (Val × Bytes × Val), (∀ t ∈ items, W t.1 t.2.1 t.2.2) ∧
    lo ≤ items.length ∧ (∀ h, hi = some h → items.length ≤ h) ∧ items.length < varLimit ∧
    v = .tuple (items.map (·.1)) ∧
    b = varSize items.length ++ (items.map (·.2.1)).flatten ∧
    v' = .tuple (items.map (·.2.2))

/-- A sequence of named fields. -/
def wFields : List (String × WType) → List (String × Val) → Bytes → List (String × Val) → Prop
  | [], vs, b, vs' => vs = [] ∧ b = [] ∧ vs' = []
  | (k, W) :: ps, vs, b, vs' => ∃ v b₁ v' ts b₂ ts', W v b₁ v' ∧ wFields ps ts b₂ ts' ∧
      vs = (k, v) :: ts ∧ b = b₁ ++ b₂ ∧ vs' = (k, v') :: ts'

/-- An object of the class `name` with its fields. -/
def wObject (name : String) (ps : List (String × WType)) : WType := fun v b v' =>
  ∃ vs vs', wFields ps vs b vs' ∧ v = .obj name vs ∧ v' = .obj name vs'

/-- The fields of a network address after the time stamp. -/
def wNetTail : List (String × WType) :=
  [("services", wNumber .Q false false), ("address", wIPAddress), ("port", wNumber .H true false)]

/-- A network address with its time stamp. -/
def wNetworkAddress : WType :=
  wObject "NetworkAddress" (("timestamp", wNumber .I false true) :: wNetTail)

/-- A network address of a version message: the time stamp is not sent and is read back as zero. -/
def wNetworkAddressNoTimestamp : WType := fun v b v' =>
  ∃ t bt t' vs vs', wNumber .I false true t bt t' ∧ wFields wNetTail vs b vs' ∧
    v = .obj "NetworkAddress" (("timestamp", t) :: vs) ∧
    v' = .obj "NetworkAddress" (("timestamp", .int 0) :: vs')

/-- The last field of a version message: a flag, written as one byte. -/
def wRelay : WType := wNumber .B false false

def wU32 : WType := wNumber .I false false
def wTime32 : WType := wNumber .I false true
def wHash : WType := wBytes 32

def wInventoryVector : WType := wObject "InventoryVector" [("object_type", wU32), ("hash", wHash)]
def wOutPoint : WType := wObject "OutPoint" [("hash", wHash), ("index", wU32)]
def wTxnIn : WType := wObject "TxnIn"
  [("previous_output", wOutPoint), ("signature_script", wVarString), ("sequence", wU32)]
def wTxnOut : WType := wObject "TxnOut" [("value", wNumber .q false false), ("pk_script", wVarString)]

/-- The fields of a transaction. -/
def txFields : List (String × WType) :=
  [("version", wU32), ("tx_in", wArray wTxnIn 1 none), ("tx_out", wArray wTxnOut 1 none),
    ("lock_time", wU32)]

def wTxn : WType := wObject "Txn" txFields

/-- The six fields in front of the transaction count of a block header. -/
def headerFields : List (String × WType) :=
  [("version", wU32), ("prev_block", wHash), ("merkle_root", wHash), ("timestamp", wTime32),
    ("bits", wU32), ("nonce", wU32)]

def wBlockHeader : WType := wObject "BlockHeader" (headerFields ++ [("txn_count", wVarInteger)])

def invFields : List (String × WType) := [("inventory", wArray wInventoryVector 0 (some 50000))]

def locatorFields : List (String × WType) :=
  [("version", wU32), ("block_locator_hashes", wArray wHash 1 none), ("hash_stop", wHash)]

/-- The message types: command and fields. -/
def messages : List (String × List (String × WType)) :=
  [("version", [("version", wNumber .i false false), ("services", wNumber .Q false false),
      ("timestamp", wNumber .q false true), ("addr_recv", wNetworkAddressNoTimestamp),
      ("addr_from", wNetworkAddressNoTimestamp), ("nonce", wBytes 8), ("user_agent", wVarString),
      ("start_height", wNumber .i false false), ("relay", wRelay)]),
   ("verack", []),
   ("addr", [("addr_list", wArray wNetworkAddress 0 (some 1000))]),
   ("inv", invFields), ("getdata", invFields), ("notfound", invFields),
   ("getblocks", locatorFields), ("getheaders", locatorFields),
   ("tx", txFields),
   ("block", headerFields ++ [("txns", wArray wTxn 0 none)]),
   ("headers", [("headers", wArray wBlockHeader 0 none)]),
   ("getaddr", []), ("mempool", []),
   ("ping", [("nonce", wBytes 8)]), ("pong", [("nonce", wBytes 8)]),
   ("reject", [("message", wVarString), ("ccode", wNumber .B false false), ("reason", wVarString)]),
   ("filterload", [("filter", wArray (wNumber .B false false) 0 none), ("n_hashes_func", wU32),
      ("n_tweak", wU32), ("n_flags", wNumber .B false false)]),
   ("filteradd", [("data", wVarString)]),
   ("filterclear", []),
   ("merkleblock", headerFields ++ [("total_transactions", wU32), ("hashes", wArray wHash 0 none),
      ("flags", wArray (wNumber .b false false) 0 none)]),
   ("alert", [("payload", wVarString), ("signature", wVarString)])]

mutual
/-- The number of array elements in a value, at all depths. -/
def elements : Val → Nat
  | .tuple l => elementsList l
  | .obj _ fs => elementsFields fs
  | _ => 0

/-- The elements of an array: each counts one, and its own elements. -/
def elementsList : List Val → Nat
  | [] => 0
  | v :: vs => 1 + elements v + elementsList vs

/-- The elements in the fields of an object. -/
def elementsFields : List (String × Val) → Nat
  | [] => 0
  | (_, v) :: r => elements v + elementsFields r
end

/-- The frame of a message: magic, command padded with zeros to 12 bytes, payload length (32 bits, least
significant byte first), the first four bytes of the double SHA-256 of the payload, payload. -/
def wireFrame (H : Hashes) (magic : Bytes) (command : String) (payload : Bytes) : Bytes :=
  let name := command.toList.map (fun c => UInt8.ofNat c.toNat)
  magic ++ (name ++ List.replicate (12 - name.length) 0) ++ (beBytes 4 payload.length).reverse ++
    (H.sha256 (H.sha256 payload)).take 4 ++ payload

end NBC.Spec.Wire
