import Verif.Spec.Lenient
import Verif.Model.Messages

/-!
# Specification of the messages that can be made, and of their texts

A field type is again a relation `W v b v'` (`Spec/Wire`): the value `v` is written as the bytes `b`, which stand for
`v'`.  Other than there the relations describe everything that is written, not only what can also be read: `S` is the
choice of texts for the lengths of strings and arrays, and `V` that for counts that are values.
-/

namespace NBC.Spec.Built
open NBC NBC.Spec Proto NBC.Spec.Wire NBC.Spec.Reading NBC.Spec.Lenient

/-- The classes of objects inside messages. -/
def classes : List Cls := [networkAddress, inventoryVector, outPoint, txnIn, txnOut, txn, blockHeader]

/-- The values that a program can make: numbers, strings, tuples, and objects from the constructors of the classes
(not those left by reading a message, whose fields are not validated). -/
inductive Built : Val → Prop
  | none : Built .none
  | int (i : Int) : Built (.int i)
  | float (m : Int) (k : Nat) : Built (.float m k)
  | nonfinite : Built .nonfinite
  | bytes (b : Bytes) : Built (.bytes b)
  | str (s : List Char) : Built (.str s)
  | tuple (l : List Val) (h : ∀ v ∈ l, Built v) : Built (.tuple l)
  | obj (c : Cls) (hc : c ∈ classes) (args : List Val) (kw fields : List (String × Val))
      (ha : ∀ v ∈ args, Built v) (hk : ∀ e ∈ kw, Built e.2) (h : compInit c.props args kw = .ok fields) :
      Built (.obj c.name fields)

/-- The messages of the class `t` that a program can make. -/
def Constructed (t : MsgType) (fields : List (String × Val)) : Prop :=
  ∃ args kw, (∀ v ∈ args, Built v) ∧ (∀ e ∈ kw, Built e.2) ∧ compInit t.props args kw = .ok fields

/-- The size texts that are written. -/
def writtenSize : Sizes := fun n b => n < 2 ^ 64 ∧ b = varSize n

/-- A count. -/
def xCount (V : Sizes) : WType := fun v b v' => ∃ n : Nat, V n b ∧ v = .int n ∧ v' = v

/-- A string. -/
def xString (S : Sizes) : WType := fun v b v' => ∃ p s, S s.length p ∧
  (v = .bytes s ∨ v = .str (s.map (fun x => Char.ofNat x.toNat))) ∧ b = p ++ s ∧ v' = .bytes s

/-- An IP address: what `ipBinary` makes of the text (`C61`, `C109`); the 16 bytes stand for the canonical text. -/
def xIp : WType := fun v b v' => ∃ s, v = .str s ∧ ipBinary s = .ok b ∧ b.length = 16 ∧ v' = .str (ipText b)

/-- An array. -/
def xArray (S : Sizes) (W : WType) (lo : Nat) (hi : Option Nat) : WType := fun v b v' =>
  ∃ (p : Bytes) (items : List (Val × Bytes × Val)), S items.length p ∧ (∀ t ∈ items, W t.1 t.2.1 t.2.2) ∧
    lo ≤ items.length ∧ (∀ h, hi = some h → items.length ≤ h) ∧ v = .tuple (items.map (·.1)) ∧
    b = p ++ (items.map (·.2.1)).flatten ∧ v' = .tuple (items.map (·.2.2))

/-- Services, address and port of a peer. -/
def xEndpointFields : List (String × WType) :=
  [("services", wNumber .Q false false), ("address", xIp), ("port", wNumber .H true false)]

/-- The address of a peer. -/
def xAddress : WType := wObject "NetworkAddress" (("timestamp", wNumber .I false true) :: xEndpointFields)

/-- The address of a peer without the time. -/
def xEndpoint : WType := fun v b v' =>
  ∃ t bt t' vs vs', wNumber .I false true t bt t' ∧ wFields xEndpointFields vs b vs' ∧
    v = .obj "NetworkAddress" (("timestamp", t) :: vs) ∧ v' = .obj "NetworkAddress" (("timestamp", .int 0) :: vs')

def xInventory (S : Sizes) : List (String × WType) := [("inventory", xArray S wInventoryVector 0 (some 50000))]

def xLocator (S : Sizes) : List (String × WType) :=
  [("version", wU32), ("block_locator_hashes", xArray S wHash 1 none), ("hash_stop", wHash)]

def xTxnIn (S : Sizes) : WType := wObject "TxnIn"
  [("previous_output", wOutPoint), ("signature_script", xString S), ("sequence", wU32)]

def xTxnOut (S : Sizes) : WType := wObject "TxnOut" [("value", wNumber .q false false), ("pk_script", xString S)]

def xTx (S : Sizes) : List (String × WType) :=
  [("version", wU32), ("tx_in", xArray S (xTxnIn S) 1 none), ("tx_out", xArray S (xTxnOut S) 1 none),
    ("lock_time", wU32)]

/-- The message types: command and fields. -/
def sent (S V : Sizes) : List (String × List (String × WType)) :=
  [("version", [("version", wNumber .i false false), ("services", wNumber .Q false false),
      ("timestamp", wNumber .q false true), ("addr_recv", xEndpoint), ("addr_from", xEndpoint),
      ("nonce", wBytes 8), ("user_agent", xString S), ("start_height", wNumber .i false false), ("relay", wRelay)]),
   ("verack", []),
   ("addr", [("addr_list", xArray S xAddress 0 (some 1000))]),
   ("inv", xInventory S), ("getdata", xInventory S), ("notfound", xInventory S),
   ("getblocks", xLocator S), ("getheaders", xLocator S),
   ("tx", xTx S),
   ("block", headerFields ++ [("txns", xArray S (wObject "Txn" (xTx S)) 0 none)]),
   ("headers", [("headers", xArray S (wObject "BlockHeader" (headerFields ++ [("txn_count", xCount V)])) 0 none)]),
   ("getaddr", []), ("mempool", []),
   ("ping", [("nonce", wBytes 8)]), ("pong", [("nonce", wBytes 8)]),
   ("reject", [("message", xString S), ("ccode", wNumber .B false false), ("reason", xString S)]),
   ("filterload", [("filter", xArray S (wNumber .B false false) 0 none), ("n_hashes_func", wU32),
      ("n_tweak", wU32), ("n_flags", wNumber .B false false)]),
   ("filteradd", [("data", xString S)]),
   ("filterclear", []),
   ("merkleblock", headerFields ++ [("total_transactions", wU32), ("hashes", xArray S wHash 0 none),
      ("flags", xArray S (wNumber .b false false) 0 none)]),
   ("alert", [("payload", xString S), ("signature", xString S)])]

end NBC.Spec.Built
