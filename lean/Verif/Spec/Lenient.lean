import Verif.Spec.Reading

/-!
# Specification of texts that may be cut off at the end

A field type is here a pair of relations.  `full b v`: the bytes `b` are a complete text of `v`, whatever follows
them.  `cut b v`: the bytes `b`, if nothing follows them, are taken for `v` although the text is not complete.
-/

namespace NBC.Spec.Lenient
open NBC NBC.Spec Proto NBC.Spec.Wire NBC.Spec.Reading

/-- A field type. -/
structure LType where
  full : RType
  cut : RType

/-- A type whose texts must be complete. -/
def whole (R : RType) : LType := ⟨R, fun _ _ => False⟩

/-- A number of fixed width. -/
def lNumber (f : Fmt) (big : Bool) : LType := whole (rNumber f big)

/-- A size. -/
def lSize (S : Sizes) : LType := whole (rSize S)

/-- `n` bytes; at the end there may be fewer of them, and the value is those that are there. -/
def lBytes (n : Nat) : LType := ⟨rBytes n, fun b v => b.length < n ∧ v = .bytes b⟩

/-- Bytes with their number in front; at the end there may be fewer of them than announced. -/
def lString (S : Sizes) : LType :=
  ⟨rString S, fun b v => ∃ n p s, S n p ∧ s.length < n ∧ b = p ++ s ∧ v = .bytes s⟩

/-- A number of one byte, which may be missing at the end; then it is 1. -/
def lFlag : LType := ⟨rNumber .B false, fun b v => b = [] ∧ v = .int 1⟩

/-- Items with their number in front.  At the end an item may be cut off, if an item of this type may be, and all
the items after it are then what is read from nothing. -/
def lArray (S : Sizes) (L : LType) : LType :=
  ⟨rArray S L.full, fun b v =>
    ∃ (p : Bytes) (items : List (Bytes × Val)) (c : Bytes) (w : Val) (missing : List Val),
      S (items.length + 1 + missing.length) p ∧ (∀ t ∈ items, L.full t.1 t.2) ∧ L.cut c w ∧
      (∀ m ∈ missing, L.cut [] m) ∧ b = p ++ ((items.map (·.1)).flatten ++ c) ∧
      v = .tuple (items.map (·.2) ++ w :: missing)⟩

/-- The complete texts of named fields. -/
def fulls (ls : List (String × LType)) : List (String × RType) := ls.map (fun e => (e.1, e.2.full))

/-- What named fields are when there are no bytes left for any of them. -/
def nothing : List (String × LType) → List (String × Val) → Prop
  | [], vs => vs = []
  | (k, L) :: ls, vs => ∃ v ts, L.cut [] v ∧ nothing ls ts ∧ vs = (k, v) :: ts

/-- Named fields that are cut off: some complete fields, one cut off, nothing left for the others. -/
def cutFields : List (String × LType) → Bytes → List (String × Val) → Prop
  | [], _, _ => False
  | (k, L) :: ls, b, vs =>
    (∃ b₁ v b₂ ts, L.full b₁ v ∧ cutFields ls b₂ ts ∧ b = b₁ ++ b₂ ∧ vs = (k, v) :: ts) ∨
    (∃ v ts, L.cut b v ∧ nothing ls ts ∧ vs = (k, v) :: ts)

/-- An object of the class `name`. -/
def lObject (name : String) (ls : List (String × LType)) : LType :=
  ⟨rObject name (fulls ls), fun b v => ∃ vs, cutFields ls b vs ∧ v = .obj name vs⟩

/-- An IP address: 16 bytes, read as its text. -/
def rIp : RType := fun b v => b.length = 16 ∧ v = .str (ipText b)

def lU32 : LType := lNumber .I false
def lHash : LType := lBytes 32

/-- Services, address and port of a peer. -/
def endpoint : List (String × LType) :=
  [("services", lNumber .Q false), ("address", whole rIp), ("port", lNumber .H true)]

/-- The address of a peer, in a list of addresses. -/
def lAddress : LType := lObject "NetworkAddress" (("timestamp", lU32) :: endpoint)

/-- The address of a peer without time; the time is 0. -/
def lEndpoint : LType := whole fun b v =>
  ∃ vs, rFields (fulls endpoint) b vs ∧ v = .obj "NetworkAddress" (("timestamp", .int 0) :: vs)

def lInventory (S : Sizes) : List (String × LType) :=
  [("inventory", lArray S (lObject "InventoryVector" [("object_type", lU32), ("hash", lHash)]))]

def lLocator (S : Sizes) : List (String × LType) :=
  [("version", lU32), ("block_locator_hashes", lArray S lHash), ("hash_stop", lHash)]

def lTxnIn (S : Sizes) : LType :=
  lObject "TxnIn" [("previous_output", lObject "OutPoint" [("hash", lHash), ("index", lU32)]),
    ("signature_script", lString S), ("sequence", lU32)]

def lTxnOut (S : Sizes) : LType :=
  lObject "TxnOut" [("value", lNumber .q false), ("pk_script", lString S)]

def lTx (S : Sizes) : List (String × LType) :=
  [("version", lU32), ("tx_in", lArray S (lTxnIn S)), ("tx_out", lArray S (lTxnOut S)), ("lock_time", lU32)]

def lHeader : List (String × LType) :=
  [("version", lU32), ("prev_block", lHash), ("merkle_root", lHash), ("timestamp", lU32), ("bits", lU32),
    ("nonce", lU32)]

/-- The message types, with their fields: `S` are the size texts. -/
def languages (S : Sizes) : List (String × List (String × LType)) :=
  [("version", [("version", lNumber .i false), ("services", lNumber .Q false),
      ("timestamp", lNumber .q false), ("addr_recv", lEndpoint), ("addr_from", lEndpoint),
      ("nonce", lBytes 8), ("user_agent", lString S), ("start_height", lNumber .i false), ("relay", lFlag)]),
   ("verack", []),
   ("addr", [("addr_list", lArray S lAddress)]),
   ("inv", lInventory S), ("getdata", lInventory S), ("notfound", lInventory S),
   ("getblocks", lLocator S), ("getheaders", lLocator S),
   ("tx", lTx S),
   ("block", lHeader ++ [("txns", lArray S (lObject "Txn" (lTx S)))]),
   ("headers", [("headers", lArray S (lObject "BlockHeader" (lHeader ++ [("txn_count", lSize S)])))]),
   ("getaddr", []), ("mempool", []),
   ("ping", [("nonce", lBytes 8)]), ("pong", [("nonce", lBytes 8)]),
   ("reject", [("message", lString S), ("ccode", lNumber .B false), ("reason", lString S)]),
   ("filterload", [("filter", lArray S (lNumber .B false)), ("n_hashes_func", lU32), ("n_tweak", lU32),
      ("n_flags", lNumber .B false)]),
   ("filteradd", [("data", lString S)]),
   ("filterclear", []),
   ("merkleblock", lHeader ++ [("total_transactions", lU32), ("hashes", lArray S lHash),
      ("flags", lArray S (lNumber .b false))]),
   ("alert", [("payload", lString S), ("signature", lString S)])]

end NBC.Spec.Lenient
