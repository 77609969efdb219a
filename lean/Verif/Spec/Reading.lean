import Verif.Spec.Wire

/-!
# Specification of texts to be read

A field type is here a relation `R b v`: the bytes `b` stand for the value `v`.  Numbers of variable length are
left open: `S n b` says that `b` is a size text of `n`.  Three choices of `S` are of interest: the texts that this
code reads (`readSize`), the ones it writes (`sentSize`), and those of Bitcoin (`compactSize`).
-/

namespace NBC.Spec.Reading
open NBC NBC.Spec Proto NBC.Spec.Wire

/-- A field type. -/
abbrev RType := Bytes → Val → Prop

/-- A choice of size texts. -/
abbrev Sizes := Nat → Bytes → Prop

/-- The size texts that are read: one byte other than `0xfd` and `0xfe` (`0xff` is 255), or `0xfd` and two bytes,
or `0xfe` and four bytes, least significant first, whether or not a shorter text would do. -/
def readSize : Sizes := fun n b =>
  (n < 256 ∧ n ≠ 0xfd ∧ n ≠ 0xfe ∧ b = [UInt8.ofNat n]) ∨
  (n < 2 ^ 16 ∧ b = 0xfd :: (beBytes 2 n).reverse) ∨
  (n < 2 ^ 32 ∧ b = 0xfe :: (beBytes 4 n).reverse)

/-- The size texts that are written, where they can be read back. -/
def sentSize : Sizes := fun n b => n < varLimit ∧ b = varSize n

/-- Bitcoin's CompactSize: the shortest of the forms with 1, 3, 5 and 9 bytes. -/
def compact (n : Nat) : Bytes :=
  if n ≤ 0xfc then [UInt8.ofNat n]
  else if n ≤ 0xffff then 0xfd :: (beBytes 2 n).reverse
  else if n ≤ 0xffffffff then 0xfe :: (beBytes 4 n).reverse
  else 0xff :: (beBytes 8 n).reverse

/-- Bitcoin's size texts of the sizes below `2^32`. -/
def compactSize : Sizes := fun n b => n < 2 ^ 32 ∧ b = compact n

/-- A number of fixed width. -/
def rNumber (f : Fmt) (big : Bool) : RType := fun b v =>
  ∃ i, inRange f i ∧ b = numBytes f big i ∧ v = .int i

/-- A size. -/
def rSize (S : Sizes) : RType := fun b v => ∃ n : Nat, S n b ∧ v = .int n

/-- Exactly `n` bytes. -/
def rBytes (n : Nat) : RType := fun b v => b.length = n ∧ v = .bytes b

/-- Bytes with their number in front. -/
def rString (S : Sizes) : RType := fun b v => ∃ p s, S s.length p ∧ b = p ++ s ∧ v = .bytes s

/-- Items with their number in front. -/
def rArray (S : Sizes) (R : RType) : RType := fun b v =>
  ∃ (p : Bytes) (items : List (Bytes × Val)), S items.length p ∧ (∀ t ∈ items, R t.1 t.2) ∧
    b = p ++ (items.map (·.1)).flatten ∧ v = .tuple (items.map (·.2))

/-- Named fields, one after the other. -/
def rFields : List (String × RType) → Bytes → List (String × Val) → Prop
  | [], b, vs => b = [] ∧ vs = []
  | (k, R) :: rs, b, vs => ∃ b₁ v b₂ ts, R b₁ v ∧ rFields rs b₂ ts ∧ b = b₁ ++ b₂ ∧ vs = (k, v) :: ts

/-- An object of the class `name`. -/
def rObject (name : String) (rs : List (String × RType)) : RType := fun b v =>
  ∃ vs, rFields rs b vs ∧ v = .obj name vs

def rU32 : RType := rNumber .I false
def rHash : RType := rBytes 32

def outPointReading : List (String × RType) := [("hash", rHash), ("index", rU32)]

def txnInReading (S : Sizes) : List (String × RType) :=
  [("previous_output", rObject "OutPoint" outPointReading), ("signature_script", rString S),
    ("sequence", rU32)]

def txnOutReading (S : Sizes) : List (String × RType) :=
  [("value", rNumber .q false), ("pk_script", rString S)]

/-- A transaction: version, inputs, outputs, lock time. -/
def txReading (S : Sizes) : List (String × RType) :=
  [("version", rU32), ("tx_in", rArray S (rObject "TxnIn" (txnInReading S))),
    ("tx_out", rArray S (rObject "TxnOut" (txnOutReading S))), ("lock_time", rU32)]

/-- A block header without the transaction count. -/
def headerReading : List (String × RType) :=
  [("version", rU32), ("prev_block", rHash), ("merkle_root", rHash), ("timestamp", rU32), ("bits", rU32),
    ("nonce", rU32)]

/-- A block: the header and the transactions. -/
def blockReading (S : Sizes) : List (String × RType) :=
  headerReading ++ [("txns", rArray S (rObject "Txn" (txReading S)))]

/-- A message `headers`: headers, each with a transaction count. -/
def headersReading (S : Sizes) : List (String × RType) :=
  [("headers", rArray S (rObject "BlockHeader" (headerReading ++ [("txn_count", rSize S)])))]

end NBC.Spec.Reading
