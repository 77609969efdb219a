import Verif.Model.Aes
import Verif.Model.Bytes
import Verif.Model.Format

/-!
# `nbc/util/__init__.py`: block headers, targets, Merkle roots, protocol versions, hexadecimal
-/

namespace NBC.Util
open NBC NBC.Proto NBC.Aes

/-! ### Block headers -/

/-- `struct.pack('<I', v)`: anything but an integer in range raises `struct.error` (Python 3).
For `nbc/util/__init__.py:66-67`. -/
def packI (v : Val) : Py Bytes :=
  match v with
  | .int i => pack .I false i
  | _ => .error .structError

/-- `struct.pack('32s', v)`: cut or padded with zero bytes to 32. For `nbc/util/__init__.py:66-67`. -/
def pack32s (v : Val) : Py Bytes :=
  match v with
  | .bytes b => .ok (b.take 32 ++ List.replicate (32 - b.length) 0)
  | _ => .error .structError

/-- `get_block_header`, `nbc/util/__init__.py:66-67` -/
def getBlockHeader (version prevBlock merkleRoot timestamp bits nonce : Val) : Py Bytes := do
  let a ← packI version
  let b ← pack32s prevBlock
  let c ← pack32s merkleRoot
  let d ← packI timestamp
  let e ← packI bits
  let f ← packI nonce
  .ok (a ++ b ++ c ++ d ++ e ++ f)

/-- `BlockHeader.hash`, `nbc/protocol/format.py:507-511`, without the cache (the fields of a header have
no setter, so the cached value is the one computed here). -/
def blockHash (H : Hashes) (fields : List (String × Val)) : Py Bytes := do
  let b ← compBinary blockHeader.props fields
  .ok (H.sha256d (b.take 80))

/-! ### Targets -/

/-- The number of `nbc/util/__init__.py:75`: `(bits & 0x7fffff) * 2 ** (8 * ((bits >> 24) - 3))`, truncated
to an integer as `"%064x"` does with a float in Python 2 (an exponent below 3 makes it one; the
`OverflowError` of exponents beyond a float's range is not modelled). -/
def targetNat (bits : Int) : Nat :=
  let mantissa := (bits % 0x800000).toNat
  let e := bits / 0x1000000 - 3
  if 0 ≤ e then mantissa * 2 ^ (8 * e.toNat) else mantissa / 2 ^ (8 * (-e).toNat)

/-- `get_target`, `nbc/util/__init__.py:74-76`.  `str.decode` exists only in Python 2 (where an odd
number of digits is a `TypeError`); in Python 3 a float is already refused by `%x`. -/
def getTarget (ver : PyVer) (bits : Int) : Py Bytes :=
  match ver with
  | .py3 => if 0 ≤ bits / 0x1000000 - 3 then .error .attributeError else .error .typeError
  | .py2 =>
    match unhexlify (fmtHexPad 64 (targetNat bits)) with
    | .ok t => .ok t
    | .error _ => .error .typeError

/-- `a <= b` on byte strings. For `nbc/util/__init__.py:69-72`. -/
def bytesLe : Bytes → Bytes → Bool
  | [], _ => true
  | _ :: _, [] => false
  | a :: s, b :: t => decide (a < b) || (decide (a = b) && bytesLe s t)

/-- `verify_target`, `nbc/util/__init__.py:69-72`; `pow` is the attribute `proof_of_work` of the coin, if it
has one.  No class of `nbc/coins` has one. -/
def verifyTarget (ver : PyVer) (pow : Option (Bytes → Py Bytes)) (fields : List (String × Val)) :
    Py Bool := do
  let b ← compBinary blockHeader.props fields
  match pow with
  | none => .error .attributeError
  | some f => do
    let h ← f (b.take 80)
    match ← getField fields "bits" with
    | .int bits => do
      let t ← getTarget ver bits
      .ok (bytesLe h.reverse t)
    | _ => .error .typeError

/-- `Coin.proof_of_work` for the coins of `nbc/coins/coin.py` and `nbc/coins/newbitcoin.py`: no such
attribute. For `nbc/util/__init__.py:71`. -/
def coinProofOfWork : Option (Bytes → Py Bytes) := none

/-! ### Merkle root -/

/-- `l[0::2]`; for `nbc/util/__init__.py:88-91` -/
def stride2 {α : Type} : List α → List α
  | [] => []
  | [a] => [a]
  | a :: _ :: t => a :: stride2 t

/-- One turn of the loop, `nbc/util/__init__.py:88-91` -/
def merkleStep (H : Hashes) (branches : List Bytes) : List Bytes :=
  let branches := if branches.length % 2 = 1 then branches ++ branches.getLast?.toList else branches
  ((stride2 branches).zip (stride2 branches.tail)).map (fun (a, b) => H.sha256d (a ++ b))

/-- The `while` loop, `nbc/util/__init__.py:87-91`; `fuel` turns at most (the length is enough). -/
def merkleLoop (H : Hashes) : Nat → List Bytes → List Bytes
  | 0, branches => branches
  | fuel + 1, branches =>
    if 1 < branches.length then merkleLoop H fuel (merkleStep H branches) else branches

/-- `Txn.hash`, `nbc/protocol/format.py:481-485` (the cache is not modelled, as in `blockHash`). -/
def txnHash (H : Hashes) (fields : List (String × Val)) : Py Bytes := do
  let b ← compBinary txn.props fields
  .ok (H.sha256d b)

/-- `get_merkle_root`, `nbc/util/__init__.py:84-93`; a transaction is given by its fields. -/
def getMerkleRoot (H : Hashes) (transactions : List (List (String × Val))) : Py Bytes := do
  let branches ← transactions.mapM (txnHash H)
  pyIndex (merkleLoop H branches.length branches) 0

/-! ### Versions and hexadecimal -/

/-- `get_version`, `nbc/util/__init__.py:108-113` -/
def getVersion (version : Int) : Int × Int × Int × Int :=
  (version / 1000000, version / 10000 % 100, version / 100 % 100, version % 100)

/-- `make_version`, `nbc/util/__init__.py:115-118` -/
def makeVersion (major minor revision build : Int) : Py Int :=
  if ¬ ((0 ≤ minor ∧ minor < 100) ∧ (0 ≤ revision ∧ revision < 100) ∧ (0 ≤ build ∧ build < 100)) then
    .error .valueError
  else .ok (major * 1000000 + minor * 10000 + revision * 100 + build)

/-- `hex_to_bin`, `nbc/util/__init__.py:98-99`: Python 2 only. -/
def hexToBin (ver : PyVer) (data : Bytes) : Py Bytes :=
  match ver with
  | .py3 => .error .attributeError
  | .py2 =>
    match unhexlify data with
    | .ok t => .ok t.reverse
    | .error _ => .error .typeError

/-- `bin_to_hex`, `nbc/util/__init__.py:102-103`: Python 2 only. -/
def binToHex (ver : PyVer) (data : Bytes) : Py Bytes :=
  match ver with
  | .py3 => .error .attributeError
  | .py2 => .ok (hexlify data.reverse)

end NBC.Util
