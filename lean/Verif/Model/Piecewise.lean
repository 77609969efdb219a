import Verif.Model.Aes
import Verif.Model.Keys

/-!
# `nbc/util/piecewise.py`

Keys are WIF texts.  An entropy source for `randrange` is a function of the number of the call and of
the number of bytes; each call of `randrange` has a source of its own.  `ver` is the Python version
where the two differ (`xrange`, and comparing or `ord`-ing elements of byte strings).
-/

namespace NBC.Piecewise
open NBC Key Ecdsa Base58 EC Aes

/-- `CHR`, `piecewise.py:58-59`: `ValueError` outside a byte. -/
def CHR (i : Nat) : Py Bytes := if i < 256 then .ok [UInt8.ofNat i] else .error .valueError

/-- `get_address`, `piecewise.py:61-87`.  In Python 3 `public_key[0] != b'\x04'` compares an integer with
bytes and is always true.  The call of `publickey_to_address` on line 87 lacks the argument `vcn`. -/
def getAddress (ver : PyVer) (H : Hashes) (publicKey privateKey : Bytes) : Py Bytes := do
  if publicKey.length ≠ 65 then .error .valueError
  else
    let first ← pyIndex publicKey 0
    if ver = .py3 ∨ first ≠ 4 then .error .valueError
    else
      let x ← stringToNumber ((publicKey.drop 1).take secp256k1.baselen)
      let y ← stringToNumber (publicKey.drop (1 + secp256k1.baselen))
      let publicPoint ← mkPoint secp256k1.curve x y (some secp256k1.order)
      let privateKey ← privkeyFromWif H privateKey
      let secexp ← stringToNumber privateKey
      let privatePoint ← mul secp256k1.curve secp256k1.generator secexp
      let combined ← add secp256k1.curve publicPoint privatePoint
      match combined.x, combined.y with
      | some x, some y => do
        let _ ← numberToString x secp256k1.order
        let _ ← numberToString y secp256k1.order
        .error .typeError
      | _, _ => .error .typeError

/-- `combine_private_keys`, `piecewise.py:90-104` -/
def combinePrivateKeys (H : Hashes) (privateKeys : List Bytes) : Py Bytes := do
  let privateKeys ← privateKeys.mapM (fun k => privkeyFromWif H k)
  let secexps ← privateKeys.mapM stringToNumber
  let combined := secexps.sum % secp256k1.order
  let privateKey ← numberToString combined secp256k1.order
  .ok (privkeyToWif H privateKey)

/-- `xrange`: a `NameError` in Python 3. For `piecewise.py:107-124`, `piecewise.py:173-216`. -/
def xrange (ver : PyVer) (n : Nat) : Py (List Nat) :=
  match ver with
  | .py2 => .ok (List.range n)
  | .py3 => .error .nameError

/-- `split_private_key`, `piecewise.py:107-124`; `ent i` is the entropy of the call number `i` of
`randrange`.  `count - 1` is cut at 0, like the range. -/
def splitPrivateKey (ver : PyVer) (H : Hashes) (privateKey : Bytes) (count : Nat)
    (ent : Nat → Nat → Nat → Bytes) : Py (List Bytes) := do
  let privateKey ← privkeyFromWif H privateKey
  let secexp ← stringToNumber privateKey
  let calls ← xrange ver (count - 1)
  let secexps ← calls.mapM (fun i => randrange secp256k1.order (ent i))
  let missing := ((secexp : Int) - (secexps.sum : Nat)) % secp256k1.order
  let all := secexps.map Int.ofNat ++ [missing]
  let privateKeys ← all.mapM (fun s => numberToString s secp256k1.order)
  .ok (privateKeys.map (fun k => privkeyToWif H k))

/-- `partial_encode_key`, `piecewise.py:195-198` -/
def partialEncodeKey (H : Hashes) (required : Nat) (checksum k : Bytes) (index : Nat) : Py Bytes := do
  let pk ← privkeyFromWif H k
  let i ← CHR index
  let r ← CHR required
  .ok (encodeCheck H ([0x10, 0x01] ++ i ++ r ++ checksum ++ pk))

/-- `get_keys`, `piecewise.py:201-203` -/
def getKeys (ver : PyVer) (H : Hashes) (privateKey : Bytes) (required : Nat) (checksum : Bytes)
    (ent : Nat → Nat → Nat → Bytes) (index : Nat) : Py (List Bytes) := do
  let keys ← splitPrivateKey ver H privateKey required ent
  keys.mapM (fun k => partialEncodeKey H required checksum k index)

/-- `s.add(x)` for a set kept as a list without repetition (in order of insertion; Python's order of
iteration is unspecified). For `piecewise.py:259-260`. -/
def setAdd (s : List Bytes) (x : Bytes) : List Bytes := if x ∈ s then s else s ++ [x]

/-- `frozenset(l)`; for `piecewise.py:173-216` -/
def toSet (l : List Bytes) : List Bytes := l.foldl setAdd []

/-- `partial_split_private_key`, `piecewise.py:173-216`, for non-negative `required` and `total`; `ent i` is
the entropy of key-set `i`. -/
def partialSplit (ver : PyVer) (H : Hashes) (privateKey : Bytes) (required total : Nat)
    (ent : Nat → Nat → Nat → Nat → Bytes) : Py (List (List Bytes)) := do
  if required > total then .error .valueError
  else
    let pk ← privkeyFromWif H privateKey
    let checksum := (H.sha256d pk).take 4
    let r ← xrange ver total
    let keys ← r.mapM (fun i => getKeys ver H privateKey required checksum (ent i) i)
    let r ← xrange ver total
    r.mapM (fun i => do
      let js ← xrange ver required
      let group ← js.mapM (fun j => do
        let ks ← pyIndex keys ((i + j) % total)
        pyIndex ks j)
      .ok (toSet group))

/-- The variables of the loop of `partial_combine_private_keys`: the dictionary `parts` in order of
insertion, `required` and `checksum`. For `piecewise.py:232-260`. -/
structure PState where
  parts : List (UInt8 × List Bytes)
  required : Option Nat
  checksum : Option Bytes

/-- `if index not in parts: parts[index] = set()` and `parts[index].add(x)`, `piecewise.py:259-260` -/
def partsAdd : List (UInt8 × List Bytes) → UInt8 → Bytes → List (UInt8 × List Bytes)
  | [], i, x => [(i, setAdd [] x)]
  | (j, s) :: rest, i, x => if j = i then (j, setAdd s x) :: rest else (j, s) :: partsAdd rest i x

/-- One turn of the loop, `piecewise.py:232-260`.  A wrong check code makes `decode_check` return `None`,
which has no `startswith`.  In Python 3 `startswith` refuses a `str` argument. -/
def combineStep (ver : PyVer) (H : Hashes) (ignoreErrors : Bool) (st : PState) (key : Bytes) :
    Py PState := do
  match ← decodeCheck H key with
  | none => .error .attributeError
  | some pk =>
    if ver = .py3 then .error .typeError
    else if pk.take 2 ≠ [0x10, 0x01] then .error .valueError
    else do
      let r ← pyIndex pk 3
      let required := st.required.getD r.toNat
      if required ≠ r.toNat then
        if ignoreErrors then .ok { st with required := some required } else .error .valueError
      else
        let c := (pk.drop 4).take 4
        let checksum := st.checksum.getD c
        if checksum ≠ c then
          if ignoreErrors then .ok { st with required := some required, checksum := some checksum }
          else .error .valueError
        else do
          let index ← pyIndex pk 2
          .ok ⟨partsAdd st.parts index (pk.drop 8), some required, some checksum⟩

/-- The second loop, `piecewise.py:263-273`, over `parts.values()`. -/
def combineFind (H : Hashes) (required : Option Nat) (checksum : Option Bytes) :
    List (List Bytes) → Py (Option Bytes)
  | [] => .ok none
  | group :: rest =>
    if some group.length = required then do
      let xs ← group.mapM stringToNumber
      let secexp := xs.sum % secp256k1.order
      let privateKey ← numberToString secexp secp256k1.order
      if some ((H.sha256d privateKey).take 4) ≠ checksum then .error .valueError
      else .ok (some (privkeyToWif H privateKey))
    else combineFind H required checksum rest

/-- `partial_combine_private_keys`, `piecewise.py:218-273`; `order` is the order in which `parts.values()`
lists the values. -/
def partialCombine (ver : PyVer) (H : Hashes) (order : List (List Bytes) → List (List Bytes))
    (privateKeys : List Bytes) (ignoreErrors : Bool := false) : Py (Option Bytes) := do
  let st ← privateKeys.foldlM (combineStep ver H ignoreErrors) ⟨[], none, none⟩
  combineFind H st.required st.checksum (order (st.parts.map (·.2)))

end NBC.Piecewise
