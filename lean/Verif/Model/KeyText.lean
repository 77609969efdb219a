import Verif.Model.Passphrase
import Verif.Model.Piecewise

/-!
# Keys given as text

`Model/Base58`, `Model/Key` and what is built on them take byte strings (`str` of Python 2).  Here: the same functions given
text (`str` of Python 3, `unicode` of Python 2), `nbc/util/base58.py:20-25`, `nbc/util/key.py:84-100`, and their callers.  A
value that is text or bytes is a `Wallet.Phrase`.
-/

namespace NBC.KeyText
open NBC Base58 Key Wallet Aes Ecdsa EC

/-- `v.encode('ascii')`; for `base58.py:20-25` -/
def asciiEncode (s : List Char) : Py Bytes :=
  if s.all (fun c => decide (c.toNat < 128)) then .ok (s.map (fun c => UInt8.ofNat c.toNat)) else .error .valueError

/-- `scrub_input`, `base58.py:20-25`: in Python 2 `str` is `bytes`, so `unicode` is neither. -/
def scrubInput (ver : PyVer) : Phrase → Py Bytes
  | .bytes b => .ok b
  | .text s =>
    match ver with
    | .py3 => asciiEncode s
    | .py2 => .error .typeError

/-- `b58encode`, `base58.py:38-52` -/
def b58encodeOf (ver : PyVer) (v : Phrase) : Py Bytes := do
  let v ← scrubInput ver v
  .ok (b58encode v)

/-- `b58decode`, `base58.py:63-78` -/
def b58decodeOf (ver : PyVer) (v : Phrase) : Py Bytes := do
  let v ← scrubInput ver v
  b58decode v

/-- `encode_check`, `base58.py:80-84`.  `sha256` takes no text in Python 3; in Python 2 it takes the ASCII bytes of a text, and
`v + digest[:4]` is text again (the four bytes are decoded as ASCII). -/
def encodeCheckOf (ver : PyVer) (H : Hashes) : Phrase → Py Bytes
  | .bytes b => .ok (encodeCheck H b)
  | .text s =>
    match ver with
    | .py3 => .error .typeError
    | .py2 => do
      let b ← asciiEncode s
      let check := (H.sha256d b).take 4
      if check.all (fun c => decide (c.toNat < 128)) then
        b58encodeOf .py2 (.text (s ++ Proto.latin1Decode check))
      else .error .valueError

/-- `decode_check`, `base58.py:86-95` -/
def decodeCheckOf (ver : PyVer) (H : Hashes) (v : Phrase) : Py (Option Bytes) := do
  let ret ← b58decodeOf ver v
  let body := ret.take (ret.length - 4)
  let check := ret.drop (ret.length - 4)
  if (H.sha256d body).take 4 = check then return some body else return none

/-- `ORD(privkey[0])`, `key.py:42-43,89,95` -/
def ordFirst : Phrase → Py Nat
  | .bytes b => do return (← pyIndex b 0).toNat
  | .text s => do return (← pyIndex s 0).toNat

/-- `privkey_from_wif`, `key.py:84-100` -/
def privkeyFromWifOf (ver : PyVer) (H : Hashes) (privkey : Phrase) (pre : UInt8 := 0x80) : Py Bytes := do
  match ← decodeCheckOf ver H privkey with
  | none => .error .typeError
  | some key =>
    let k0 ← pyIndex key 0
    if pre.toNat ≠ k0.toNat then .error .valueError
    else if key.length = 33 then
      let ch ← ordFirst privkey
      if ch ≠ 53 then .error .valueError
      else return key.drop 1
    else if key.length = 34 then
      let last ← pyIndex key (key.length - 1)
      if last.toNat ≠ 1 then .error .valueError
      else
        let ch ← ordFirst privkey
        if ch ≠ 76 ∧ ch ≠ 75 then .error .valueError
        else return (key.drop 1).take (key.length - 2)
    else .error .valueError

/-- `shared_secret`, `ecc.py:94-107`, for a private key that may be text -/
def sharedSecretOf (ver : PyVer) (H : Hashes) (publicKey : Bytes) (privateKey : Phrase) : Py Bytes := do
  let publicKey ← decompressPublicKey publicKey
  let x ← stringToNumber ((publicKey.drop 1).take 32)
  let y ← stringToNumber (publicKey.drop 33)
  let publicPoint ← mkPoint secp256k1.curve x y none
  let privkey ← privkeyFromWifOf ver H privateKey 0x80
  let secexp ← stringToNumber privkey
  let sharedPoint ← mul secp256k1.curve publicPoint secexp
  match sharedPoint.x with
  | some x => numberToString x secp256k1.order
  | none => .error .typeError

/-- `combine_private_keys`, `piecewise.py:90-104`, for keys that may be text -/
def combinePrivateKeysOf (ver : PyVer) (H : Hashes) (privateKeys : List Phrase) : Py Bytes := do
  let privateKeys ← privateKeys.mapM (fun k => privkeyFromWifOf ver H k)
  let secexps ← privateKeys.mapM stringToNumber
  let combined := secexps.sum % secp256k1.order
  let privateKey ← numberToString combined secp256k1.order
  .ok (privkeyToWif H privateKey)

/-- `Address.__init__`, `address.py:60-104`, for keys that may be text: `assert(type(privKey) == bytes)` (line 68) and
`assert(type(pubKey) == bytes)` (line 83) hold for `bytes` only, in both versions. -/
def addressOf (H : Hashes) (pubKey privKey : Option Phrase) (vcn : Option Int) (rnd : Nat) (testnet : Bool) : Py Address :=
  if (privKey.map Phrase.empty).getD true then
    match pubKey with
    | none => .error .valueError
    | some p =>
      if p.empty then .error .valueError
      else
        match p with
        | .text _ => .error .assertionError
        | .bytes b => Address.init H (some b) none vcn rnd testnet
  else if pubKey ≠ none then .error .valueError
  else
    match privKey with
    | some (.bytes b) => Address.init H none (some b) vcn rnd testnet
    | _ => .error .assertionError

end NBC.KeyText
