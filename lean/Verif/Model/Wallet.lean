import Verif.Model.AesModes
import Verif.Model.Keys
import Verif.Model.Rand

/-!
# `nbc/wallet/address.py`

Passphrases are byte strings here; those of Python 3 that are text are in `Model/Passphrase`.
A dictionary made by `dump_to_cfg` is a record, and hexadecimal texts in it are byte strings.  `random` and
the prompt for a passphrase are arguments.  `b'%02x' % n` needs Python 2 or 3.5 and later; version 3.4, where
it raises, is not modelled.
-/

namespace NBC.Wallet
open NBC Key Ecdsa EC Aes

/-- `passphrase[:16].ljust(16,b'\x00')`, `address.py:18,41` -/
def passKey (passphrase : Bytes) : Bytes :=
  let p := passphrase.take 16
  p ++ List.replicate (16 - p.length) 0

/-- `s[i:i+16]` for `i = 0, 16, ..` (`m` slices), as in the loops of `address.py:27-29,45-47`. -/
def slices16 (s : Bytes) (m : Nat) : List Bytes := (List.range m).map (fun i => (s.drop (16 * i)).take 16)

/-- `_aesEncrypt`, `address.py:15-30` -/
def aesEncrypt (ver : PyVer) (sText passphrase : Bytes) : Py Bytes := do
  let aes ← CBC.init ver (passKey passphrase) none
  let m := sText.length / 16
  let n := sText.length % 16
  let sText' := if n ≠ 0 then sText ++ List.replicate (16 - n) 0 else sText
  let m' := if n ≠ 0 then m + 1 else m
  let (out, _) ← runCalls CBC.encrypt aes (slices16 sText' m')
  .ok out.flatten

/-- `_aesDecrypt`, `address.py:32-48`; `prompt` is what the user types when no passphrase is given (the
loop asks until it is not empty). -/
def aesDecrypt (ver : PyVer) (sText passphrase prompt : Bytes) : Py Bytes := do
  let m := sText.length / 16
  let n := sText.length % 16
  if m = 0 ∨ m ≥ 16 ∨ n ≠ 0 then .error .valueError
  else
    let passphrase := if passphrase = [] then prompt else passphrase
    let aes ← CBC.init ver (passKey passphrase) none
    let (out, _) ← runCalls CBC.decrypt aes (slices16 sText m)
    .ok out.flatten

/-- A coordinate in `number_to_string`: `"%x" % None` is a `TypeError`. For `address.py:50-57`. -/
def coordString (c : Option Int) (order : Nat) : Py Bytes :=
  match c with
  | some v => numberToString v order
  | none => .error .typeError

/-- `_keyFromPoint`, `address.py:50-57` -/
def keyFromPoint (point : Pt) (compressed : Bool) : Py Bytes := do
  let x ← coordString point.x secp256k1.order
  let y ← coordString point.y secp256k1.order
  let key := [0x04] ++ x ++ y
  if compressed then compressPublicKey key else .ok key

/-- An `Address` object. For `address.py:59-104`. -/
structure Address where
  pubKey : Bytes
  privKey : Option Bytes
  vcn : Int
  testnet : Bool
  compressed : Bool
  address : Bytes
  deriving DecidableEq, Repr

/-- `publicKey`, `address.py:113-117`, before the object is complete. -/
def publicKeyOf (pubKey : Bytes) (compressed : Bool) : Py Bytes :=
  if compressed then compressPublicKey pubKey else .ok pubKey

/-- `Address.publicKey`, `address.py:113-117` -/
def Address.publicKey (a : Address) : Py Bytes := publicKeyOf a.pubKey a.compressed

/-- The version byte of an address, `address.py:103` -/
def verByte (testnet : Bool) : Bytes := if testnet then [0x6f] else [0x00]

/-- The virtual chain number, `address.py:98-100`; `rnd` is the random number. -/
def vcnOf (vcn : Option Int) (rnd : Nat) : Int :=
  match vcn with
  | none => rnd
  | some v => v % 65536

/-- The private key part of the constructor, `address.py:65-80`: the public key, the private key kept and
the flag.  An empty private key counts as none. -/
def initPriv (H : Hashes) (pubKey privKey : Option Bytes) : Py (Option Bytes × Option Bytes × Bool) :=
  match privKey with
  | none => .ok (pubKey, none, false)
  | some pk =>
    if pk = [] then .ok (pubKey, none, false)
    else if pubKey ≠ none then .error .valueError
    else do
      let ch ← pyIndex pk 0
      if ch ≠ 76 ∧ ch ≠ 75 ∧ ch ≠ 53 then .error .valueError
      else
        let key ← privkeyFromWif H pk
        let secexp ← stringToNumber key
        let point ← mul secp256k1.curve secp256k1.generator secexp
        let pub ← keyFromPoint point false
        .ok (some pub, some pk, ch = 76 ∨ ch = 75)

/-- The public key part of the constructor, `address.py:82-96`: the decompressed key and whether the flag
is set here. -/
def initPub (pubKey : Option Bytes) : Py (Bytes × Bool) :=
  match pubKey with
  | none => .error .valueError
  | some pub =>
    if pub = [] then .error .valueError
    else do
      let ch ← pyIndex pub 0
      if ch = 4 then
        if pub.length ≠ 65 then .error .valueError else .ok (pub, false)
      else if ch = 2 ∨ ch = 3 then do
        let pub ← decompressPublicKey pub
        .ok (pub, true)
      else .error .valueError

/-- `Address.__init__`, `address.py:60-104` -/
def Address.init (H : Hashes) (pubKey privKey : Option Bytes) (vcn : Option Int) (rnd : Nat)
    (testnet : Bool) : Py Address := do
  let (pubKey, privKey, c1) ← initPriv H pubKey privKey
  let (pub, c2) ← initPub pubKey
  let compressed := c1 || c2
  let v := vcnOf vcn rnd
  let key ← publicKeyOf pub compressed
  .ok ⟨pub, privKey, v, testnet, compressed, publickeyToAddress H key v (verByte testnet)⟩

/-- `Address._priv_key`, `address.py:119-123` -/
def Address.privBytes (H : Hashes) (a : Address) : Py (Option Bytes) :=
  match a.privKey with
  | none => .ok none
  | some w => do
    let k ← privkeyFromWif H w
    .ok (some k)

/-- `Address.generate`, `address.py:126-132` -/
def Address.generate (H : Hashes) (vcn : Option Int) (rnd : Nat) (testnet compressed : Bool)
    (entropy : Nat → Nat → Bytes) : Py Address := do
  let secexp ← randrange secp256k1.order entropy
  let key ← numberToString secexp secp256k1.order
  let key := if compressed then key ++ [0x01] else key
  Address.init H none (some (privkeyToWif H key)) vcn rnd testnet

/-- `Address.decompress`, `address.py:134-142`; a private key or public key held by an object is never
empty. -/
def Address.decompress (H : Hashes) (a : Address) : Py Address :=
  if ¬ a.compressed then .ok a
  else match a.privKey with
    | some w => do
      let k ← privkeyFromWif H w
      Address.init H none (some (privkeyToWif H k)) (some a.vcn) 0 a.testnet
    | none => do
      let pub ← decompressPublicKey a.pubKey
      Address.init H (some pub) none (some a.vcn) 0 a.testnet

/-- `Address.compress`, `address.py:144-152` -/
def Address.compress (H : Hashes) (a : Address) : Py Address :=
  if a.compressed then .ok a
  else match a.privKey with
    | some w => do
      let k ← privkeyFromWif H w
      Address.init H none (some (privkeyToWif H (k ++ [0x01]))) (some a.vcn) 0 a.testnet
    | none => do
      let pub ← compressPublicKey a.pubKey
      Address.init H (some pub) none (some a.vcn) 0 a.testnet

/-- `Address.sign`, `address.py:154-159` -/
def Address.sign (H : Hashes) (a : Address) (data : Bytes) (entropy : Nat → Nat → Bytes) : Py Bytes :=
  match a.privKey with
  | none => .error .valueError
  | some w => do
    let pk ← privkeyFromWif H w
    Ecc.sign H data pk entropy

/-- `Address.verify`, `address.py:161-165` -/
def Address.verify (H : Hashes) (a : Address) (data signature : Bytes) : Py Bool :=
  Ecc.verify H data a.pubKey signature

/-! ### Saving and loading -/

/-- The dictionary of `Address.dump_to_cfg` (without the constant `'type': 'default'`).
For `address.py:172-191`, `address.py:194-210`. -/
structure AddrCfg where
  encrypted : Bool
  vcn : Int
  testnet : Bool
  prvkey : Option Bytes
  pubkey : Option Bytes
  deriving DecidableEq, Repr

/-- The length prefix, the encryption and the hexadecimal text of a secret, `address.py:181-188` and
`hdwallet.py:251-258`. -/
def dumpSecret (ver : PyVer) (secret passphrase : Bytes) : Py (Bytes × Bool) := do
  pyAssert (decide (secret.length ≤ 255))
  let s := fmtHexPad 2 secret.length ++ secret
  if passphrase ≠ [] then
    let e ← aesEncrypt ver s passphrase
    .ok (hexlify e, true)
  else .ok (hexlify s, false)

/-- `Address.dump_to_cfg`, `address.py:172-191` -/
def Address.dump (ver : PyVer) (a : Address) (passphrase : Bytes) : Py AddrCfg :=
  match a.privKey with
  | some w => do
    let (s, e) ← dumpSecret ver w passphrase
    .ok ⟨e, a.vcn, a.testnet, some s, none⟩
  | none => .ok ⟨false, a.vcn, a.testnet, none, some (hexlify a.pubKey)⟩

/-- ASCII white space as `int()` strips it. For `address.py:202`. -/
def isSpace (c : UInt8) : Bool := (9 ≤ c && c ≤ 13) || c == 32

/-- `int(s, 16)` for at most two bytes: white space around, then a sign or not, then digits (the prefix
`0x` leaves no digits in two bytes). For `address.py:197-207`, `hdwallet.py:269-279`. -/
def intHex (s : Bytes) : Py Int := do
  let t := ((s.dropWhile isSpace).reverse.dropWhile isSpace).reverse
  match t with
  | 43 :: ds => do let v ← intOfHex ds; .ok v
  | 45 :: ds => do let v ← intOfHex ds; .ok (-v)
  | ds => do let v ← intOfHex ds; .ok v

/-- `s[2:e]` for an end that may be negative. For `address.py:197-207`, `hdwallet.py:269-279`. -/
def slice2 (s : Bytes) (e : Int) : Bytes :=
  (s.take (if e < 0 then (e + s.length).toNat else e.toNat)).drop 2

/-- Taking the secret out of a dictionary, `address.py:197-207` and `hdwallet.py:269-279`. -/
def loadSecret (ver : PyVer) (text : Bytes) (encrypted : Bool) (passphrase prompt : Bytes) : Py Bytes := do
  let s ← unhexlify text
  let s ← if encrypted then aesDecrypt ver s passphrase prompt else .ok s
  match intHex (s.take 2) with
  | .error _ => .error .valueError
  | .ok orgLen =>
    let nowLen : Int := s.length
    if nowLen < 2 + orgLen ∨ nowLen > orgLen + 17 then .error .valueError
    else .ok (slice2 s (2 + orgLen))

/-- `Address.load_from_cfg`, `address.py:194-210`; an empty text counts as none. -/
def Address.load (ver : PyVer) (H : Hashes) (cfg : AddrCfg) (passphrase prompt : Bytes) (rnd : Nat) :
    Py Address :=
  match cfg.prvkey with
  | some t =>
    if t ≠ [] then do
      let prv ← loadSecret ver t cfg.encrypted passphrase prompt
      Address.init H cfg.pubkey (some prv) (some cfg.vcn) rnd cfg.testnet
    else loadPub cfg
  | none => loadPub cfg
where
  /-- The branch without a private key. -/
  loadPub (cfg : AddrCfg) : Py Address :=
    match cfg.pubkey with
    | some t =>
      if t ≠ [] then do
        let pub ← unhexlify t
        Address.init H (some pub) cfg.prvkey (some cfg.vcn) rnd cfg.testnet
      else Address.init H (some t) cfg.prvkey (some cfg.vcn) rnd cfg.testnet
    | none => Address.init H none cfg.prvkey (some cfg.vcn) rnd cfg.testnet

end NBC.Wallet
