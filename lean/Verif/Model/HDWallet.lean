import Verif.Model.Wallet

/-!
# `nbc/wallet/hdwallet.py`

Simplified: the public point that `point()` keeps for the next call is computed anew each time (the
multiplication has no other effect), and keys are integers or points, so the last branch of
`hdwallet.py:58-59` is only met by `load` below.  `depth`, `vcn` and `childnum` are integers.
-/

namespace NBC.Wallet
open NBC Key Ecdsa EC NT Aes Base58

/-- `_prvkey` or `_pubkey`: the constructor sets one of the two. For `hdwallet.py:52-77`. -/
inductive HDKey where
  | prv (k : Int)
  | pub (P : Pt)
  deriving DecidableEq, Repr

/-- An `HDWallet` object. For `hdwallet.py:41-77`. -/
structure HDWallet where
  key : HDKey
  chain : Bytes
  vcn : Int
  testnet : Bool
  depth : Int
  parentfp : Bytes
  childnum : Int
  deriving DecidableEq, Repr

/-- `hash_160`, `hdwallet.py:20-22` -/
def hash160 (H : Hashes) (publicKey : Bytes) : Bytes := H.ripemd160 (H.sha256 publicKey)

/-- `point_compress`, `hdwallet.py:24-27`; `None & 1` is a `TypeError`. -/
def pointCompress : Pt → Py Bytes
  | .inf => .error .typeError
  | .aff x y _ => do
    let s ← numberToString x secp256k1.curve.p
    .ok ([UInt8.ofNat (2 + (y % 2).toNat)] ++ s)

/-- `point_decompress(curve.curve, data)`, `hdwallet.py:29-39` -/
def pointDecompress (data : Bytes) : Py Pt := do
  let C := secp256k1.curve
  let ch ← pyIndex data 0
  pyAssert (ch == 2 || ch == 3)
  let parity : Int := if ch = 2 then 1 else -1
  let x ← stringToNumber (data.drop 1)
  let y ← squareRootModPrime (((x : Int) * x * x + C.a * x + C.b) % (C.p : Int)) C.p
  let y := parity * y % (C.p : Int)
  mkPoint C x y none

/-- Whether it is `_pubkey` that is set. For `hdwallet.py:79-121`. -/
def HDKey.isPub : HDKey → Bool
  | .pub _ => true
  | .prv _ => false

/-- The check of the key, `hdwallet.py:53-57` -/
def HDKey.check : HDKey → Py Unit
  | .pub _ => .ok ()
  | .prv k => pyAssert (decide (0 < k ∧ k < secp256k1.order))

/-- The fields of a master wallet, or those given, `hdwallet.py:69-72` -/
def parentFields : Option (Int × Bytes × Int) → Int × Bytes × Int
  | none => (0, List.replicate 4 0, 0)
  | some t => t

/-- `HDWallet.__init__`, `hdwallet.py:52-77`; `rnd` is the random number, and `parent` holds `depth`,
`parentfp` and `childnum` when `depth` is given. -/
def HDWallet.init (key : HDKey) (chain : Bytes) (vcn : Option Int) (rnd : Nat) (testnet : Bool)
    (parent : Option (Int × Bytes × Int)) : Py HDWallet := do
  key.check
  pyAssert (chain.length == 32)
  let v := vcnOf vcn rnd
  let f := parentFields parent
  pyAssert (decide (f.1 < 256))
  .ok ⟨key, chain, v, testnet, f.1, f.2.1, f.2.2⟩

/-- `HDWallet.point`, `hdwallet.py:146-149` -/
def HDWallet.point (w : HDWallet) : Py Pt :=
  match w.key with
  | .pub P => .ok P
  | .prv k => mul secp256k1.curve secp256k1.generator k

/-- `HDWallet.fingerprint`, `hdwallet.py:172-173` -/
def HDWallet.fingerprint (H : Hashes) (w : HDWallet) : Py Bytes := do
  let P ← w.point
  let s ← pointCompress P
  .ok ((hash160 H s).take 4)

/-- `HDWallet.parentfp`, `hdwallet.py:175-178` -/
def HDWallet.parentFp (w : HDWallet) : Bytes :=
  if w.depth = 0 then List.replicate 4 0 else w.parentfp

/-- The message of the HMAC in `HDWallet.child`, `hdwallet.py:89-96`. -/
def HDWallet.childMsg (w : HDWallet) (i : Int) (hardened : Bool) : Py Bytes := do
  let strI ← numberToString i 4294967295
  if hardened then
    match w.key with
    | .prv k => do
      let strK ← numberToString k secp256k1.order
      .ok ([0x00] ++ strK ++ strI)
    | .pub _ => .error .exception
  else do
    let P ← w.point
    let strK ← pointCompress P
    .ok (strK ++ strI)

/-- The child's key, `hdwallet.py:101-115`. -/
def HDWallet.childKey (w : HDWallet) (m : Nat) : Py HDKey :=
  if m ≥ secp256k1.order then .error .exception
  else match w.key with
    | .prv k =>
      let c := (k + m) % (secp256k1.order : Int)
      if c = 0 then .error .exception else .ok (.prv c)
    | .pub P => do
      let Q ← mul secp256k1.curve secp256k1.generator m
      let R ← add secp256k1.curve P Q
      if R.eq .inf then .error .exception else .ok (.pub R)

/-- `HDWallet.child`, `hdwallet.py:79-121`; `rnd` is the random number drawn by the constructor, which gets
no `vcn`. -/
def HDWallet.child (H : Hashes) (w : HDWallet) (i : Int) (rnd : Nat) : Py HDWallet := do
  pyAssert (decide (0 ≤ i ∧ i ≤ 4294967295))
  let hardened := decide (i.toNat &&& 0x80000000 ≠ 0)
  if hardened && w.key.isPub then .error .exception
  else
    pyAssert (decide (w.depth < 255))
    let msg ← w.childMsg i hardened
    let deriv := H.hmacSha512 w.chain msg
    let childChain := deriv.drop 32
    let childModifier ← stringToNumber (deriv.take 32)
    let childKey ← w.childKey childModifier
    let fp ← w.fingerprint H
    HDWallet.init childKey childChain none rnd w.testnet (some (w.depth + 1, fp, i))

/-- The version field, `hdwallet.py:124-127` -/
def extVersion (testnet includePrv : Bool) : Nat :=
  if ¬ testnet then (if ¬ includePrv then 0x0488B21E else 0x0488ADE4)
  else (if ¬ includePrv then 0x043587CF else 0x04358394)

/-- The key bytes of `to_extended_key`, `hdwallet.py:135-140` -/
def HDWallet.extData (w : HDWallet) (includePrv : Bool) : Py Bytes :=
  if includePrv then
    match w.key with
    | .pub _ => .error .exception
    | .prv k => do
      let s ← numberToString k secp256k1.order
      .ok ([0x00] ++ s)
  else do
    let P ← w.point
    pointCompress P

/-- `HDWallet.to_extended_key`, `hdwallet.py:123-144` -/
def HDWallet.toExtendedKey (H : Hashes) (w : HDWallet) (includePrv : Bool) : Py Bytes := do
  let version ← numberToString (extVersion w.testnet includePrv) 4294967295
  let depth ← numberToString w.depth 255
  let childnum ← numberToString w.childnum 4294967295
  let data ← w.extData includePrv
  let ekdata := version ++ depth ++ w.parentFp ++ childnum ++ w.chain ++ data
  let checksum := (H.sha256 (H.sha256 ekdata)).take 4
  .ok (b58encode (ekdata ++ checksum))

/-- A call of a function of one parameter. For `hdwallet.py:198`. -/
def callOne {α β : Type} (f : α → Py β) : List α → Py β
  | [a] => f a
  | _ => .error .typeError

/-- The key of `from_extended_key`, `hdwallet.py:215-222` -/
def importKey (version : Nat) (data : Bytes) : Py HDKey :=
  if version = 0x0488B21E ∨ version = 0x043587CF then do
    let ch ← pyIndex data 0
    pyAssert (ch == 2 || ch == 3)
    let P ← pointDecompress data
    .ok (.pub P)
  else if version = 0x0488ADE4 ∨ version = 0x04358394 then do
    let ch ← pyIndex data 0
    pyAssert (ch == 0)
    let k ← stringToNumber (data.drop 1)
    .ok (.prv k)
  else .error .exception

/-- What `from_extended_key` reads from the decoded bytes, `hdwallet.py:199-222`: the key, the chain code, the
test-net flag, the depth, the child number and the parent's fingerprint. -/
def importFields (H : Hashes) (decoded : Bytes) : Py (HDKey × Bytes × Bool × Nat × Nat × Bytes) := do
  pyAssert (decide (decoded ≠ []))
  let ekdata := decoded.take 78
  let checksum := (decoded.drop 78).take 4
  pyAssert (decide (checksum = (H.sha256 (H.sha256 ekdata)).take 4))
  let version ← stringToNumber (ekdata.take 4)
  let depth ← stringToNumber ((ekdata.drop 4).take 1)
  let childnum ← stringToNumber ((ekdata.drop 9).take 4)
  let key ← importKey version ((ekdata.drop 45).take 33)
  .ok (key, (ekdata.drop 13).take 32, decide (version = 0x043587CF ∨ version = 0x04358394), depth, childnum,
    (ekdata.drop 5).take 4)

/-- `from_extended_key` after its first statement, `hdwallet.py:199-226`: the arguments of the last call name
`self`, which a static method does not have. -/
def importBody (H : Hashes) (decoded : Bytes) : Py HDWallet := do
  let _ ← importFields H decoded
  .error .nameError

/-- `HDWallet.from_extended_key`, `hdwallet.py:196-226`: the first statement calls `b58decode`
(`nbc/util/base58.py:63`), which has one parameter, with two arguments. (The second argument, the number 82,
is written as a byte string here.) -/
def HDWallet.fromExtendedKey (H : Hashes) (extendedKey : Bytes) : Py HDWallet := do
  let decoded ← callOne b58decode [extendedKey, [78 + 4]]
  importBody H decoded

/-- The method `prvkey`, `hdwallet.py:156-159` -/
def HDWallet.prvBytes (w : HDWallet) : Py (Option Bytes) :=
  match w.key with
  | .prv k => do
    let s ← numberToString k secp256k1.order
    .ok (some s)
  | .pub _ => .ok none

/-- `HDWallet.address`, `hdwallet.py:164-167`, with the default version byte. -/
def HDWallet.address (H : Hashes) (w : HDWallet) : Py Bytes := do
  let P ← w.point
  let s ← pointCompress P
  .ok (publickeyToAddress H s w.vcn (verByte w.testnet))

/-- `HDWallet.sign`, `hdwallet.py:183-187` -/
def HDWallet.sign (H : Hashes) (w : HDWallet) (data : Bytes) (entropy : Nat → Nat → Bytes) : Py Bytes := do
  match ← w.prvBytes with
  | none => .error .valueError
  | some s => Ecc.sign H data s entropy

/-- `HDWallet.verify`, `hdwallet.py:189-194` -/
def HDWallet.verify (H : Hashes) (w : HDWallet) (data signature : Bytes) : Py Bool := do
  let P ← w.point
  let key ← keyFromPoint P false
  Ecc.verify H data key signature

/-- `b'Bitcoin seed'`; for `hdwallet.py:229-237` -/
def seedKey : Bytes := [66, 105, 116, 99, 111, 105, 110, 32, 115, 101, 101, 100]

/-- `HDWallet.from_master_seed`, `hdwallet.py:229-237`, for a seed given as bytes. -/
def HDWallet.fromMasterSeed (H : Hashes) (seed : Bytes) (vcn : Option Int) (rnd : Nat) (testnet : Bool) :
    Py HDWallet := do
  let deriv := H.hmacSha512 seedKey seed
  let m ← stringToNumber (deriv.take 32)
  let masterKey := m % secp256k1.order
  if masterKey = 0 then .error .valueError
  else HDWallet.init (.prv masterKey) (deriv.drop 32) vcn rnd testnet none

/-- The dictionary of `HDWallet.dump_to_cfg` (without the constant `'type': 'HD'`).
For `hdwallet.py:239-263`, `hdwallet.py:267-284`. -/
structure HDCfg where
  encrypted : Bool
  chain : Bytes
  vcn : Int
  testnet : Bool
  depth : Int
  parentfp : Bytes
  childnum : Int
  prvkey : Option Bytes
  pubkey : Option Bytes
  deriving DecidableEq, Repr

/-- `HDWallet.dump_to_cfg`, `hdwallet.py:239-263` -/
def HDWallet.dump (ver : PyVer) (w : HDWallet) (passphrase : Bytes) : Py HDCfg :=
  match w.key with
  | .prv k => do
    let sPrv ← numberToString k secp256k1.order
    let (s, e) ← dumpSecret ver sPrv passphrase
    .ok ⟨e, hexlify w.chain, w.vcn, w.testnet, w.depth, hexlify w.parentFp, w.childnum, some s, none⟩
  | .pub P => do
    let s ← pointCompress P
    .ok ⟨false, hexlify w.chain, w.vcn, w.testnet, w.depth, hexlify w.parentFp, w.childnum, none,
      some (hexlify s)⟩

/-- `prvKey or pubKey` in `hdwallet.py:267-284`.  Where it is no integer and no point, the constructor
raises: `TypeError` in Python 2, and in Python 3 `NameError` since there is no `long`. -/
def HDCfg.key (ver : PyVer) (cfg : HDCfg) (passphrase prompt : Bytes) : Py HDKey :=
  let bad : PyErr := match ver with | .py2 => .typeError | .py3 => .nameError
  match cfg.prvkey.getD [] with
  | c :: cs => do
    let s ← loadSecret ver (c :: cs) cfg.encrypted passphrase prompt
    let k ← stringToNumber s
    if k = 0 then .error bad else .ok (.prv k)
  | [] =>
    match cfg.pubkey.getD [] with
    | c :: cs => do
      let s ← unhexlify (c :: cs)
      let P ← pointDecompress s
      .ok (.pub P)
    | [] => .error bad

/-- `HDWallet.load_from_cfg`, `hdwallet.py:265-286`.  (With an unusable key the constructor raises after
the fields are decoded; here before.) -/
def HDWallet.load (ver : PyVer) (cfg : HDCfg) (passphrase prompt : Bytes) : Py HDWallet := do
  let key ← cfg.key ver passphrase prompt
  let chain ← unhexlify cfg.chain
  let fp ← unhexlify cfg.parentfp
  HDWallet.init key chain (some cfg.vcn) 0 cfg.testnet (some (cfg.depth, fp, cfg.childnum))

/-! ### `nbc/wallet/__init__.py` -/

/-- A wallet object of either class. For `nbc/wallet/__init__.py:3-4`. -/
inductive AnyWallet where
  | default (a : Address)
  | hd (w : HDWallet)
  deriving DecidableEq, Repr

/-- A dictionary with the value of its `'type'` entry. For `nbc/wallet/__init__.py:17-22`. -/
inductive AnyCfg where
  | default (c : AddrCfg)
  | hd (c : HDCfg)
  | other
  deriving DecidableEq, Repr

/-- `wallet.dump_to_cfg(passphrase)`, `wallet/__init__.py:9` -/
def AnyWallet.dump (ver : PyVer) (w : AnyWallet) (passphrase : Bytes) : Py AnyCfg :=
  match w with
  | .default a => do
    let c ← a.dump ver passphrase
    .ok (.default c)
  | .hd w => do
    let c ← w.dump ver passphrase
    .ok (.hd c)

/-- The content of the file after each step of `saveTo`, `wallet/__init__.py:8-12`, from the content `old`
(`none`: no file).  `json` is `json.dumps`.  Opening with mode `w` empties the file; the text then reaches the
disk in pieces whose sizes the system chooses (`cuts`: how many bytes have arrived at each moment).  The list
ends with the content after a complete run. -/
def saveTo (ver : PyVer) (json : AnyCfg → Bytes) (w : AnyWallet) (passphrase : Bytes) (old : Option Bytes)
    (cuts : List Nat) : List (Option Bytes) :=
  match w.dump ver passphrase with
  | .error _ => [old]
  | .ok cfg => [old, some []] ++ cuts.map (fun c => some ((json cfg).take c)) ++ [some (json cfg)]

/-- The choice of class in `loadFrom`, `wallet/__init__.py:17-22` -/
def AnyCfg.load (ver : PyVer) (H : Hashes) (cfg : AnyCfg) (passphrase prompt : Bytes) : Py AnyWallet :=
  match cfg with
  | .hd c => do
    let w ← HDWallet.load ver c passphrase prompt
    .ok (.hd w)
  | .default c => do
    let a ← Address.load ver H c passphrase prompt 0
    .ok (.default a)
  | .other => .error .runtimeError

/-- `loadFrom`, `wallet/__init__.py:14-22`; `parse` is `json.loads` (which raises `ValueError`). -/
def loadFrom (ver : PyVer) (H : Hashes) (parse : Bytes → Py AnyCfg) (file : Option Bytes)
    (passphrase prompt : Bytes) : Py AnyWallet :=
  match file with
  | none => .error .ioError
  | some text => do
    let cfg ← parse text
    cfg.load ver H passphrase prompt

end NBC.Wallet
