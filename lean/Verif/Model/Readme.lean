import Verif.Model.WalletFile

/-!
# The programs of the README

`README.md:28-102` shows how wallets are used: what is printed, saved, loaded, signed and verified there, line by
line.  `__str__` of both wallet classes is in `address.py:167-170` and `hdwallet.py:288-291`.
-/

namespace NBC.Wallet
open NBC Key Aes

/-- `'%s' % s` for a byte string: the text in Python 2, its `repr` in Python 3.  (Simplified: no escapes; the byte
strings printed are base58 text.) For `address.py:167-170`, `hdwallet.py:288-291`. -/
def pctS (ver : PyVer) (s : Bytes) : Bytes :=
  match ver with
  | .py2 => s
  | .py3 => 98 :: 39 :: (s ++ [39])

/-- `'None'` or `'**redacted**'`, `address.py:168-169`, `hdwallet.py:289-290` -/
def redacted (hasKey : Bool) : Bytes :=
  if hasKey then [42, 42, 114, 101, 100, 97, 99, 116, 101, 100, 42, 42] else [78, 111, 110, 101]

/-- `' address=%s private=%s>'`; for `address.py:167-170`, `hdwallet.py:288-291` -/
def strTail (ver : PyVer) (address : Bytes) (hasKey : Bool) : Bytes :=
  [32, 97, 100, 100, 114, 101, 115, 115, 61] ++ pctS ver address ++
    ([32, 112, 114, 105, 118, 97, 116, 101, 61] ++ redacted hasKey ++ [62])

/-- `Address.__str__`, `address.py:167-170`; `if self._privKey` is false for `None` and for no bytes. -/
def Address.str (ver : PyVer) (a : Address) : Bytes :=
  [60, 65, 100, 100, 114, 101, 115, 115] ++ strTail ver a.address (decide (a.privKey.getD [] ≠ []))

/-- `HDWallet.__str__`, `hdwallet.py:288-291`; a private key is never 0. -/
def HDWallet.str (ver : PyVer) (H : Hashes) (w : HDWallet) : Py Bytes := do
  let address ← w.address H
  .ok ([60, 72, 68] ++ strTail ver address (!w.key.isPub))

/-- `print(wallet)`; for `nbc/wallet/address.py:167-170`, `nbc/wallet/hdwallet.py:288-291` -/
def AnyWallet.str (ver : PyVer) (H : Hashes) : AnyWallet → Py Bytes
  | .default a => .ok (a.str ver)
  | .hd w => w.str ver H

/-- `saveTo` run to its end, `wallet/__init__.py:8-12`: the file, or the exception. -/
def saved (ver : PyVer) (json : AnyCfg → Bytes) (w : AnyWallet) (passphrase : Bytes) : Py (Option Bytes) := do
  let cfg ← w.dump ver passphrase
  .ok (some (json cfg))

/-- `b'password'`, `README.md:49,81` -/
def password : Bytes := [112, 97, 115, 115, 119, 111, 114, 100]

/-- `b'example'`, `README.md:96-102` -/
def exampleData : Bytes := [101, 120, 97, 109, 112, 108, 101]

/-- `'HDWallet seed'` as bytes, `README.md:62,69,100` -/
def readmeSeed : Bytes := [72, 68, 87, 97, 108, 108, 101, 116, 32, 115, 101, 101, 100]

/-- Part 1, `README.md:28-53`: the three texts printed and the wallet `addr3`, for which `typed` is entered at the
prompt. -/
def readmeDefault (ver : PyVer) (H : Hashes) (json : AnyCfg → Bytes) (rnd : Nat) (entropy : Nat → Nat → Bytes)
    (typed : Bytes) : Py (List Bytes × AnyWallet) := do
  let addr ← Address.generate H none rnd false true entropy
  let _ ← addr.publicKey
  let f1 ← saved ver json (.default addr) []
  let addr' ← loadFrom ver H readCfg f1 [] []
  let t1 ← addr'.str ver H
  let f2 ← saved ver json (.default addr) password
  let addr2 ← loadFrom ver H readCfg f2 password []
  let t2 ← addr2.str ver H
  let addr3 ← loadFrom ver H readCfg f2 [] typed
  .ok ([addr.str ver, t1, t2], addr3)

/-- Part 2 without the extended keys, `README.md:62-63` and `README.md:80-87`: the three texts printed. -/
def readmeHD (ver : PyVer) (H : Hashes) (json : AnyCfg → Bytes) (rnd : Nat) : Py (List Bytes) := do
  let addr ← HDWallet.fromMasterSeed H readmeSeed none rnd false
  let t0 ← addr.str ver H
  let f1 ← saved ver json (.hd addr) []
  let f2 ← saved ver json (.hd addr) password
  let addr' ← loadFrom ver H readCfg f1 [] []
  let t1 ← addr'.str ver H
  let addr2 ← loadFrom ver H readCfg f2 password []
  let t2 ← addr2.str ver H
  .ok [t0, t1, t2]

/-- The extended keys, `README.md:69-74`: the wallet `child2342`. -/
def readmeExtend (H : Hashes) (rnd web1 web2 : Nat) : Py HDWallet := do
  let master ← HDWallet.fromMasterSeed H readmeSeed none rnd false
  let _ ← master.toExtendedKey H true
  let pubMaster ← master.toExtendedKey H false
  let webWallet ← HDWallet.fromExtendedKey H pubMaster
  let c ← webWallet.child H 23 web1
  c.child H 42 web2

/-- `addr.publicKey().verify(..)`: `publicKey` gives a byte string, which has no such method.
For `nbc/wallet/address.py:113-117`. -/
def bytesVerify (_key _data _signature : Bytes) : Py Bool := .error .attributeError

/-- Part 3, `README.md:95-102`: the answers of the three calls of `verify`.  The two calls of `sign` draw from two
sources. -/
def readmeSign (H : Hashes) (rnd rnd2 : Nat) (entropy ent1 ent2 : Nat → Nat → Bytes) : Py (Bool × Bool × Bool) := do
  let addr ← Address.generate H none rnd false true entropy
  let ss ← addr.sign H exampleData ent1
  let v1 ← addr.verify H exampleData ss
  let key ← addr.publicKey
  let v2 ← bytesVerify key exampleData ss
  let addr2 ← HDWallet.fromMasterSeed H readmeSeed none rnd2 false
  let ss2 ← addr2.sign H exampleData ent2
  let v3 ← addr2.verify H exampleData ss2
  .ok (v1, v2, v3)

end NBC.Wallet
