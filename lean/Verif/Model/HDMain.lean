import Verif.Model.HDWallet

/-!
# The workflow that `hdwallet.py` demonstrates
-/

namespace NBC.Wallet
open NBC Key Ecdsa EC Aes Base58

/-- `HDWallet.pubkey`, `hdwallet.py:151-154` -/
def HDWallet.pubkey (w : HDWallet) : Py Bytes := do
  let P ← w.point
  let x ← coordString P.x secp256k1.order
  let y ← coordString P.y secp256k1.order
  .ok (x ++ y)

/-- What `main` prints. For `hdwallet.py:293-316`. -/
structure MainOut where
  pubMaster : Bytes
  webAddress : Bytes
  webPrv : Option Bytes
  prvMaster : Bytes
  coldAddress : Bytes
  coldPrv : Option Bytes
  deriving DecidableEq, Repr

/-- `'HDWallet seed'.encode('latin-1')`; for `hdwallet.py:293-316` -/
def mainSeed : Bytes := [72, 68, 87, 97, 108, 108, 101, 116, 32, 115, 101, 101, 100]

/-- `main`, `hdwallet.py:293-316`.  The random numbers are those that the constructors draw: for the master wallet, and
for the two children of the wallet of the web server and of the cold wallet.  Simplified: the private key is returned,
not its hexadecimal text. -/
def hdMain (H : Hashes) (rnd web1 web2 cold1 cold2 : Nat) : Py MainOut := do
  let master ← HDWallet.fromMasterSeed H mainSeed none rnd false
  let prvMaster ← master.toExtendedKey H true
  let pubMaster ← master.toExtendedKey H false
  let web ← HDWallet.fromExtendedKey H pubMaster
  let c ← web.child H 23 web1
  let c ← c.child H 42 web2
  let webAddress ← c.address H
  let webPrv ← c.prvBytes
  let cold ← HDWallet.fromExtendedKey H prvMaster
  let d ← cold.child H 23 cold1
  let d ← d.child H 42 cold2
  let coldAddress ← d.address H
  let coldPrv ← d.prvBytes
  .ok ⟨pubMaster, webAddress, webPrv, prvMaster, coldAddress, coldPrv⟩

end NBC.Wallet
