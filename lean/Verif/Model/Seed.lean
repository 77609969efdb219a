import Verif.Model.Passphrase

/-!
# Master seeds as they are given

`HDWallet.from_master_seed`, `nbc/wallet/hdwallet.py:228-237`, for a seed that is bytes or text, and the wallet at the end of
a path of child numbers.
-/

namespace NBC.Wallet
open NBC

/-- `HDWallet.from_master_seed`, `hdwallet.py:228-237`: text is encoded in latin-1 (lines 230-231). -/
def fromSeedOf (H : Hashes) (seed : Phrase) (vcn : Option Int) (rnd : Nat) (testnet : Bool) : Py HDWallet := do
  let seed ← seed.encode
  HDWallet.fromMasterSeed H seed vcn rnd testnet

/-- `w.child(i).child(j)...`, `hdwallet.py:79-121`, with the random number each constructor draws -/
def HDWallet.along (H : Hashes) (w : HDWallet) : List (Int × Nat) → Py HDWallet
  | [] => .ok w
  | (i, rnd) :: rest => do
    let c ← w.child H i rnd
    c.along H rest

end NBC.Wallet
