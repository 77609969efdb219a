import Verif.Model.HDWallet
import Verif.Model.Sha1

/-!
# Published values for keys: BIP 32, WIF, Base58

The first test vector of BIP 32, the private key of the "Wallet import format" page and the vectors of the Base58
draft, on the model with the real hash functions.  These are tests of the model, not proofs of a property; the code
in `/repo` has no tests of its own for these functions.
-/

namespace NBC.Tests

open NBC Ecdsa Wallet Base58 Key

/-- The master wallet of test vector 1. -/
def vector1 : Py HDWallet :=
  HDWallet.fromMasterSeed Sha.hashes (Sha.unword 16 0x000102030405060708090a0b0c0d0e0f) (some 0) 0 false

/-- Chain m, the private key. -/
example : (do (← vector1).toExtendedKey Sha.hashes true) =
    .ok (Sha.unword 111 0x78707276397332315a7251483134334b335154444c344c587732463748454b33774a5544326e57326e526b347374625079366371336a5050716a6943686b5676764e4b6d50474a7857557467364c6e46356b656a4d524e4e55335447745242654a676b33337975474278724d504869) := by
  decide +kernel

/-- Chain m, the public key. -/
example : (do (← vector1).toExtendedKey Sha.hashes false) =
    .ok (Sha.unword 111 0x787075623636314d794d77417152626346745867533573594a414271714739594c6d433451315264617039675345384e7174777962476865505932675a32394553466a714a6f4375315275706a65385974477173656644323635544d67377573554446647036573145474d63657438) := by
  decide +kernel

/-- Chain m/0H, the private key. -/
example : (do (← (← vector1).child Sha.hashes 0x80000000 0).toExtendedKey Sha.hashes true) =
    .ok (Sha.unword 111 0x78707276397548525a5a686b364b414a433161765870444170344d44633373514b4e7844695076766b58384272356e674c4e76315478765578743463563172474c35686a364b4365736e4459556864376f5767543131655a4737586e7848726e596553766b7a5937643262686b4a37) := by
  decide +kernel

/-- Chain m/0H/1, the private key, from the one of m/0H. -/
example : (do
      let (key, chain, testnet, depth, childnum, fp) ← importFields Sha.hashes (← b58decode (Sha.unword 111 0x78707276397548525a5a686b364b414a433161765870444170344d44633373514b4e7844695076766b58384272356e674c4e76315478765578743463563172474c35686a364b4365736e4459556864376f5767543131655a4737586e7848726e596553766b7a5937643262686b4a37))
      let w : HDWallet := ⟨key, chain, 0, testnet, depth, fp, childnum⟩
      (← w.child Sha.hashes 1 0).toExtendedKey Sha.hashes true) =
    .ok (Sha.unword 111 0x78707276397754596d4d46645632334e3254644e47353733516f4573665272574b5167576569626d4c6e747a6e6961745a765239426d4c6e765378717535334b7731556d5950784c67626f795a51615877544367384d535933483245553470576351446e526e725641317865386673) := by
  decide +kernel

/-- The wallet import format of `0c28fca3…`, and back. -/
example : privkeyToWif Sha.hashes (Sha.unword 32 0x0c28fca386c7a227600b2fe50b7cae11ec86d3bf1fbe471be89827e19d72aa1d) =
      (Sha.unword 51 0x3548756543475538724d6a78455878695075443542446b75344d6b4671655a796434645a316a76685456717662544c7679544a) ∧
    privkeyFromWif Sha.hashes (Sha.unword 51 0x3548756543475538724d6a78455878695075443542446b75344d6b4671655a796434645a316a76685456717662544c7679544a) =
      .ok (Sha.unword 32 0x0c28fca386c7a227600b2fe50b7cae11ec86d3bf1fbe471be89827e19d72aa1d) := by
  decide +kernel

/-- The vectors of the Base58 draft. -/
example : b58encode (Sha.unword 12 0x48656c6c6f20576f726c6421) = (Sha.unword 17 0x324e45706f37545a5252724c5a53693255) ∧
    b58encode (Sha.unword 6 0x0000287fb4cd) = (Sha.unword 8 0x3131323333514334) ∧
    b58encode (Sha.unword 44 0x54686520717569636b2062726f776e20666f78206a756d7073206f76657220746865206c617a7920646f672e) =
      (Sha.unword 60 0x55536d336670586e4b473545554278326e647842444d50566369503568476579324a68344e447636676d656f314c6b4d65694b724c4a5555426b365a) ∧
    b58decode (Sha.unword 17 0x324e45706f37545a5252724c5a53693255) = .ok (Sha.unword 12 0x48656c6c6f20576f726c6421) ∧
    b58decode (Sha.unword 8 0x3131323333514334) = .ok (Sha.unword 6 0x0000287fb4cd) := by decide +kernel

end NBC.Tests
