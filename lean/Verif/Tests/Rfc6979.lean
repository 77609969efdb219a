import Verif.Model.Sha1

/-!
# The tests of `rfc6979.py` in the repository, run on the model

`class RFC6979`, `nbc/util/ecdsa/test_pyecdsa.py:506-640`.  These are tests of the model, not proofs of a property:
the expected values come from the RFC and from other implementations, through the repository's own test file.
-/

namespace NBC.Tests

open NBC Ecdsa

/-- `rfc6979.generate_k` with the real hash functions (Python 3). -/
def rfc6979 (h : HashName) (order : Nat) (secexp : Int) (data : Bytes) : Py (Option Nat) :=
  generateK (Sha.family.hmac h) h.size true order secexp data 100

/-- `test_SECP256k1`, `test_pyecdsa.py:516` -/
example : rfc6979 .sha256 secp256k1.order
    0x9d0219792467d7d37b4d43298a7d0c05
    (Sha.digest .sha256 (Sha.unword 6 0x73616d706c65)) =
    .ok (some 0x8fa1f95d514760e498f28957b824ee6ec39ed64826ff4fecc2b5739ec45b91cd) := by
  decide +kernel

/-- `test_SECP256k1_2`, `test_pyecdsa.py:526` -/
example : rfc6979 .sha256 secp256k1.order
    0xcca9fbcc1b41e5a95d369eaa6ddcff73b61a4efaa279cfc6567e8daa39cbaf50
    (Sha.digest .sha256 (Sha.unword 6 0x73616d706c65)) =
    .ok (some 0x2df40ca70e639d89528a6b670d9d48d9165fdc0febc0974056bdce192b8e16a3) := by
  decide +kernel

/-- `test_SECP256k1_3`, `test_pyecdsa.py:534` -/
example : rfc6979 .sha256 secp256k1.order
    0x1
    (Sha.digest .sha256 (Sha.unword 16 0x5361746f736869204e616b616d6f746f)) =
    .ok (some 0x8f8a276c19f4149656b280621e358cce24f5f52542772691ee69063b74f15d15) := by
  decide +kernel

/-- `test_SECP256k1_4`, `test_pyecdsa.py:542` -/
example : rfc6979 .sha256 secp256k1.order
    0x1
    (Sha.digest .sha256 (Sha.unword 74 0x416c6c2074686f7365206d6f6d656e74732077696c6c206265206c6f737420696e2074696d652c206c696b6520746561727320696e207261696e2e2054696d6520746f206469652e2e2e)) =
    .ok (some 0x38aa22d72376b4dbc472e06c3ba403ee0a394da63fc58d88686c611aba98d6b3) := by
  decide +kernel

/-- `test_SECP256k1_5`, `test_pyecdsa.py:550` -/
example : rfc6979 .sha256 secp256k1.order
    0xfffffffffffffffffffffffffffffffebaaedce6af48a03bbfd25e8cd0364140
    (Sha.digest .sha256 (Sha.unword 16 0x5361746f736869204e616b616d6f746f)) =
    .ok (some 0x33a19b60e25fb6f4435af53a3d42d493644827367e6453928554f43e49aa6f90) := by
  decide +kernel

/-- `test_SECP256k1_6`, `test_pyecdsa.py:558` -/
example : rfc6979 .sha256 secp256k1.order
    0xf8b8af8ce3c7cca5e300d33939540c10d45ce001b8f252bfbc57ba0342904181
    (Sha.digest .sha256 (Sha.unword 11 0x416c616e20547572696e67)) =
    .ok (some 0x525a82b70e67874398067543fd84c83d30c175fdc45fdeee082fe13b1d7cfdf1) := by
  decide +kernel

/-- `test_1`, `test_pyecdsa.py:566` -/
example : rfc6979 .sha256 0x4000000000000000000020108a2e0cc0d99f8a5ef
    0x9a4d6792295a7f730fc3f2b49cbc0f62e862272f
    (Sha.unword 32 0xaf2bdbe1aa9b6ec1e2ade1d694f41fc71a831d0268e9891562113d8a62add1bf) =
    .ok (some 0x23af4074c90a02b3fe61d286d5c87f425e6bdd81b) := by
  decide +kernel

/-- `test_2`, `test_pyecdsa.py:575` -/
example : rfc6979 .sha1 nist192p.order
    0x6fab034934e4c0fc9ae67f5b5659a9d7d1fefd187ee09fd4
    (Sha.digest .sha1 (Sha.unword 6 0x73616d706c65)) =
    .ok (some 0x37d7ca00d2c7b0e5e412ac03bd44ba837fdd5b28cd3b0021) := by
  decide +kernel

/-- `test_3`, `test_pyecdsa.py:583` -/
example : rfc6979 .sha256 nist192p.order
    0x6fab034934e4c0fc9ae67f5b5659a9d7d1fefd187ee09fd4
    (Sha.digest .sha256 (Sha.unword 6 0x73616d706c65)) =
    .ok (some 0x32b1b6d7d42a05cb449065727a84804fb1a3e34d8f261496) := by
  decide +kernel

/-- `test_4`, `test_pyecdsa.py:591` -/
example : rfc6979 .sha512 nist192p.order
    0x6fab034934e4c0fc9ae67f5b5659a9d7d1fefd187ee09fd4
    (Sha.digest .sha512 (Sha.unword 6 0x73616d706c65)) =
    .ok (some 0xa2ac7ab055e4f20692d49209544c203a7d1f2c0bfbc75db1) := by
  decide +kernel

/-- `test_5`, `test_pyecdsa.py:599` -/
example : rfc6979 .sha1 nist192p.order
    0x6fab034934e4c0fc9ae67f5b5659a9d7d1fefd187ee09fd4
    (Sha.digest .sha1 (Sha.unword 4 0x74657374)) =
    .ok (some 0xd9cf9c3d3297d3260773a1da7418db5537ab8dd93de7fa25) := by
  decide +kernel

/-- `test_6`, `test_pyecdsa.py:607` -/
example : rfc6979 .sha256 nist192p.order
    0x6fab034934e4c0fc9ae67f5b5659a9d7d1fefd187ee09fd4
    (Sha.digest .sha256 (Sha.unword 4 0x74657374)) =
    .ok (some 0x5c4ce89cf56d9e7c77c8585339b006b97b5f0680b4306c6c) := by
  decide +kernel

/-- `test_7`, `test_pyecdsa.py:615` -/
example : rfc6979 .sha512 nist192p.order
    0x6fab034934e4c0fc9ae67f5b5659a9d7d1fefd187ee09fd4
    (Sha.digest .sha512 (Sha.unword 4 0x74657374)) =
    .ok (some 0x0758753a5254759c7cfbad2e2d9b0792eee44136c9480527) := by
  decide +kernel

/-- `test_8`, `test_pyecdsa.py:623` -/
example : rfc6979 .sha1 nist521p.order
    0xfad06daa62ba3b25d2fb40133da757205de67f5bb0018fee8c86e1b68c7e75caa896eb32f1f47c70855836a6d16fcc1466f6d8fbec67db89ec0c08b0e996b83538
    (Sha.digest .sha1 (Sha.unword 6 0x73616d706c65)) =
    .ok (some 0x089c071b419e1c2820962321787258469511958e80582e95d8378e0c2ccdb3cb42bede42f50e3fa3c71f5a76724281d31d9c89f0f91fc1be4918db1c03a5838d0f9) := by
  decide +kernel

/-- `test_9`, `test_pyecdsa.py:631` -/
example : rfc6979 .sha256 nist521p.order
    0xfad06daa62ba3b25d2fb40133da757205de67f5bb0018fee8c86e1b68c7e75caa896eb32f1f47c70855836a6d16fcc1466f6d8fbec67db89ec0c08b0e996b83538
    (Sha.digest .sha256 (Sha.unword 6 0x73616d706c65)) =
    .ok (some 0x0edf38afcaaecab4383358b34d67c9f2216c8382aaea44a3dad5fdc9c32575761793fef24eb0fc276dfc4f6e3ec476752f043cf01415387470bcbd8678ed2c7e1a0) := by
  decide +kernel

/-- `test_10`, `test_pyecdsa.py:639` -/
example : rfc6979 .sha512 nist521p.order
    0xfad06daa62ba3b25d2fb40133da757205de67f5bb0018fee8c86e1b68c7e75caa896eb32f1f47c70855836a6d16fcc1466f6d8fbec67db89ec0c08b0e996b83538
    (Sha.digest .sha512 (Sha.unword 4 0x74657374)) =
    .ok (some 0x16200813020ec986863bedfc1b121f605c1215645018aea1a7b215a564de9eb1b38a67aa1128b80ce391c4fb71187654aaa3431027bfc7f395766ca988c964dc56d) := by
  decide +kernel

end NBC.Tests
