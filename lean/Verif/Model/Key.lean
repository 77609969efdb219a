import Verif.Model.Base58

/-! # `nbc/util/key.py`: WIF and address text (public key compression is in `Model/PubKey`) -/

namespace NBC.Key
open NBC Base58

/-- `privkey_to_wif`, `nbc/util/key.py:80-81`; `prefix` is a one-byte string. -/
def privkeyToWif (H : Hashes) (privkey : Bytes) (pre : UInt8 := 0x80) : Bytes :=
  encodeCheck H ([pre] ++ privkey)

/-- `privkey_from_wif`, `nbc/util/key.py:84-100`.  `decode_check` returning `None` makes
`key[0]` raise `TypeError`. -/
def privkeyFromWif (H : Hashes) (privkey : Bytes) (pre : UInt8 := 0x80) : Py Bytes := do
  match ← decodeCheck H privkey with
  | none => .error .typeError
  | some key =>
    let k0 ← pyIndex key 0
    if pre.toNat ≠ k0.toNat then .error .valueError
    else if key.length = 33 then
      let ch ← pyIndex privkey 0
      if ch.toNat ≠ 53 then .error .valueError
      else return key.drop 1
    else if key.length = 34 then
      let last ← pyIndex key (key.length - 1)
      if last.toNat ≠ 1 then .error .valueError
      else
        let ch ← pyIndex privkey 0
        if ch.toNat ≠ 76 ∧ ch.toNat ≠ 75 then .error .valueError
        else return (key.drop 1).take (key.length - 2)
    else .error .valueError

/-- `pubkeyhash_to_address`, `nbc/util/key.py:102-104`; `vcn & 0xFFFF` is `vcn mod 65536`. -/
def pubkeyhashToAddress (H : Hashes) (publickeyHash : Bytes) (vcn : Int) (version : Bytes) : Bytes :=
  encodeCheck H (version ++ fmtHexPad 4 (vcn % 65536) ++ publickeyHash)

/-- The key digest inside `publickey_to_address`, `nbc/util/key.py:109-112`. -/
def publickeyDigest (H : Hashes) (publickey : Bytes) : Bytes :=
  let pubHash := H.sha512 publickey
  let s1 := H.ripemd160 (pubHash.take 32)
  let s2 := H.ripemd160 (pubHash.drop 32)
  H.sha256 (s1 ++ s2)

/-- `publickey_to_address`, `nbc/util/key.py:107-112`. -/
def publickeyToAddress (H : Hashes) (publickey : Bytes) (vcn : Int) (version : Bytes) : Bytes :=
  pubkeyhashToAddress H (publickeyDigest H publickey) vcn version

end NBC.Key
