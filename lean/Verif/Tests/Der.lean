import Verif.Model.Sha1

/-!
# The tests of `der.py` and `util.py` in the repository, run on the model

`nbc/util/ecdsa/test_pyecdsa.py:402-487`.  These are tests of the model, not proofs of a property.
-/

namespace NBC.Tests

open NBC Ecdsa Der

/-- A text of the tests, as a number in base 256. -/
def txt (n v : Nat) : Bytes := Sha.unword n v

/-- `test_oids`, `test_pyecdsa.py:402-412` -/
example : encodeOid 1 2 [840, 10045, 2, 1] = .ok (txt 9 0x06072a8648ce3d0201) ∧
    nist224p.encodedOid = .ok (txt 7 0x06052b81040021) ∧ nist256p.encodedOid = .ok (txt 10 0x06082a8648ce3d030107) ∧
    removeObject (txt 9 0x06072a8648ce3d0201 ++ txt 4 0x6d6f7265) = .ok ([1, 2, 840, 10045, 2, 1], txt 4 0x6d6f7265) := by
  decide +kernel

/-- `test_integer`, `test_pyecdsa.py:413-428` -/
example : encodeInteger 0 = .ok [2, 1, 0] ∧ encodeInteger 1 = .ok [2, 1, 1] ∧ encodeInteger 127 = .ok [2, 1, 0x7f] ∧
    encodeInteger 128 = .ok [2, 2, 0, 0x80] ∧ encodeInteger 256 = .ok [2, 2, 1, 0] := by decide +kernel

/-- `test_integer`, `test_pyecdsa.py:421-428` -/
example : ∀ n ∈ [0, 1, 127, 128, 256, 1234567890123456789012345678901234567890],
    (do removeInteger ((← encodeInteger (n : Nat)) ++ txt 4 0x6a756e6b)) = .ok (n, txt 4 0x6a756e6b) := by
  decide +kernel

/-- `test_number`, `test_pyecdsa.py:430-441` -/
example : encodeNumber 0 = [0] ∧ encodeNumber 127 = [0x7f] ∧ encodeNumber 128 = [0x81, 0] ∧
    encodeNumber (3 * 128 + 7) = [0x83, 7] ∧
    ∀ n ∈ [0, 1, 2, 127, 128, 3 * 128 + 7, 840, 10045],
      readNumber (encodeNumber n ++ txt 4 0x6d6f7265) = .ok (n, (encodeNumber n).length) := by decide +kernel

/-- `test_length`, `test_pyecdsa.py:443-456` -/
example : encodeLength 0 = .ok [0] ∧ encodeLength 127 = .ok [0x7f] ∧ encodeLength 128 = .ok [0x81, 0x80] ∧
    encodeLength 255 = .ok [0x81, 0xff] ∧ encodeLength 256 = .ok [0x82, 1, 0] ∧
    encodeLength (3 * 256 + 7) = .ok [0x82, 3, 7] ∧ readLength ([0x81, 0x9b] ++ txt 4 0x6d6f7265) = .ok (155, 2) ∧
    encodeLength 155 = .ok [0x81, 0x9b] ∧
    ∀ n ∈ [0, 1, 2, 127, 128, 255, 256, 3 * 256 + 7, 155],
      (do
        let x ← encodeLength n
        let (n1, llen) ← readLength (x ++ txt 4 0x6d6f7265)
        return (n1, (x ++ txt 4 0x6d6f7265).drop llen)) = (.ok (n, txt 4 0x6d6f7265) : Py (Nat × Bytes)) := by
  decide +kernel

/-- `test_sequence`, `test_pyecdsa.py:458-463` -/
example : encodeSequence [txt 3 0x414243, txt 3 0x444546] = .ok ([0x30, 6] ++ txt 6 0x414243444546) ∧
    removeSequence ([0x30, 6] ++ txt 6 0x414243444546 ++ txt 3 0x474849) =
      .ok (txt 6 0x414243444546, txt 3 0x474849) := by decide +kernel

/-- `test_constructed`, `test_pyecdsa.py:465-469` -/
example : (do encodeConstructed 0 (← nist224p.encodedOid)) = .ok (txt 9 0xa00706052b81040021) ∧
    encodeConstructed 1 (txt 6 0x0102030a0b0c) = .ok (txt 8 0xa1060102030a0b0c) := by decide +kernel

/-- `test_trytryagain`, `test_pyecdsa.py:472-483`: the value kept stable.  (`bits_and_bytes` gives 28 bytes and one
bit for this order: the logarithm of `2 ^ 224` minus a little is the float 224.) -/
example : tryTryAgain Sha.hashes (txt 4 0x73656564) nist224p.order 28 1 10 =
    .ok (some 0x6fa59d73bf0446ae8743cf748fc5ac11d5585a90356417e97155c3bc) := by decide +kernel

/-- `test_trytryagain`, the first of its seeds and the order 254 (7 bits and a float of 7.98). -/
example : ∃ n, tryTryAgain Sha.hashes (txt 6 0x736565642d30) 254 1 0 50 = .ok (some n) ∧ 1 ≤ n ∧ n < 254 := by
  refine ⟨_, rfl, ?_, ?_⟩ <;> decide +kernel

end NBC.Tests
