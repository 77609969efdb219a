/-!
# Python values used by the model

Exceptions are values: a call that may raise has type `Py α`.  Byte strings are lists of bytes.
-/

namespace NBC

/-- The exception classes that the modelled code raises (built-in ones and those defined in
`nbc/util/ecdsa/{der,numbertheory,keys,curves}.py` and `nbc/protocol/*.py`).
For `nbc/util/ecdsa/der.py:7`, `nbc/util/ecdsa/keys.py:13-16`. -/
inductive PyErr where
  | valueError
  | typeError
  | assertionError
  | indexError
  | keyError
  | structError
  | runtimeError
  | nameError
  | attributeError
  | zeroDivisionError
  | binasciiError
  | overflowError
  | recursionError
  | squareRootError
  | unexpectedDER
  | badSignature
  | badDigest
  | unknownCurve
  | negativeExponent
  | msgFormatError
  | unknownMsgError
  | parameterError
  | stopIteration
  | ioError
  | exception
  deriving DecidableEq, Repr

/-- Result of a Python call that may raise. For `nbc/node/connection.py:146-154`. -/
abbrev Py (α : Type) := Except PyErr α

/-- Python `bytes` (`str` in Python 2). For `nbc/util/hash.py:29-42`. -/
abbrev Bytes := List UInt8

deriving instance DecidableEq for Except

/-- `assert c`; for `nbc/util/ecdsa/util.py:161-180` -/
def pyAssert (c : Bool) : Py Unit :=
  if c then .ok () else .error .assertionError

/-- `l[i]` for a non-negative index: raises `IndexError` out of range. For `nbc/util/ecdsa/der.py:18,105`. -/
def pyIndex {α : Type} (l : List α) (i : Nat) : Py α :=
  match l[i]? with
  | some x => .ok x
  | none => .error .indexError

/-- The hash functions of `hashlib`/`hmac` used by the code (`nbc/util/hash.py:29-42`,
`nbc/util/key.py:109-112`, `nbc/wallet/hdwallet.py`).  They are external: the model only assumes
their output lengths, and every theorem is about every such family. -/
structure Hashes where
  sha256 : Bytes → Bytes
  sha512 : Bytes → Bytes
  ripemd160 : Bytes → Bytes
  /-- `hmac.new(key = .., msg = .., digestmod = hashlib.sha512).digest()` -/
  hmacSha512 : Bytes → Bytes → Bytes
  sha256_length : ∀ x, (sha256 x).length = 32
  sha512_length : ∀ x, (sha512 x).length = 64
  ripemd160_length : ∀ x, (ripemd160 x).length = 20
  hmacSha512_length : ∀ k x, (hmacSha512 k x).length = 64

/-- A family used in the concrete examples beside the theorems (not a real hash). For `nbc/util/hash.py:29-42`. -/
def Hashes.toy : Hashes where
  sha256 x := (x.take 32) ++ List.replicate (32 - x.length) 0xa5
  sha512 x := (x.take 64) ++ List.replicate (64 - x.length) 0x5a
  ripemd160 x := (x.take 20) ++ List.replicate (20 - x.length) 0x3c
  hmacSha512 k x := ((k ++ x).take 64) ++ List.replicate (64 - (k ++ x).length) 0xc3
  sha256_length x := by simp; omega
  sha512_length x := by simp; omega
  ripemd160_length x := by simp; omega
  hmacSha512_length k x := by simp; omega

/-- `sha256d`, `nbc/util/hash.py:35-36`; also `nbc/util/base58.py:83,91`. -/
def Hashes.sha256d (H : Hashes) (x : Bytes) : Bytes := H.sha256 (H.sha256 x)

end NBC
