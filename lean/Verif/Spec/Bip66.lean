import Verif.Model.Bytes

/-!
# Strict encoding of signatures, BIP 66

The test `IsValidSignatureEncoding` of BIP 66, on a signature followed by its hash type byte.
-/

namespace NBC.Spec.Bip66
open NBC

/-- `sig[i]` -/
def at' (sig : Bytes) (i : Nat) : Nat := (sig.getD i 0).toNat

/-- BIP 66's test, condition by condition. -/
structure Valid (sig : Bytes) : Prop where
  /-- minimum and maximum size -/
  long : 9 ≤ sig.length
  short : sig.length ≤ 73
  /-- a sequence, whose length covers the rest but the hash type -/
  seq : at' sig 0 = 0x30
  seqLen : at' sig 1 = sig.length - 3
  /-- the length of R; that of S is inside the signature -/
  room : 5 + at' sig 3 < sig.length
  /-- the lengths of the elements fit -/
  fits : at' sig 3 + at' sig (5 + at' sig 3) + 7 = sig.length
  /-- R is an integer, not empty, not negative, without useless zero bytes -/
  rTag : at' sig 2 = 0x02
  rLen : at' sig 3 ≠ 0
  rPos : at' sig 4 < 0x80
  rMin : 1 < at' sig 3 → at' sig 4 = 0 → 0x80 ≤ at' sig 5
  /-- the same for S -/
  sTag : at' sig (at' sig 3 + 4) = 0x02
  sLen : at' sig (5 + at' sig 3) ≠ 0
  sPos : at' sig (at' sig 3 + 6) < 0x80
  sMin : 1 < at' sig (5 + at' sig 3) → at' sig (at' sig 3 + 6) = 0 → 0x80 ≤ at' sig (at' sig 3 + 7)

end NBC.Spec.Bip66
