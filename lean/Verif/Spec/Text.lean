import Verif.Model.Py

/-! # Specification of the texts met by the user -/

namespace NBC.Spec
open NBC

/-- ASCII bytes of a string literal. -/
def ascii (s : String) : Bytes := s.toList.map fun c => UInt8.ofNat c.toNat

/-- The characters a base58 text may use. -/
def base58Chars : Bytes := ascii "123456789ABCDEFGHJKLMNPQRSTUVWXYZabcdefghijkmnopqrstuvwxyz"

/-- Lowercase hexadecimal character. -/
def hexChar (d : Nat) : UInt8 := (ascii "0123456789abcdef").getD d 0

/-- Four lowercase hexadecimal digits. -/
def hex4 (v : Nat) : Bytes :=
  [hexChar (v / 4096 % 16), hexChar (v / 256 % 16), hexChar (v / 16 % 16), hexChar (v % 16)]

end NBC.Spec
