import Verif.Spec.Text

/-!
# Base64 and PEM texts, stated without the code

RFC 4648 section 4: the bits of the input, most significant first, are cut into groups of six (the
last one filled with zero bits); each group selects a character, and `=` fills the text to a multiple
of four characters.
-/

namespace NBC.Spec.Pem
open NBC

/-- The alphabet. -/
def alphabet : List Char :=
  "ABCDEFGHIJKLMNOPQRSTUVWXYZabcdefghijklmnopqrstuvwxyz0123456789+/".toList

/-- The eight bits of a byte, most significant first. -/
def bits (a : UInt8) : List Nat :=
  [a.toNat / 128 % 2, a.toNat / 64 % 2, a.toNat / 32 % 2, a.toNat / 16 % 2, a.toNat / 8 % 2,
    a.toNat / 4 % 2, a.toNat / 2 % 2, a.toNat % 2]

/-- Groups of six bits as numbers, the last one filled with zero bits. -/
def sextets : List Nat → List Nat
  | a :: b :: c :: d :: e :: f :: rest =>
    (32 * a + 16 * b + 8 * c + 4 * d + 2 * e + f) :: sextets rest
  | [] => []
  | rest => [(rest ++ List.replicate (6 - rest.length) 0).foldl (fun v x => 2 * v + x) 0]

/-- RFC 4648 base64. -/
def base64 (s : Bytes) : Bytes :=
  let body := (sextets (s.flatMap bits)).map fun v => UInt8.ofNat (alphabet.getD v '=').toNat
  body ++ List.replicate ((4 - body.length % 4) % 4) 61

/-- White space other than the newline. -/
def Blank (s : Bytes) : Prop := ∀ c ∈ s, c ∈ ([32, 9, 11, 12, 13] : Bytes)

/-- A line of a PEM text: an armour line, or a piece of base64 between blanks. -/
inductive Line where
  | armour (rest : Bytes)
  | body (before piece after : Bytes)

/-- The text of a line, without its newline. -/
def Line.text : Line → Bytes
  | .armour rest => ascii "-----" ++ rest
  | .body a m b => a ++ m ++ b

/-- What it contributes to the base64 text. -/
def Line.piece : Line → Bytes
  | .armour _ => []
  | .body _ m _ => m

/-- Armour lines contain no newline; a piece stands between blanks. -/
def Line.Ok : Line → Prop
  | .armour rest => (10 : UInt8) ∉ rest
  | .body a _ b => Blank a ∧ Blank b

end NBC.Spec.Pem
