import Verif.Model.Py

/-!
# FIPS-197

The Advanced Encryption Standard as the standard words it: bytes as elements of GF(2^8) modulo
`x^8 + x^4 + x^3 + x + 1`, the S-box as inversion followed by an affine map, and the four
transformations of the state.  Nothing here refers to the model of `pyaes`.
-/

namespace NBC.Spec.Aes

/-- FIPS-197 4.2.1: multiplication by `x`. -/
def xtime (a : UInt8) : UInt8 := (a <<< 1) ^^^ (if a.toNat.testBit 7 then 0x1b else 0)

/-- Multiplication by `x^n`. -/
def xtimes : Nat → UInt8 → UInt8
  | 0, a => a
  | n + 1, a => xtime (xtimes n a)

/-- FIPS-197 4.2: `a * b`, adding `x^i * a` for every bit `i` of `b`; `n` bits are used. -/
def gmulLoop (a : UInt8) (b : Nat) : Nat → UInt8
  | 0 => 0
  | n + 1 => gmulLoop a b n ^^^ (if b.testBit n then xtimes n a else 0)

/-- FIPS-197 4.2: multiplication in GF(2^8). -/
def gmul (a b : UInt8) : UInt8 := gmulLoop a b.toNat 8

/-- The square of an element. -/
def gsq (a : UInt8) : UInt8 := gmul a a

/-- Multiplicative inverse, with `0` mapped to itself: `a^254 = a^128 * .. * a^4 * a^2`, computed by
Horner's scheme (that this is the inverse is `C37_inverse`). -/
def ginv (a : UInt8) : UInt8 :=
  gsq (gmul (gsq (gmul (gsq (gmul (gsq (gmul (gsq (gmul (gsq (gmul (gsq a) a)) a)) a)) a)) a)) a)

/-- Rotation of the bits of a byte. -/
def rotl (a : UInt8) (k : Nat) : UInt8 :=
  UInt8.ofNat ((a.toNat <<< k) ||| (a.toNat >>> (8 - k)))

/-- FIPS-197 5.1.1: inversion followed by the affine transformation. -/
def sbox (a : UInt8) : UInt8 :=
  let b := ginv a
  b ^^^ rotl b 1 ^^^ rotl b 2 ^^^ rotl b 3 ^^^ rotl b 4 ^^^ 0x63

/-- FIPS-197 5.3.2: the inverse affine transformation followed by inversion. -/
def invSbox (a : UInt8) : UInt8 :=
  ginv (rotl a 1 ^^^ rotl a 3 ^^^ rotl a 6 ^^^ 0x05)

/-- A word: four bytes, one column of the state. -/
@[ext] structure Word where
  b0 : UInt8
  b1 : UInt8
  b2 : UInt8
  b3 : UInt8
  deriving DecidableEq, Repr

/-- Bytewise exclusive or. -/
def Word.xor (a b : Word) : Word := ⟨a.b0 ^^^ b.b0, a.b1 ^^^ b.b1, a.b2 ^^^ b.b2, a.b3 ^^^ b.b3⟩

/-- FIPS-197 5.2: `SubWord`. -/
def subWord (w : Word) : Word := ⟨sbox w.b0, sbox w.b1, sbox w.b2, sbox w.b3⟩

/-- FIPS-197 5.2: `RotWord`. -/
def rotWord (w : Word) : Word := ⟨w.b1, w.b2, w.b3, w.b0⟩

/-- FIPS-197 5.2: `Rcon[j] = [x^(j-1), 0, 0, 0]`. -/
def rconWord (j : Nat) : Word := ⟨xtimes (j - 1) 1, 0, 0, 0⟩

/-- FIPS-197 Figure 11: the word `w[i]`, given the words before it. -/
def nextWord (Nk : Nat) (w : List Word) : Word :=
  let i := w.length
  let z : Word := ⟨0, 0, 0, 0⟩
  let temp := w.getD (i - 1) z
  let temp :=
    if i % Nk = 0 then (subWord (rotWord temp)).xor (rconWord (i / Nk))
    else if Nk > 6 ∧ i % Nk = 4 then subWord temp
    else temp
  (w.getD (i - Nk) z).xor temp

/-- FIPS-197 Figure 11: append `n` words. -/
def expand (Nk : Nat) (w : List Word) : Nat → List Word
  | 0 => w
  | n + 1 => let w' := expand Nk w n; w' ++ [nextWord Nk w']

/-- The words of a byte string, four bytes each. -/
def words : Bytes → List Word
  | a :: b :: c :: d :: rest => ⟨a, b, c, d⟩ :: words rest
  | _ => []

/-- FIPS-197 Figure 4: the number of rounds. -/
def Nr (Nk : Nat) : Nat := Nk + 6

/-- FIPS-197 5.2: the key schedule of a key, `4 * (Nr + 1)` words. -/
def keyExpansion (key : Bytes) : List Word :=
  let Nk := key.length / 4
  expand Nk (words key) (4 * (Nr Nk + 1) - Nk)

/-- The state: four columns. -/
@[ext] structure State where
  c0 : Word
  c1 : Word
  c2 : Word
  c3 : Word
  deriving DecidableEq, Repr

/-- Apply a function to every byte of a word. -/
def Word.map (f : UInt8 → UInt8) (w : Word) : Word := ⟨f w.b0, f w.b1, f w.b2, f w.b3⟩

/-- Apply a function to every column. -/
def State.map (f : Word → Word) (s : State) : State := ⟨f s.c0, f s.c1, f s.c2, f s.c3⟩

/-- FIPS-197 5.1.1 -/
def subBytes (s : State) : State := s.map (Word.map sbox)

/-- FIPS-197 5.3.2 -/
def invSubBytes (s : State) : State := s.map (Word.map invSbox)

/-- FIPS-197 5.1.2: row `r` is shifted left by `r` columns. -/
def shiftRows (s : State) : State :=
  ⟨⟨s.c0.b0, s.c1.b1, s.c2.b2, s.c3.b3⟩, ⟨s.c1.b0, s.c2.b1, s.c3.b2, s.c0.b3⟩,
   ⟨s.c2.b0, s.c3.b1, s.c0.b2, s.c1.b3⟩, ⟨s.c3.b0, s.c0.b1, s.c1.b2, s.c2.b3⟩⟩

/-- FIPS-197 5.3.1: row `r` is shifted right by `r` columns. -/
def invShiftRows (s : State) : State :=
  ⟨⟨s.c0.b0, s.c3.b1, s.c2.b2, s.c1.b3⟩, ⟨s.c1.b0, s.c0.b1, s.c3.b2, s.c2.b3⟩,
   ⟨s.c2.b0, s.c1.b1, s.c0.b2, s.c3.b3⟩, ⟨s.c3.b0, s.c2.b1, s.c1.b2, s.c0.b3⟩⟩

/-- FIPS-197 5.1.3, equation 5.6 -/
def mixColumn (w : Word) : Word :=
  ⟨gmul w.b0 2 ^^^ gmul w.b1 3 ^^^ w.b2 ^^^ w.b3,
   w.b0 ^^^ gmul w.b1 2 ^^^ gmul w.b2 3 ^^^ w.b3,
   w.b0 ^^^ w.b1 ^^^ gmul w.b2 2 ^^^ gmul w.b3 3,
   gmul w.b0 3 ^^^ w.b1 ^^^ w.b2 ^^^ gmul w.b3 2⟩

/-- FIPS-197 5.3.3, equation 5.10 -/
def invMixColumn (w : Word) : Word :=
  ⟨gmul w.b0 0x0e ^^^ gmul w.b1 0x0b ^^^ gmul w.b2 0x0d ^^^ gmul w.b3 0x09,
   gmul w.b0 0x09 ^^^ gmul w.b1 0x0e ^^^ gmul w.b2 0x0b ^^^ gmul w.b3 0x0d,
   gmul w.b0 0x0d ^^^ gmul w.b1 0x09 ^^^ gmul w.b2 0x0e ^^^ gmul w.b3 0x0b,
   gmul w.b0 0x0b ^^^ gmul w.b1 0x0d ^^^ gmul w.b2 0x09 ^^^ gmul w.b3 0x0e⟩

/-- FIPS-197 5.1.3 -/
def mixColumns (s : State) : State := s.map mixColumn

/-- FIPS-197 5.3.3 -/
def invMixColumns (s : State) : State := s.map invMixColumn

/-- FIPS-197 5.1.4: add the words `w[4r .. 4r+3]`. -/
def addRoundKey (w : List Word) (r : Nat) (s : State) : State :=
  let z : Word := ⟨0, 0, 0, 0⟩
  ⟨s.c0.xor (w.getD (4 * r) z), s.c1.xor (w.getD (4 * r + 1) z),
   s.c2.xor (w.getD (4 * r + 2) z), s.c3.xor (w.getD (4 * r + 3) z)⟩

/-- FIPS-197 Figure 5: the rounds `1 .. n`. -/
def rounds (w : List Word) (s : State) : Nat → State
  | 0 => s
  | n + 1 => addRoundKey w (n + 1) (mixColumns (shiftRows (subBytes (rounds w s n))))

/-- FIPS-197 Figure 5: `Cipher`, on the state. -/
def cipher (w : List Word) (nr : Nat) (s : State) : State :=
  addRoundKey w nr (shiftRows (subBytes (rounds w (addRoundKey w 0 s) (nr - 1))))

/-- FIPS-197 Figure 12: the rounds `n, n-1, .., 1` of the inverse cipher. -/
def invRounds (w : List Word) : Nat → State → State
  | 0, s => s
  | n + 1, s =>
    invRounds w n (invMixColumns (addRoundKey w (n + 1) (invSubBytes (invShiftRows s))))

/-- FIPS-197 Figure 12: `InvCipher`, on the state. -/
def invCipher (w : List Word) (nr : Nat) (s : State) : State :=
  addRoundKey w 0 (invSubBytes (invShiftRows (invRounds w (nr - 1) (addRoundKey w nr s))))

/-- FIPS-197 3.4: the state of a 16-byte block, column by column. -/
def toState : Bytes → Option State
  | [a0, a1, a2, a3, a4, a5, a6, a7, a8, a9, a10, a11, a12, a13, a14, a15] =>
    some ⟨⟨a0, a1, a2, a3⟩, ⟨a4, a5, a6, a7⟩, ⟨a8, a9, a10, a11⟩, ⟨a12, a13, a14, a15⟩⟩
  | _ => none

/-- FIPS-197 3.4: the bytes of a state. -/
def ofState (s : State) : Bytes :=
  [s.c0.b0, s.c0.b1, s.c0.b2, s.c0.b3, s.c1.b0, s.c1.b1, s.c1.b2, s.c1.b3,
   s.c2.b0, s.c2.b1, s.c2.b2, s.c2.b3, s.c3.b0, s.c3.b1, s.c3.b2, s.c3.b3]

/-- AES encryption of a block: `none` unless the block has 16 bytes. -/
def encryptBlock (key block : Bytes) : Option Bytes :=
  (toState block).map (fun s => ofState (cipher (keyExpansion key) (Nr (key.length / 4)) s))

/-- AES decryption of a block: `none` unless the block has 16 bytes. -/
def decryptBlock (key block : Bytes) : Option Bytes :=
  (toState block).map (fun s => ofState (invCipher (keyExpansion key) (Nr (key.length / 4)) s))

end NBC.Spec.Aes
