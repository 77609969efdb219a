import Verif.Spec.Aes
import Verif.Spec.Bytes

/-!
# The modes of operation of NIST SP 800-38A

Over a block function `E`; a message is a list of blocks or segments (ECB, CBC, CFB), or a byte string
combined with a key stream (OFB, CTR).
-/

namespace NBC.Spec.Aes
open NBC

/-- Bitwise exclusive or of byte strings, as long as the shorter one. -/
def xorB : Bytes → Bytes → Bytes
  | a :: as, b :: bs => (a ^^^ b) :: xorB as bs
  | _, _ => []

/-- The AES block function of a key. -/
def blockFn (key b : Bytes) : Bytes := (encryptBlock key b).getD []

/-- CBC: `C_i = E(P_i xor C_{i-1})`, `C_0` the initialisation vector. -/
def cbcBlocks (E : Bytes → Bytes) : Bytes → List Bytes → List Bytes
  | _, [] => []
  | c, p :: ps => E (xorB p c) :: cbcBlocks E (E (xorB p c)) ps

/-- CFB: the segment is combined with the leading bytes of the encrypted register; the register is
shifted and the ciphertext segment enters at its end. -/
def cfbSegments (E : Bytes → Bytes) : Bytes → List Bytes → List Bytes
  | _, [] => []
  | reg, p :: ps =>
    let c := xorB p (E reg)
    c :: cfbSegments E (reg.drop p.length ++ c) ps

/-- OFB: the first `n` blocks of the key stream after block `o`. -/
def ofbStream (E : Bytes → Bytes) : Nat → Bytes → Bytes
  | 0, _ => []
  | n + 1, o => E o ++ ofbStream E n (E o)

/-- CTR: the first `n` blocks of the key stream from counter value `v`. -/
def ctrStream (E : Bytes → Bytes) : Nat → Int → Bytes
  | 0, _ => []
  | n + 1, v => E (beBytes 16 (v % 2 ^ 128).toNat) ++ ctrStream E n (v + 1)

end NBC.Spec.Aes
