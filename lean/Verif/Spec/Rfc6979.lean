import Verif.Spec.Bytes

/-!
# RFC 6979, section 3.2: the deterministic nonce

`qlen` is the number of bits of the group order `q`.
-/

namespace NBC.Spec.Rfc6979
open NBC Spec

/-- Section 2.3.2: the leftmost `qlen` bits of a string, as a number (all of them if shorter). -/
def bits2int (qlen : Nat) (b : Bytes) : Nat :=
  if qlen < 8 * b.length then bytesVal b / 2 ^ (8 * b.length - qlen) else bytesVal b

/-- Section 2.3.3: big-endian, in `ceil(qlen / 8)` octets. -/
def int2octets (qlen x : Nat) : Bytes := beBytes ((qlen + 7) / 8) x

/-- Section 2.3.4. -/
def bits2octets (q qlen : Nat) (b : Bytes) : Bytes := int2octets qlen (bits2int qlen b % q)

/-- Step h.2: the successive values of `V`. -/
def chain (hmac : Bytes → Bytes → Bytes) (K V : Bytes) : Nat → Bytes
  | 0 => V
  | i + 1 => hmac K (chain hmac K V i)

/-- Step h.2: `T` after `m` rounds. -/
def blocks (hmac : Bytes → Bytes → Bytes) (K V : Bytes) (m : Nat) : Bytes :=
  (List.range m).flatMap fun i => chain hmac K V (i + 1)

/-- `T` is long enough after `m` rounds and not before. -/
def Rounds (hmac : Bytes → Bytes → Bytes) (qlen : Nat) (K V : Bytes) (m : Nat) : Prop :=
  qlen ≤ 8 * (blocks hmac K V m).length ∧ ∀ j < m, 8 * (blocks hmac K V j).length < qlen

/-- Step h: the nonce found from the state `(K, V)`. -/
inductive StepH (hmac : Bytes → Bytes → Bytes) (q qlen : Nat) : Bytes → Bytes → Nat → Prop
  | accept (K V : Bytes) (m : Nat) : Rounds hmac qlen K V m →
      1 ≤ bits2int qlen (blocks hmac K V m) → bits2int qlen (blocks hmac K V m) < q →
      StepH hmac q qlen K V (bits2int qlen (blocks hmac K V m))
  | reject (K V : Bytes) (m k : Nat) : Rounds hmac qlen K V m →
      ¬ (1 ≤ bits2int qlen (blocks hmac K V m) ∧ bits2int qlen (blocks hmac K V m) < q) →
      StepH hmac q qlen (hmac K (chain hmac K V m ++ [0]))
        (hmac (hmac K (chain hmac K V m ++ [0])) (chain hmac K V m)) k →
      StepH hmac q qlen K V k

/-- The nonce of section 3.2 for the private key `x` and the message digest `h1`; `hlen` is the
length of a digest. -/
def Nonce (hmac : Bytes → Bytes → Bytes) (hlen q qlen x : Nat) (h1 : Bytes) (k : Nat) : Prop :=
  let seed := int2octets qlen x ++ bits2octets q qlen h1
  let V0 := List.replicate hlen (1 : UInt8)
  let K0 := List.replicate hlen (0 : UInt8)
  let K1 := hmac K0 (V0 ++ [0] ++ seed)
  let V1 := hmac K1 V0
  let K2 := hmac K1 (V1 ++ [1] ++ seed)
  let V2 := hmac K2 V1
  StepH hmac q qlen K2 V2 k

end NBC.Spec.Rfc6979
