import Verif.Spec.PubKey
import Verif.Model.Key
import Verif.Proofs.Secp256k1

/-!
# BIP 32: derivation of keys

Written from the text of BIP 32 (sections "Conventions", "Child key derivation functions", "Key
identifiers" and "Master key generation") over the group of SECP256k1 points.
-/

namespace NBC.Spec.Bip32
open NBC NBC.Secp

/-- `ser_P(P)`: the SEC 1 compressed form (there is none for the neutral element). -/
def serP : (W K).Point → Bytes
  | .zero => []
  | .some x y _ => compressedKey x.val y.val

/-- `point(p)` -/
noncomputable def point (k : Nat) : (W K).Point := k • g

/-- `CKDpriv((k, c), i)`; `none` where "one should proceed with the next value for i". -/
noncomputable def ckdPriv (H : Hashes) (k : Nat) (c : Bytes) (i : Nat) : Option (Nat × Bytes) :=
  let I := if 2 ^ 31 ≤ i then H.hmacSha512 c ([0x00] ++ beBytes 32 k ++ beBytes 4 i)
    else H.hmacSha512 c (serP (point k) ++ beBytes 4 i)
  let IL := bytesVal (I.take 32)
  if n ≤ IL ∨ (IL + k) % n = 0 then none else some ((IL + k) % n, I.drop 32)

open Classical in
/-- `CKDpub((P, c), i)`; `none` on failure (`2^31 ≤ i`) and where "one should proceed with the next
value for i". -/
noncomputable def ckdPub (H : Hashes) (P : (W K).Point) (c : Bytes) (i : Nat) :
    Option ((W K).Point × Bytes) :=
  if 2 ^ 31 ≤ i then none
  else
    let I := H.hmacSha512 c (serP P ++ beBytes 4 i)
    let IL := bytesVal (I.take 32)
    if n ≤ IL ∨ point IL + P = 0 then none else some (point IL + P, I.drop 32)

/-- The fingerprint of a key: the first 32 bits of its identifier. -/
def fingerprint (H : Hashes) (P : (W K).Point) : Bytes :=
  (H.ripemd160 (H.sha256 (serP P))).take 4

/-- The master key of a seed; `none` where "the master key is invalid". -/
def master (H : Hashes) (seed : Bytes) : Option (Nat × Bytes) :=
  let I := H.hmacSha512 ("Bitcoin seed".toUTF8.toList) seed
  let IL := bytesVal (I.take 32)
  if IL = 0 ∨ n ≤ IL then none else some (IL, I.drop 32)

/-- `m/i₁/i₂/...`: the extended private key at the end of a path. -/
noncomputable def derive (H : Hashes) : Nat × Bytes → List Nat → Option (Nat × Bytes)
  | kc, [] => some kc
  | kc, i :: is =>
    match ckdPriv H kc.1 kc.2 i with
    | none => none
    | some kc' => derive H kc' is

end NBC.Spec.Bip32
