import Verif.Model.Py
import Mathlib.Logic.Function.Iterate

/-!
# Specification of Merkle trees with a doubled last node
-/

namespace NBC.Spec.Merkle
open NBC

/-- The strings hashed to get the next level: neighbours concatenated, a last node alone doubled. -/
def concatPairs : List Bytes → List Bytes
  | [] => []
  | [a] => [a ++ a]
  | a :: b :: t => (a ++ b) :: concatPairs t

/-- The next level. -/
def next (H : Hashes) (l : List Bytes) : List Bytes := (concatPairs l).map H.sha256d

/-- `r` is the root over the leaves `l`: the only node of the first level with one node. -/
def IsRoot (H : Hashes) (l : List Bytes) (r : Bytes) : Prop :=
  ∃ k, (next H)^[k] l = [r] ∧ ∀ j < k, 1 < ((next H)^[j] l).length

/-- The strings hashed above the leaves `l`. -/
def hashed (H : Hashes) (l : List Bytes) : List Bytes :=
  (List.range l.length).flatMap (fun k =>
    if 1 < ((next H)^[k] l).length then concatPairs ((next H)^[k] l) else [])

/-- An even number of nodes, of which the last two are equal. -/
def LastTwoEqual (l : List Bytes) : Prop := l.length % 2 = 0 ∧ ∃ i a, l = i ++ [a, a]

/-- Some level over the leaves ends with two equal nodes at even length. -/
def Doubled (H : Hashes) (l : List Bytes) : Prop := ∃ k, LastTwoEqual ((next H)^[k] l)

/-- The double hash has no collision among the strings of `S`. -/
def CollisionFree (H : Hashes) (S : List Bytes) : Prop :=
  ∀ x ∈ S, ∀ y ∈ S, H.sha256d x = H.sha256d y → x = y

end NBC.Spec.Merkle
