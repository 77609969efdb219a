import Verif.Model.ConnEq
import Verif.Props.NodeBeat

/-!
# Property C152: connections can be compared and looked up
-/

namespace NBC.Props
open NBC NBC.P2P

/-- **C152 is false of `==`.**  It never answers, whatever the limit: not even for one object and itself. -/
theorem C152_equal_false (limit a b : Nat) : connEq limit a b = .error .recursionError := by
  induction limit with
  | zero => rfl
  | succ l ih => exact ih

/-- A lookup in a list answers `True` exactly for its first element, `False` exactly for the empty list, and raises in
all other cases. -/
theorem C152_list_false (limit peer : Nat) (peers : List Nat) :
    (inList limit peer peers = .ok true ↔ peers.head? = some peer) ∧
    (inList limit peer peers = .ok false ↔ peers = []) ∧
    (inList limit peer peers = .error .recursionError ↔ peers ≠ [] ∧ peers.head? ≠ some peer) := by
  cases peers with
  | nil => simp [inList]
  | cons p ps =>
    by_cases h : p = peer
    · simp [inList, sameOrEq, h, bind, Except.bind]
    · simp [inList, sameOrEq, h, C152_equal_false, bind, Except.bind]

/-- **C152, what holds:** in a set or a dictionary a connection is found, or not, if no other entry has the hash of its
address.  What is missing is two connections with one address. -/
theorem C152_set_partial (limit : Nat) (hash : Addr → Int) (n : Node) (peer : Nat) (entries : List Nat)
    (h : ∀ p ∈ entries, p ≠ peer →
      ((n.conns[p]?).map (fun k => hash k.address)) ≠ ((n.conns[peer]?).map (fun k => hash k.address))) :
    inSet limit hash n peer entries = .ok (decide (peer ∈ entries)) := by
  induction entries with
  | nil => rfl
  | cons p ps ih =>
    rw [inSet]
    by_cases hp : p = peer
    · simp [hp]
    · rw [if_neg hp, if_neg (h p (List.mem_cons_self ..) hp), ih (fun q hq => h q (List.mem_cons_of_mem _ hq))]
      simp [Ne.symm hp]

/-- **C152 is false of sets.**  An entry with the same address, met first, makes the lookup raise. -/
theorem C152_set_false (limit : Nat) (hash : Addr → Int) (n : Node) (peer p : Nat) (before after : List Nat)
    (hb : ∀ q ∈ before, q ≠ peer ∧
      ((n.conns[q]?).map (fun k => hash k.address)) ≠ ((n.conns[peer]?).map (fun k => hash k.address)))
    (hp : p ≠ peer) (ha : (n.conns[p]?).map (·.address) = (n.conns[peer]?).map (·.address)) :
    inSet limit hash n peer (before ++ p :: after) = .error .recursionError := by
  induction before with
  | nil =>
    have hh : ((n.conns[p]?).map (fun k => hash k.address)) = ((n.conns[peer]?).map (fun k => hash k.address)) := by
      have := congrArg (Option.map hash) ha
      simpa [Option.map_map, Function.comp_def] using this
    rw [List.nil_append, inSet, if_neg hp, if_pos hh, C152_equal_false]
    rfl
  | cons q qs ih =>
    rw [List.cons_append, inSet, if_neg (hb q (List.mem_cons_self ..)).1, if_neg (hb q (List.mem_cons_self ..)).2]
    exact ih (fun r hr => hb r (List.mem_cons_of_mem _ hr))

/-- Python's hash, for the example. -/
def someHash (a : Addr) : Int := (a.1.map Char.toNat).sum

/-- Three connections, the first and the last with one address: a peer that came back before its first connection was
found to be lost. -/
def three : Node := (node0 .py3 125).run Hashes.toy
  [.accept (some ("10.0.0.2".toList, 4000)) 1 1 [0, 0, 0, 0, 0, 0, 0, 1],
    .accept (some ("10.0.0.3".toList, 4000)) 1 1 [0, 0, 0, 0, 0, 0, 0, 1],
    .accept (some ("10.0.0.2".toList, 4000)) 1 1 [0, 0, 0, 0, 0, 0, 0, 1]]

example : three.peers = [0, 1, 2] ∧ inList 1000 0 three.peers = .ok true ∧
    inList 1000 1 three.peers = .error .recursionError ∧
    inSet 1000 someHash three 1 [0, 1, 2] = .ok true ∧
    inSet 1000 someHash three 2 [0, 1, 2] =
      .error .recursionError := by
  decide +kernel

end NBC.Props
