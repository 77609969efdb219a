import Verif.Model.Py

/-!
# `nbc/util/bootstrap.py`: addresses from DNS seeds

Every access to `_found` is made under the lock, so the threads interleave by whole critical sections.
-/

namespace NBC.Seeder

/-- An ip and a port. For `nbc/util/bootstrap.py:55-56`. -/
abbrev Addr := List Char × Nat

/-- `found` is `_found`.  `todo` has, for every thread of `_start`, the entries of `getaddrinfo` that it has not
handled yet: an address, or `none` where `info[4][0], info[4][1]` raises (`nbc/util/bootstrap.py:55-56`).  A
thread whose `getaddrinfo` raises has no entries. -/
structure State where
  found : List Addr
  todo : List (List (Option Addr))

/-- One critical section: the next entry of thread `i`, a call of `pop` with the index that `random.choice`
picks, or a call of `len`. For `nbc/util/bootstrap.py:40-58`. -/
inductive Event where
  | thread (i : Nat)
  | pop (pick : Nat)
  | len

/-- What the caller gets: nothing for a thread. For `nbc/util/bootstrap.py:40-58`. -/
inductive Result where
  | unit
  | popped (r : Py Addr)
  | count (n : Nat)

/-- `DNSSeeder.pop`, `nbc/util/bootstrap.py:41-45`: `random.choice` of an empty list raises `IndexError`;
`remove` takes out the first entry equal to the chosen one. -/
def pop (found : List Addr) (pick : Nat) : List Addr × Py Addr :=
  match found[pick % found.length]? with
  | none => (found, .error .indexError)
  | some a => (found.erase a, .ok a)

/-- `try_address`, `nbc/util/bootstrap.py:53-58`: one entry. -/
def advance (found : List Addr) (entry : Option Addr) : List Addr :=
  match entry with
  | some a => found ++ [a]
  | none => found

/-- One critical section. For `nbc/util/bootstrap.py:40-58`. -/
def step (s : State) : Event → State × Result
  | .thread i =>
    match s.todo[i]? with
    | some (e :: es) => ({ found := advance s.found e, todo := s.todo.set i es }, .unit)
    | _ => (s, .unit)
  | .pop pick =>
    let (found, r) := pop s.found pick
    ({ s with found := found }, .popped r)
  | .len => (s, .count s.found.length)

/-- A history, with the results of the calls. For `nbc/util/bootstrap.py:40-58`. -/
def run (s : State) : List Event → State × List Result
  | [] => (s, [])
  | e :: es =>
    let (s', r) := step s e
    let (s'', rs) := run s' es
    (s'', r :: rs)

/-- `DNSSeeder.__init__`, `nbc/util/bootstrap.py:31-35`, for the entries that the seeds resolve to. -/
def start (entries : List (List (Option Addr))) : State := ⟨[], entries⟩

end NBC.Seeder
