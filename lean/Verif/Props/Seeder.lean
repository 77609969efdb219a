import Verif.Model.Seeder
import Mathlib.Data.List.Perm.Basic
import Mathlib.Tactic.Ring

/-!
C115: addresses of DNS seeds.
-/

namespace NBC.Props

open NBC NBC.Seeder

/-- The addresses that calls of `pop` returned. -/
def handedOut : List Result → List Addr
  | [] => []
  | .popped (.ok a) :: rs => a :: handedOut rs
  | _ :: rs => handedOut rs

/-- The addresses among entries. -/
def resolved (es : List (Option Addr)) : List Addr := es.filterMap id

theorem pop_cases (found : List Addr) (pick : Nat) :
    (found = [] ∧ pop found pick = ([], .error .indexError)) ∨
    ∃ a ∈ found, pop found pick = (found.erase a, .ok a) := by
  cases found with
  | nil => left; exact ⟨rfl, rfl⟩
  | cons x xs =>
    right
    have h : pick % (x :: xs).length < (x :: xs).length := Nat.mod_lt _ (by simp)
    refine ⟨(x :: xs)[pick % (x :: xs).length], List.getElem_mem h, ?_⟩
    unfold pop
    rw [List.getElem?_eq_getElem h]

/-- What remains to be resolved by all threads. -/
def pending (s : State) : List Addr := (s.todo.map resolved).flatten

theorem flatten_set {l : List (List (Option Addr))} {i : Nat} {e : Option Addr} {es : List (Option Addr)}
    (h : l[i]? = some (e :: es)) :
    (resolved [e] ++ ((l.set i es).map resolved).flatten).Perm (l.map resolved).flatten := by
  induction l generalizing i with
  | nil => simp at h
  | cons x l ih =>
    cases i with
    | zero =>
      simp only [List.getElem?_cons_zero, Option.some.injEq] at h
      subst h
      rw [List.set_cons_zero, List.map_cons, List.map_cons, List.flatten_cons, List.flatten_cons,
        ← List.append_assoc]
      apply List.Perm.append_right
      rw [show e :: es = [e] ++ es from rfl, resolved, resolved, resolved, List.filterMap_append]
    | succ i =>
      simp only [List.getElem?_cons_succ] at h
      rw [List.set_cons_succ, List.map_cons, List.map_cons, List.flatten_cons, List.flatten_cons]
      refine List.Perm.trans ?_ (List.Perm.append_left _ (ih h))
      rw [← List.append_assoc, ← List.append_assoc]
      exact List.Perm.append_right _ List.perm_append_comm

/-- One critical section moves addresses but loses none and makes none. -/
theorem step_balance (s : State) (e : Event) :
    (handedOut [(step s e).2] ++ (step s e).1.found ++ pending (step s e).1).Perm (s.found ++ pending s) := by
  cases e with
  | len => exact List.Perm.refl _
  | pop pick =>
    rcases pop_cases s.found pick with ⟨h1, h2⟩ | ⟨a, ha, h2⟩
    · simp only [step, h1, pending]
      exact List.Perm.refl _
    · simp only [step, h2, handedOut, pending]
      exact List.Perm.append_right _ (List.perm_cons_erase ha).symm
  | thread i =>
    simp only [step]
    split
    · rename_i e es hi
      simp only [handedOut, List.nil_append, pending]
      have h := flatten_set hi
      cases e with
      | none =>
        simp only [advance]
        exact List.Perm.append_left _ (by simpa [resolved] using h)
      | some a =>
        simp only [advance]
        rw [List.append_assoc]
        exact List.Perm.append_left _ (by simpa [resolved] using h)
    · exact List.Perm.refl _

theorem handedOut_cons (r : Result) (rs : List Result) :
    handedOut (r :: rs) = handedOut [r] ++ handedOut rs := by
  cases r with
  | popped x => cases x <;> rfl
  | _ => rfl

theorem run_balance (s : State) (es : List Event) :
    (handedOut (run s es).2 ++ (run s es).1.found ++ pending (run s es).1).Perm (s.found ++ pending s) := by
  induction es generalizing s with
  | nil => exact List.Perm.refl _
  | cons e es ih =>
    rw [run]
    simp only
    rw [handedOut_cons]
    refine List.Perm.trans ?_ (step_balance s e)
    rw [List.append_assoc, List.append_assoc, List.append_assoc]
    apply List.Perm.append_left
    rw [← List.append_assoc]
    exact ih _

/-- C115: whatever the interleaving, the addresses handed out, those kept and those not yet resolved are, with
their multiplicities, the addresses of the seeds.  So once the threads are done, every address is kept or has
been handed out, as often as it was found and no more. -/
theorem C115_once (entries : List (List (Option Addr))) (es : List Event) :
    let s := (run (start entries) es).1
    (handedOut (run (start entries) es).2 ++ s.found ++ (s.todo.map resolved).flatten).Perm
      (entries.map resolved).flatten ∧
    ((∀ t ∈ s.todo, t = []) → ∀ a, (handedOut (run (start entries) es).2).count a + s.found.count a =
      ((entries.map resolved).flatten).count a) := by
  have h := run_balance (start entries) es
  have h' : (start entries).found ++ pending (start entries) = (entries.map resolved).flatten := rfl
  rw [h'] at h
  refine ⟨h, fun hd a => ?_⟩
  rw [← h.count_eq a]
  have : pending (run (start entries) es).1 = [] := by
    unfold pending
    rw [List.flatten_eq_nil_iff]
    intro l hl
    obtain ⟨t, ht, rfl⟩ := List.mem_map.1 hl
    rw [hd t ht]
    rfl
  rw [this, List.append_nil, List.count_append]

/-- Whether an event is a call of `pop`. -/
def isPop : Event → Bool
  | .pop _ => true
  | _ => false

theorem run_mono (s : State) (es : List Event) (h : ∀ e ∈ es, isPop e = false) :
    s.found.length ≤ (run s es).1.found.length := by
  induction es generalizing s with
  | nil => exact Nat.le_refl _
  | cons e es ih =>
    rw [run]
    refine Nat.le_trans ?_ (ih _ (fun x hx => h x (by simp [hx])))
    cases e with
    | pop p => exact absurd (h (.pop p) (by simp)) (by simp [isPop])
    | len => exact Nat.le_refl _
    | thread i =>
      simp only [step]
      split
      · rename_i e _ _
        cases e <;> simp [advance]
      · exact Nat.le_refl _

/-- C115: `pop` fails only when there is nothing, and then changes nothing; after `len() > 0` it succeeds when
nobody else has called `pop` in between, whatever the threads did. -/
theorem C115_pop_partial (s : State) (es : List Event) (pick : Nat) (h : ∀ e ∈ es, isPop e = false) :
    (∀ n, (step s .len).2 = .count n → 0 < n →
      ∃ a, (step (run s es).1 (.pop pick)).2 = .popped (.ok a) ∧ a ∈ (run s es).1.found) ∧
    ((∃ e, (step s (.pop pick)).2 = .popped (.error e)) ↔ s.found = []) ∧
    (s.found = [] → (step s (.pop pick)) = (s, .popped (.error .indexError))) := by
  refine ⟨?_, ?_, ?_⟩
  · intro n hn h0
    simp only [step, Result.count.injEq] at hn
    have hm := run_mono s es h
    rcases pop_cases (run s es).1.found pick with ⟨h1, -⟩ | ⟨a, ha, h2⟩
    · rw [h1, List.length_nil] at hm
      omega
    · exact ⟨a, by simp only [step, h2], ha⟩
  · rcases pop_cases s.found pick with ⟨h1, h2⟩ | ⟨a, ha, h2⟩
    · simp only [step, h1, Result.popped.injEq, iff_true]
      exact ⟨_, rfl⟩
    · simp only [step, h2]
      constructor
      · rintro ⟨e, he⟩
        cases he
      · intro h0
        rw [h0] at ha
        cases ha
  · intro h0
    obtain ⟨f, t⟩ := s
    subst h0
    rfl

/-- C115 fails for two users: each sees one address, and the second to ask for it gets an `IndexError`. -/
theorem C115_two_users_false (a : Addr) : (run (start [[some a]]) [.thread 0, .len, .len, .pop 0, .pop 0]).2 =
    [.unit, .count 1, .count 1, .popped (.ok a), .popped (.error .indexError)] := by
  simp [run, step, start, pop, advance]

/-- Two seeds that resolve to the same address: it is handed out twice. -/
example : handedOut (run (start [[some (['a'], 1)], [none, some (['a'], 1)]])
    [.thread 1, .thread 0, .pop 3, .thread 1, .pop 0]).2 = [(['a'], 1), (['a'], 1)] := rfl

end NBC.Props
