import Verif.Model.RawScratch

/-!
# C165: the node of `raw_.py`
-/

namespace NBC.Props
open NBC NBC.RawScratch

/-- **C165 is false** in Python 3: `serve_forever` returns at once, with the listener closed, whoever is waiting. -/
theorem C165_py3_false (listen : Bool) (turns : List (Option (Nat × List Char))) :
    (Raw.init .py3 listen).serve turns = ({ Raw.init .py3 listen with isOpen := false }, .returned) := by
  cases turns <;> rfl

/-- **C165 is false** in Python 2: it never returns, and takes no connection, whoever is waiting. -/
theorem C165_py2_false (listen : Bool) (turns : List (Option (Nat × List Char))) :
    (Raw.init .py2 listen).serve turns = (Raw.init .py2 listen, .running) := by
  have h : ∀ turns, (Raw.init .py2 listen).loop turns = (Raw.init .py2 listen, .running) := by
    intro turns
    induction turns with
    | nil => rfl
    | cons _ turns ih => exact ih
  unfold Raw.serve
  rw [h]

/-- **C165 is false** of a program that waits for the listener itself, in both versions: no connection is ever taken, and the
first one closes the listener. -/
theorem C165_accept_false (ver : Aes.PyVer) (listen : Bool) (quiet : Nat) (p : Nat × List Char)
    (rest : List (Option (Nat × List Char))) :
    (Raw.init ver listen).watch (List.replicate quiet none ++ some p :: rest) =
      { Raw.init ver listen with isOpen := false } := by
  induction quiet with
  | zero => cases rest <;> rfl
  | succ k ih =>
    rw [List.replicate_succ, List.cons_append]
    exact ih

/-- **C165**, what holds: without connections nothing happens; the listener stays open. -/
theorem C165_quiet_partial (ver : Aes.PyVer) (listen : Bool) (quiet : Nat) :
    (Raw.init ver listen).watch (List.replicate quiet none) = Raw.init ver listen := by
  induction quiet with
  | zero => rfl
  | succ k ih => rw [List.replicate_succ]; exact ih

example : ((Raw.init .py3 true).watch [none, some (5, ['x']), none]).isOpen = false := by decide

end NBC.Props
