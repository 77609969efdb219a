import Verif.Model.Py

/-! # Inverting `do` blocks -/

namespace NBC

theorem bind_ok_iff {α β : Type} {x : Py α} {f : α → Py β} {b : β} :
    (x >>= f) = .ok b ↔ ∃ a, x = .ok a ∧ f a = .ok b := by
  cases x with
  | error e => simp [Bind.bind, Except.bind]
  | ok a => simp [Bind.bind, Except.bind]

theorem bind_error_iff {α β : Type} {x : Py α} {f : α → Py β} {e : PyErr} :
    (x >>= f) = .error e ↔ x = .error e ∨ ∃ a, x = .ok a ∧ f a = .error e := by
  cases x with
  | error e => simp [Bind.bind, Except.bind]
  | ok a => simp [Bind.bind, Except.bind]

theorem pure_ok_iff {α : Type} {a b : α} : (pure a : Py α) = .ok b ↔ a = b := by
  simp [Pure.pure, Except.pure]

theorem pyAssert_ok_iff {b : Bool} {u : Unit} : pyAssert b = .ok u ↔ b = true := by
  cases b <;> simp [pyAssert]

theorem ok_bind {α β : Type} {a : α} {f : α → Py β} : ((.ok a : Py α) >>= f) = f a := rfl
theorem error_bind {α β : Type} {e : PyErr} {f : α → Py β} : ((.error e : Py α) >>= f) = .error e := rfl

end NBC
