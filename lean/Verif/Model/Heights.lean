import Verif.Model.Py

/-!
# `guess_block_height` and the functions that fetch heights, `nbc/util/__init__.py:133-202`
-/

namespace NBC.Heights

/-! ### Waiting for the threads -/

/-- A thread of `guess_block_height`: the name of its source, when it is done (in seconds, never if `none`), and
what it stores: the value of `func()`, or nothing if that raised. For `nbc/util/__init__.py:173-202`. -/
structure Worker where
  name : String
  done : Option Rat
  value : Option (Option Int)

/-- Whether a thread is done at time `t`. For `nbc/util/__init__.py:173-202`. -/
def Worker.doneBy (w : Worker) (t : Rat) : Prop := ∃ d, w.done = some d ∧ d ≤ t

/-- The loop over the threads, `nbc/util/__init__.py:193-197`, from time `now` to time `e`.  `thread.join(wait)`
returns as soon as the thread is done or the time is over (at once for a negative time); simplified: the time
that the main thread needs between two waits is not counted. -/
inductive Waits (timeout t0 : Rat) : List Worker → Rat → Rat → Prop
  | none (now : Rat) : Waits timeout t0 [] now now
  | break (now : Rat) (w : Worker) (ws : List Worker) : timeout < 0 → Waits timeout t0 (w :: ws) now now
  | join (now now' e : Rat) (w : Worker) (ws : List Worker) : ¬ timeout < 0 → now ≤ now' →
      now' ≤ now + max (timeout - (now - t0)) 0 →
      (w.doneBy now' ∨ now' = now + max (timeout - (now - t0)) 0) →
      (∀ t, now ≤ t → t < now' → ¬ w.doneBy t) →
      Waits timeout t0 ws now' e → Waits timeout t0 (w :: ws) now e

/-- `result[name] = block_height` under the lock, `nbc/util/__init__.py:180-181`. -/
def store (d : List (String × Option Int)) (k : String) (v : Option Int) : List (String × Option Int) :=
  d.filter (fun p => p.1 ≠ k) ++ [(k, v)]

/-- `result` after the given threads have stored their values, one after the other. For `nbc/util/__init__.py:173-202`. -/
def results (ws : List Worker) : List (String × Option Int) :=
  ws.foldl (fun d w => match w.value with
    | some v => store d w.name v
    | none => d) []

/-- `guess_block_height(coin, timeout)`, `nbc/util/__init__.py:173-202`, started at `t0`: it may return `r` at
time `e` if `r` is the copy of `result` then, when the threads that are done have stored their values in some
order. -/
def Guess (workers : List Worker) (timeout t0 e : Rat) (r : List (String × Option Int)) : Prop :=
  Waits timeout t0 workers t0 e ∧
  ∃ order : List Worker, order.Nodup ∧ (∀ w, w ∈ order ↔ w ∈ workers ∧ w.doneBy e) ∧ r = results order

/-! ### Values in JSON data -/

/-- JSON data as `json.loads` gives them.  A number with a fraction or an exponent is a float, of which only
the integral part is kept; `other` is NaN or infinite.
For `nbc/util/__init__.py:141-147`, `nbc/util/__init__.py:133-154`. -/
inductive Json where
  | null
  | bool (b : Bool)
  | int (i : Int)
  | real (whole : Int)
  | str (s : List Char)
  | list (l : List Json)
  | dict (d : List (String × Json))
  | other

/-- `data[component]` for a `dict`: the last value of the key, `KeyError` if there is none.
For `nbc/util/__init__.py:141-147`. -/
def Json.key (d : List (String × Json)) (k : String) : Py Json :=
  match d.reverse.find? (fun p => p.1 = k) with
  | some p => .ok p.2
  | none => .error .keyError

/-- The loop over the components, `nbc/util/__init__.py:141-147`: `none` is `return None`; the second test calls
`ininstance`, a name that does not exist. -/
def walk : Json → List String → Py (Option Json)
  | data, [] => .ok (some data)
  | .dict d, c :: cs => do
    let data ← Json.key d c
    walk data cs
  | _, _ :: _ => .error .nameError

/-- `int(data)`; `text` is `int` of a string. For `nbc/util/__init__.py:138-154`. -/
def toInt (text : List Char → Py Int) : Json → Py Int
  | .int i => .ok i
  | .real i => .ok i
  | .bool b => .ok (if b then 1 else 0)
  | .str s => text s
  | .other => .error .valueError
  | _ => .error .typeError

/-- The function made by `fetch_url_json_path_int`, `nbc/util/__init__.py:133-154`, for a payload that
`json.loads` takes: all exceptions are caught (line 149), and the answer is then `None`. -/
def fetchPath (text : List Char → Py Int) (data : Json) (path : List String) : Option Int :=
  match walk data path with
  | .ok (some d) =>
    match toInt text d with
    | .ok i => some i
    | .error _ => none
  | .ok none => none
  | .error _ => none

end NBC.Heights
