import Verif.Model.Aes

/-!
# Coin objects: comparison, hash, text and use as keys

`nbc/coins/coin.py:39-46`.  The names and symbols are byte strings (`str` of Python 2) or `None`.
-/

namespace NBC.Coins
open NBC.Aes

/-- An object of class `Coin` or of a class derived from it, as far as `coin.py:7-11,39-46` look at it: which object it is
(`id`), and its attributes.  Simplified: the attributes do not change while the object exists. -/
structure CoinObj where
  id : Nat
  name : Option Bytes
  symbol : Option Bytes
  deriving DecidableEq, Repr

/-- Python 2's `cmp` of two byte strings, for `coin.py:43`. -/
def cmpStr : Bytes → Bytes → Ordering
  | [], [] => .eq
  | [], _ :: _ => .lt
  | _ :: _, [] => .gt
  | a :: s, b :: t => if a < b then .lt else if a = b then cmpStr s t else .gt

/-- `cmp(self.name, other.name)`, `coin.py:42-43`; in Python 2 `None` comes before all strings. -/
def cmpName : Option Bytes → Option Bytes → Ordering
  | none, none => .eq
  | none, some _ => .lt
  | some _, none => .gt
  | some a, some b => cmpStr a b

/-- What a coin is compared with: a coin, or something without an attribute `name`, for `coin.py:42-43`. -/
inductive Operand where
  | coin (c : CoinObj)
  | other

/-- `coin == x`: Python 2 calls `__cmp__`, `coin.py:42-43`; Python 3 does not know it and compares identities. -/
def coinEq (ver : PyVer) (a : CoinObj) : Operand → Py Bool
  | .coin b => match ver with
    | .py2 => .ok (cmpName a.name b.name == .eq)
    | .py3 => .ok (a.id == b.id)
  | .other => match ver with
    | .py2 => .error .attributeError
    | .py3 => .ok false

/-- `coin < x`: Python 2 calls `__cmp__`, `coin.py:42-43`; Python 3 knows no order of coins. -/
def coinLt (ver : PyVer) (a : CoinObj) (x : Operand) : Py Bool :=
  match ver, x with
  | .py2, .coin b => .ok (cmpName a.name b.name == .lt)
  | .py2, .other => .error .attributeError
  | .py3, _ => .error .typeError

/-- `__hash__`, `coin.py:39-40`; `hash` is Python's function of that name. -/
def coinHash (hash : Option Bytes → Int) (a : CoinObj) : Int := hash a.symbol

/-- Whether a dictionary takes a key for one it holds, where both are coins: it is the same object, or has the same hash
and is equal.  For `coin.py:39-43`. -/
def sameKey (ver : PyVer) (hash : Option Bytes → Int) (held k : CoinObj) : Bool :=
  held.id == k.id || (coinHash hash held == coinHash hash k &&
    match coinEq ver held (.coin k) with | .ok b => b | .error _ => false)

/-- `d[k] = v` for a dictionary whose keys are coins; for `coin.py:39-43`. -/
def coinSet {V : Type} (ver : PyVer) (hash : Option Bytes → Int) (k : CoinObj) (v : V) : List (CoinObj × V) → List (CoinObj × V)
  | [] => [(k, v)]
  | (x, w) :: d => if sameKey ver hash x k then (x, v) :: d else (x, w) :: coinSet ver hash k v d

/-- `d.get(k)` for a dictionary whose keys are coins; for `coin.py:39-43`. -/
def coinGet {V : Type} (ver : PyVer) (hash : Option Bytes → Int) (k : CoinObj) : List (CoinObj × V) → Option V
  | [] => none
  | (x, w) :: d => if sameKey ver hash x k then some w else coinGet ver hash k d

/-- `c.upper()` of a byte, for `coin.py:46`. -/
def upperByte (c : UInt8) : UInt8 := if 97 ≤ c ∧ c ≤ 122 then c - 32 else c

/-- `c.lower()` of a byte, for `coin.py:46`. -/
def lowerByte (c : UInt8) : UInt8 := if 65 ≤ c ∧ c ≤ 90 then c + 32 else c

/-- `__str__`, `coin.py:45-46`: `'<%s>' % self.name.capitalize()`, for names in ASCII. -/
def coinStr (a : CoinObj) : Py Bytes :=
  match a.name with
  | none => .error .attributeError
  | some [] => .ok [60, 62]
  | some (c :: cs) => .ok (60 :: upperByte c :: cs.map lowerByte ++ [62])

end NBC.Coins
