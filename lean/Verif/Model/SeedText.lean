import Verif.Model.LogLine
import Verif.Model.Seed

/-!
# Seeds of signing keys as they are given

`PRNG`, `randrange_from_seed__overshoot_modulo` and `randrange_from_seed__trytryagain` of `nbc/util/ecdsa/util.py` for a
seed that is bytes or text.  `Model/Rand` takes the seed as the bytes that come to stand behind the counter in what is
hashed; here is how they come about.
-/

namespace NBC.Ecdsa
open NBC Aes Proto Wallet

/-- What `("prng-%d-%s" % (counter, seed)).encode()` puts in the place of the seed, `ecdsa/util.py:80`.  Python 3: `%s` of
`bytes` is their `repr`, and the text is encoded in UTF-8 (texts have no lone surrogates here, which cannot be encoded).
Python 2: `encode` of a `str` decodes it first, and both steps take ASCII only.  The exceptions `UnicodeDecodeError` and
`UnicodeEncodeError` are subclasses of `ValueError`. -/
def seedText (ver : PyVer) (seed : Phrase) : Py Bytes :=
  match ver, seed with
  | .py3, .bytes b => .ok ((reprBytes .py3 b).flatMap String.utf8EncodeChar)
  | .py3, .text t => .ok (t.flatMap String.utf8EncodeChar)
  | .py2, .bytes b => if b.all (fun x => decide (x.toNat < 128)) then .ok b else .error .valueError
  | .py2, .text t =>
    if t.all (fun c => decide (c.toNat < 128)) then .ok (t.map (fun c => UInt8.ofNat c.toNat)) else .error .valueError

/-- `randrange_from_seed__overshoot_modulo`, `ecdsa/util.py:84-94`: the generator makes its first text when the first byte is
asked for, and there is always one to ask for. -/
def overshootSeed (ver : PyVer) (H : Hashes) (seed : Phrase) (order : Nat) : Py Nat := do
  let s ← seedText ver seed
  overshootModulo H s order

/-- `randrange_from_seed__trytryagain`, `ecdsa/util.py:142-158`; `bytes` and `extrabits` as for `tryTryAgain`, not both 0. -/
def tryTryAgainSeed (ver : PyVer) (H : Hashes) (seed : Phrase) (order bytes extrabits fuel : Nat) :
    Py (Option Nat) := do
  pyAssert (decide (order > 1))
  let s ← seedText ver seed
  tryTryAgain H s order bytes extrabits fuel

end NBC.Ecdsa
