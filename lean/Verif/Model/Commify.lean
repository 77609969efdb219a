import Verif.Model.Rand

/-!
# `commify`, `nbc/util/__init__.py:60-61`
-/

namespace NBC.Util
open NBC NBC.Ecdsa

/-- The separators that the `,` of a format puts in, from the last digit on: one after each three digits that another one
follows; for `nbc/util/__init__.py:61` -/
def commaLoop : Bytes → Bytes
  | a :: b :: c :: d :: rest => a :: b :: c :: 44 :: commaLoop (d :: rest)
  | l => l

/-- `commify(value)`, `nbc/util/__init__.py:60-61`, of an integer.  Simplified: a value of another type raises in `format`
(`ValueError` for a float). -/
def commify (value : Int) : Bytes :=
  (if value < 0 then [45] else []) ++ (commaLoop (fmtDecNat value.natAbs).reverse).reverse

end NBC.Util
