import Verif.Model.Format
import Verif.Model.Passphrase

/-!
# The version of the ECDSA library

`nbc/util/ecdsa/_version.py`.  Texts are lists of characters; simplified: only the white characters and digits of ASCII count
(Python 3 knows more).  Left out: what `verbose` prints, and `get_expanded_variables`, which nothing calls.
-/

namespace NBC.Version
open NBC.Proto NBC.Wallet

/-- White characters for `str.strip()`, `_version.py:44,80,85` -/
def isWhite (c : Char) : Bool := c = ' ' || c = '\t' || c = '\n' || c = '\r' || c.toNat = 11 || c.toNat = 12

/-- The characters that `strip("()")` takes away, `_version.py:85` -/
def isParen (c : Char) : Bool := c = '(' || c = ')'

/-- `re.search(r'\d', r)`, `_version.py:98` -/
def hasDigit (s : List Char) : Bool := s.any (fun c => decide ('0' ≤ c ∧ c ≤ '9'))

/-- `<=` of texts, for `sorted` in `_version.py:103` -/
def leText : List Char → List Char → Bool
  | [], _ => true
  | _ :: _, [] => false
  | a :: s, b :: t => decide (a < b) || (decide (a = b) && leText s t)

/-- A text put into a sorted list, for `sorted` in `_version.py:103` -/
def insertText (x : List Char) : List (List Char) → List (List Char)
  | [] => [x]
  | y :: l => if leText x y then x :: y :: l else y :: insertText x l

/-- `sorted`, `_version.py:103` -/
def sortTexts (l : List (List Char)) : List (List Char) := l.foldr insertText []

/-- The dictionary that the functions of `_version.py:79-158` return. -/
structure Versions where
  version : List Char
  full : List Char
  deriving DecidableEq, Repr

/-- `refs`, `_version.py:80,85`.  Simplified: a list for the set; only its members matter below. -/
def refsOf (refnames : List Char) : List (List Char) :=
  (splitCh ',' (stripWith isParen (stripWith isWhite refnames))).map (stripWith isWhite)

/-- `tags`, `_version.py:88-98` -/
def tagsOf (refs : List (List Char)) : List (List Char) :=
  let tags := (refs.filter ("tag: ".toList.isPrefixOf ·)).map (·.drop 5)
  if tags = [] then refs.filter hasDigit else tags

/-- `versions_from_expanded_variables`, `_version.py:79-115`; `none` is the empty dictionary. -/
def fromExpanded (refnames full tagPrefix : List Char) : Option Versions :=
  if "$Format".toList.isPrefixOf (stripWith isWhite refnames) then none
  else match (sortTexts (tagsOf (refsOf refnames))).find? (tagPrefix.isPrefixOf ·) with
    | some ref => some ⟨ref.drop tagPrefix.length, stripWith isWhite full⟩
    | none => some ⟨stripWith isWhite full, stripWith isWhite full⟩

/-- What becomes of starting one of the commands, `_version.py:25-36,42-49`: there is none of that name (`ENOENT`), another
error, or it ran with this output and exit code. -/
inductive Started where
  | absent
  | denied
  | ran (out : List Char) (code : Int)
  deriving DecidableEq, Repr

/-- `run_command`, `_version.py:21-50` -/
def runCommand : List Started → Option (List Char)
  | [] => none
  | .absent :: rest => runCommand rest
  | .denied :: _ => none
  | .ran out code :: _ => if code ≠ 0 then none else some (stripWith isWhite out)

/-- `s.endswith(t)`, `_version.py:144` -/
def endsWith (s t : List Char) : Bool := t.reverse.isPrefixOf s.reverse

/-- `versions_from_vcs`, `_version.py:117-146`; `git` says whether there is a `.git`, the others what the two calls of
`run_command` meet. -/
def fromVcs (tagPrefix : List Char) (git : Bool) (describe revParse : List Started) : Option Versions :=
  if ¬ git then none
  else match runCommand describe with
    | none => none
    | some out =>
      if ¬ tagPrefix.isPrefixOf out then none
      else
        let tag := out.drop tagPrefix.length
        match runCommand revParse with
        | none => none
        | some out =>
          let full := stripWith isWhite out
          some ⟨tag, if endsWith tag "-dirty".toList then full ++ "-dirty".toList else full⟩

/-- `versions_from_parentdir`, `_version.py:149-158`; `dirname` is the last part of the path. -/
def fromParentdir (parentPrefix dirname : List Char) : Option Versions :=
  if ¬ parentPrefix.isPrefixOf dirname then none else some ⟨dirname.drop parentPrefix.length, []⟩

/-- Where the library lies, `_version.py:171-187`: the name of the directory two levels up, and what git does there. -/
structure Place where
  dirname : List Char
  git : Bool
  describe : List Started
  revParse : List Started

/-- `get_versions`, `_version.py:164-187`, for the variables `git_refnames` and `git_full`; without a place there is no
`__file__`. -/
def getVersions (refnames full : List Char) (dflt : Versions) (place : Option Place) : Versions :=
  match fromExpanded refnames full "python-ecdsa-".toList with
  | some v => v
  | none =>
    match place with
    | none => dflt
    | some p =>
      match fromVcs "python-ecdsa-".toList p.git p.describe p.revParse with
      | some v => v
      | none =>
        match fromParentdir "ecdsa-".toList p.dirname with
        | some v => v
        | none => dflt

/-- `git_refnames`, `_version.py:12` -/
def gitRefnames : List Char := " (HEAD, master)".toList

/-- `git_full`, `_version.py:13` -/
def gitFull : List Char := "78eed00dbf36c701919087e3e189a2824c6f3fff".toList

/-- The version of the library, `nbc/util/ecdsa/__init__.py:12-13` with the default of `_version.py:164`. -/
def libVersion (place : Option Place) : List Char :=
  (getVersions gitRefnames gitFull ⟨"unknown".toList, []⟩ place).version

end NBC.Version
