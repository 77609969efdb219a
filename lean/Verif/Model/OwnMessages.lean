import Verif.Model.Messages

/-!
# Declaring message classes

The metaclass `_AutoRegister` (`nbc/protocol/format.py:38-55`) runs when a class is declared, for the classes of `messages.py` and
for those of a program that uses the package.
-/

namespace NBC.Proto
open NBC

/-- The classes derived from `Message` that have been declared, in order, with their attribute `not_regist`, and
`Message.MessageTypes` (`messages.py:73`), which holds them by number. -/
structure Declared where
  classes : List (Bool × MsgType)
  types : List Char → Option Nat

/-- A declaration with one base: `Message` itself, or a class declared before (by number); what the body assigns to `not_regist`,
if anything; and the attributes `command` and `properties`, which are those of the base if the body does not assign them.
For `format.py:51-55`, `messages.py:75-77`. -/
structure Decl where
  base : Option Nat
  notRegist : Option Bool
  type : MsgType

/-- Before any declaration: `Message`, `messages.py:46-73`, is not registered, as `CompoundType` has no `register`. -/
def Declared.none : Declared := ⟨[], fun _ => Option.none⟩

/-- `base.not_regist`: `Message` has `False`, `messages.py:60`; other classes their own or that of their base. -/
def Declared.flag (d : Declared) : Option Nat → Bool
  | Option.none => false
  | some i => ((d.classes[i]?).map (·.1)).getD false

/-- `_AutoRegister.__init__`, `format.py:51-55`, with `Message.register`, `messages.py:75-77`: it is the flag of the base that is
looked at. -/
def Declared.declare (d : Declared) (c : Decl) : Declared where
  classes := d.classes ++ [(c.notRegist.getD (d.flag c.base), c.type)]
  types := if d.flag c.base then d.types
    else fun k => if k = c.type.command.toList then some d.classes.length else d.types k

/-- Several declarations, `messages.py:117-323` -/
def Declared.declareAll (d : Declared) (cs : List Decl) : Declared := cs.foldl Declared.declare d

/-- `Message.parse`, `messages.py:85-108`, by the classes declared: the number of the class and the properties.  (Line 106 calls
`parse` of `CompoundType` for the class found.) -/
def Declared.parse (d : Declared) (H : Hashes) (data magic : Bytes) : Py (Nat × List (String × Val)) :=
  if data.take 4 ≠ magic then .error .msgFormatError
  else do
    let length ← unpack .I false ((data.drop 16).take 4)
    let payload := (data.drop 24).take length.toNat
    if (data.drop 20).take 4 ≠ checksum H payload then .error .msgFormatError
    else
      let command := latin1Decode (stripZeros ((data.drop 4).take 12))
      match d.types command with
      | Option.none => .error .unknownMsgError
      | some i =>
        match d.classes[i]? with
        | Option.none => .error .unknownMsgError
        | some c => do
          let (_, kw) ← parseFields payload c.2.props 0
          .ok (i, kw)

/-- The declarations of `messages.py:117-323` -/
def moduleDecls : List Decl :=
  [⟨none, none, msgVersion⟩, ⟨none, none, msgVerack⟩, ⟨none, none, msgAddr⟩, ⟨none, none, msgInv⟩, ⟨some 3, none, msgGetdata⟩,
    ⟨some 3, none, msgNotfound⟩, ⟨none, none, msgGetblocks⟩, ⟨some 6, none, msgGetheaders⟩, ⟨none, none, msgTx⟩,
    ⟨none, none, msgBlock⟩, ⟨none, none, msgHeaders⟩, ⟨some 1, none, msgGetaddr⟩, ⟨some 1, none, msgMempool⟩,
    ⟨none, none, msgPing⟩, ⟨some 13, none, msgPong⟩, ⟨none, none, msgReject⟩, ⟨none, some true, msgFilterload⟩,
    ⟨none, some true, msgFilteradd⟩, ⟨some 1, some true, msgFilterclear⟩, ⟨none, some true, msgMerkleblock⟩,
    ⟨none, none, msgAlert⟩]

/-- The classes after `import nbc.protocol`, `messages.py:117-323` -/
def moduleClasses : Declared := Declared.none.declareAll moduleDecls

end NBC.Proto
