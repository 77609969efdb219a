import Verif.Spec.Wire

/-!
# Specification of what a node says about itself
-/

namespace NBC.Spec.Wire
open NBC NBC.Spec Proto

/-- The canonical text of some 16-byte address. -/
def IsIp (s : List Char) : Prop := ∃ a : Bytes, a.length = 16 ∧ s = ipText a

/-- A pair of ip and port. -/
def IsAddr (a : List Char × Int) : Prop := IsIp a.1 ∧ inRange .H a.2

/-- A network address in a version message: services, address, port. -/
def netBytes (services : Int) (ip : Bytes) (port : Int) : Bytes :=
  numBytes .Q false services ++ (ip ++ numBytes .H true port)

/-- The payload of a version message without the wish to relay. -/
def versionPayload (version services time : Int) (recv : Bytes × Int) (frm : Bytes × Int) (nonce agent : Bytes)
    (height : Int) : Bytes :=
  numBytes .i false version ++ (numBytes .Q false services ++ (numBytes .q false time ++
    (netBytes services recv.1 recv.2 ++ (netBytes services frm.1 frm.2 ++
      (nonce ++ ((varSize agent.length ++ agent) ++ (numBytes .i false height ++ numBytes .B false 0)))))))

end NBC.Spec.Wire
