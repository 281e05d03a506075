import Verif.Spec.Core0
/-!
# Vocabulary for C139: the packets handed to the transmit hardware
-/
namespace P1P2

/-- The packet a call hands to the transmit hardware. -/
def HwCmd.packet : HwCmd → Option Message
  | .send m => some m
  | _ => none

/-- The packets handed to the transmit hardware, in order. -/
def toWire (os : List Out2) : List Message := (os.flatMap Out2.cmds).filterMap HwCmd.packet

end P1P2
