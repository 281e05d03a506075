import Verif.Spec.Lines
import Verif.Props.Core0
/-!
# Vocabulary for C104, C105: one line for each packet
-/
namespace P1P2

/-- The words of packets with these bytes: line free, line busy, the bytes; at the end the line is free. -/
def packetWords (ps : List (List UInt8)) : List Word := (ps.flatMap fun p => wFree :: wBusy :: p.map wByte) ++ [wFree]

/-- What the host reads in a line: the status and the bytes. -/
def lineShown (m : Message) : Nat × List UInt8 := (m.status, m.bytes)

/-- The words that the receiving core hands over, in order. -/
def pushes (xs : List TwoStep) : List Word := xs.filterMap fun | .push w => some w | _ => none

end P1P2
