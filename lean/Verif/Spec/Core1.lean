import Verif.Basic
/-!
# Specification: what the receive core tells the other core
-/
namespace P1P2

/-- Strictly alternating, starting with `b`. -/
def Alternating : Bool → List Bool → Prop
  | _, [] => True
  | b, x :: xs => x = b ∧ Alternating (!b) xs

/-- Number of entries for which the receiver was waiting for a start. -/
def waitingCount (fl : List Bool) : Nat := (fl.filter (fun r => !r)).length

end P1P2
