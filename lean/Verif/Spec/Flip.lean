import Verif.Spec.Raw
/-!
# Specification: the bus with its wires swapped
-/
namespace P1P2

/-- The level seen if the two wires are swapped. -/
def Level.flip : Level → Level
  | .mid => .mid
  | .up => .down
  | .down => .up

/-- Codes of the same line `L` if the wires are swapped: now the odd ones are taken from the wire that `Codes` takes the even ones from. -/
def SwappedCodes (a c : Int) (L : Nat → Level) (q : Nat → UInt8) : Prop :=
  ∀ k, let ideal := if k % 2 = 0 then c + a * (L k).sign else c - a * (L k).sign
    ideal - 1 ≤ (q k).toNat ∧ ((q k).toNat : Int) ≤ ideal + 1

/-- A packet whose pulses have the opposite polarity: same gaps, same bytes. -/
def BusPacket.flip (p : BusPacket) : BusPacket :=
  { gap := p.gap, pol := !p.pol, first := p.first, rest := p.rest.map fun b => (b.1, !b.2.1, b.2.2) }

end P1P2
