import Verif.Spec.Clock
import Verif.Spec.Raw
/-!
# Specification: packets in time

Times are counted in any unit, for example cycles of the ADC clock.  A bit takes `T`, a pulse `W`, and the ADC takes a
code every `P` (from alternating wires).  The bus and the ADC run from different clocks, nothing is aligned.
-/
namespace P1P2

/-- Start times of frames: each starts some time (its gap) after the end of the one before, which takes eleven bits. -/
def frameTimes {α : Type} (T : Nat) : Nat → List (Nat × α) → List (Nat × α)
  | _, [] => []
  | t, (g, a) :: l => (t + g, a) :: frameTimes T (t + g + 11 * T) l

/-- Time at the end of the last frame. -/
def timesEnd {α : Type} (T : Nat) : Nat → List (Nat × α) → Nat
  | t, [] => t
  | t, (g, _) :: l => timesEnd T (t + g + 11 * T) l

/-- The clocks agree well enough: over a frame they drift apart by at most two codes, less what a pulse falls short of 16 codes (so it takes 14 to 16). -/
structure RawClockOk (P T W : Nat) : Prop where
  pos : 0 < P
  high : W ≤ 16 * P
  drift : 9 * ((T : Int) - 32 * P).natAbs + (16 * P - W) ≤ 2 * P

/-- Conditions on a packet: at least 352 codes (eleven bit times) of silence before it, less within it (gaps increased by
some 14 codes per byte add up to at most 344 codes), and all its bytes start with the same polarity. -/
structure BusPacket.TimeOk (P T : Nat) (p : BusPacket) : Prop where
  gap : 352 * P ≤ p.gap
  rest : (p.rest.map fun b => b.1 + (11 * T - 338 * P)).sum ≤ 344 * P
  pol : ∀ b ∈ p.rest, b.2.1 = p.pol

end P1P2
