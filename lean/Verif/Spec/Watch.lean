import Verif.Spec.Rate
/-!
# Vocabulary for C144: the clock the main loop reads

Conversions come at a fixed rate (one for 3.255 microseconds).  It is enough to assume that the clock advances by less than 20 microseconds for a conversion, and that
readings are up to 0.1 seconds off.
-/
namespace P1P2

/-- The reading of the clock (in microseconds) in a step of the main loop, of those that matter for the watchdog of the bus. -/
def BoardStep.reading : BoardStep → Option Nat
  | .first e => some e.tDog1
  | .second e => some e.tBusy
  | _ => none

/-- The clock does not run away: between two readings, or the start (`start`) and a reading, it advances at most 20 microseconds for a conversion and 0.1 seconds. -/
structure Clocked (start : Nat) (xs : List BoardStep) : Prop where
  first : ∀ a x b r, xs = a ++ x :: b → x.reading = some r → r ≤ start + 20 * (converted a).length + 100000
  two : ∀ a x b y c r r', xs = a ++ x :: (b ++ y :: c) → x.reading = some r → y.reading = some r' → r' ≤ r + 20 * (converted b).length + 100000

end P1P2
