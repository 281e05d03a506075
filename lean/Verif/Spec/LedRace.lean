import Verif.Model.LedRace
import Verif.Spec.Led
/-!
# Vocabulary for C131
-/
namespace P1P2

/-- A state of the LEDs tells of an event: it shows the event or something more severe. -/
def LedState.tells (s : LedState) : LedEvent → Prop
  | .activityRx => s ≠ .idle ∧ s ≠ .tx
  | .activityTx => s ≠ .idle ∧ s ≠ .rx
  | .errorRx => s = .rxError ∨ s = .txError ∨ s = .systemError ∨ s = .busError
  | .errorTx => s = .rxError ∨ s = .txError ∨ s = .systemError ∨ s = .busError
  | .internal => s = .systemError ∨ s = .busError
  | .bus => s = .systemError ∨ s = .busError

/-- Severity of what is shown. -/
def LedState.severity : LedState → Nat
  | .idle => 0
  | .rx => 1
  | .tx => 1
  | .rxTx => 1
  | .rxError => 2
  | .txError => 2
  | .systemError => 3
  | .busError => 3

/-- Severity of an event. -/
def LedEvent.severity : LedEvent → Nat
  | .activityRx => 1
  | .activityTx => 1
  | .errorRx => 2
  | .errorTx => 2
  | .internal => 3
  | .bus => 3

/-- The calls that are completed in a run. -/
def completed (s : LedRace) : List LedRaceStep → List LedEvent
  | [] => []
  | x :: xs => (if x = .store then (s.call.map (·.1)).toList else []) ++
      match s.next x with
      | none => []
      | some t => completed t xs

end P1P2
