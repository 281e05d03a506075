import Verif.Model.Led
/-!
# Vocabulary for C70-C72
-/
namespace P1P2

/-- The last event of a list that satisfies `p`. -/
def lastOf (p : LedEvent → Bool) (es : List LedEvent) : Option LedEvent := (es.filter p).getLast?

def LedEvent.severe : LedEvent → Bool
  | .internal => true
  | .bus => true
  | _ => false

def LedEvent.transmission : LedEvent → Bool
  | .errorRx => true
  | .errorTx => true
  | _ => false

/-- What is to be shown for the events `es` of a period: the latest internal or bus error; without one, the latest transmission
error; without one, the activity in either direction. -/
def shown (es : List LedEvent) : LedState :=
  match lastOf LedEvent.severe es, lastOf LedEvent.transmission es with
  | some .bus, _ => .busError
  | some _, _ => .systemError
  | none, some .errorTx => .txError
  | none, some _ => .rxError
  | none, none =>
    if LedEvent.activityRx ∈ es ∧ LedEvent.activityTx ∈ es then .rxTx
    else if LedEvent.activityRx ∈ es then .rx
    else if LedEvent.activityTx ∈ es then .tx
    else .idle

/-- The table of pico/doc/leds.md: RX, TX, PWR.  The bus error is not documented. -/
def documented : LedState → Option (LedMode × LedMode × LedMode)
  | .idle => some (.off, .off, .on)
  | .rx => some (.slow, .off, .on)
  | .tx => some (.off, .slow, .on)
  | .rxTx => some (.slow, .slow, .on)
  | .rxError => some (.fast, .off, .fast)
  | .txError => some (.off, .fast, .fast)
  | .systemError => some (.off, .off, .fast)
  | .busError => none

/-- The events of a history. -/
def eventsOf : List LedStep → List LedEvent
  | [] => []
  | .report e :: xs => e :: eventsOf xs
  | _ :: xs => eventsOf xs

/-- The level of a LED `n` periods of 100 ms after its mode was set. -/
def ledLevel (m : LedMode) (n : Nat) : Bool :=
  match m with
  | .off => false
  | .on => true
  | .slow => n / 5 % 2 = 1
  | .fast => n % 2 = 1

/-- The three LEDs of the panel. -/
inductive Which where
  | rx
  | tx
  | power
deriving DecidableEq, Repr

def LedManager.led (m : LedManager) : Which → Led
  | .rx => m.r
  | .tx => m.t
  | .power => m.p

/-- The 100 ms timer of a LED. -/
def Which.timer : Which → LedStep
  | .rx => .tickR
  | .tx => .tickT
  | .power => .tickP

end P1P2
