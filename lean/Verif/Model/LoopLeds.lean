import Verif.Model.Core0
/-!
# The LEDs and the main loop together, pico/src/main.cpp

The main loop reports events to the LED manager; the timers (every 500 ms for the manager, every 100 ms for each LED) run as interrupts at any time between two of
these calls.
-/
namespace P1P2

/-- main.cpp:227-239, 307-314: what an iteration that begins in state `c` reports to the LED manager, in order.  (`TxFailure` is read in line 226.) -/
def Core0.leds (c : Core0) (e : Env1 × Env2) : List LedEvent :=
  c.leds1 c.sm.error.2 e.1 ++ (match e.2.word with | some w => leds2 w | none => [])

/-- The calls of the LED manager among the steps. -/
def ledCalls : List LedStep → List LedEvent
  | [] => []
  | .report e :: xs => e :: ledCalls xs
  | _ :: xs => ledCalls xs

/-- A history of the main loop with the steps of the LED subsystem that happen during each iteration: the reports of the iteration, in order, and any timer
interrupts before, between and after them. -/
def Core0.ledRun (pf : Platform) (g : Nat → UInt8) (c : Core0) : List ((Env1 × Env2) × List LedStep) → Core0 → List Out2 → Prop
  | [], c', os => c' = c ∧ os = []
  | x :: xs, c', os => ∃ c1 o os', c.iter pf g x.1 = .ok (c1, o) ∧ ledCalls x.2 = c.leds x.1 ∧ os = o :: os' ∧ Core0.ledRun pf g c1 xs c' os'

end P1P2
