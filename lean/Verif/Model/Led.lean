import Verif.Basic
/-!
# Model of pico/src/led_driver.hpp and pico/src/led_manager.hpp

`gpio_get` of a pin configured as output returns the level driven on it.  The functions called from the main loop and
the timer callbacks are taken as atomic steps.
-/
namespace P1P2

/-- led_driver.hpp:8-13 -/
inductive LedMode where
  | off
  | on
  | slow
  | fast
deriving DecidableEq, Repr

/-- led_driver.hpp:90-93 and the level of the pin -/
structure Led where
  mode : LedMode
  counter : Nat
  pin : Bool
deriving DecidableEq, Repr

/-- led_driver.hpp:24-32 constructor -/
def Led.init : Led := { mode := .off, counter := 0, pin := false }

/-- led_driver.hpp:39-53 `Set` -/
def Led.set (l : Led) (s : LedMode) : Led :=
  if l.mode ≠ s then
    match s with
    | .slow => { mode := s, counter := 0, pin := false }
    | .fast => { l with mode := s, pin := false }
    | .off => { l with mode := s, pin := false }
    | .on => { l with mode := s, pin := true }
  else l

/-- led_driver.hpp:57-76 `Update`, called every 100 ms; `counter` is a `uint8_t` -/
def Led.tick (l : Led) : Led :=
  match l.mode with
  | .off => { l with pin := false }
  | .on => { l with pin := true }
  | .slow =>
    let n := (l.counter + 1) % 256
    if n = 5 then { l with counter := 0, pin := !l.pin } else { l with counter := n }
  | .fast => { l with pin := !l.pin }

/-- led_manager.hpp:9-18 -/
inductive LedState where
  | idle
  | rx
  | tx
  | rxTx
  | busError
  | systemError
  | rxError
  | txError
deriving DecidableEq, Repr

/-- What the main loop reports (led_manager.hpp:34-72). -/
inductive LedEvent where
  | activityRx
  | activityTx
  | errorRx
  | errorTx
  | internal
  | bus
deriving DecidableEq, Repr

/-- led_manager.hpp:34-72, effect of a report on `newState` -/
def LedState.report (s : LedState) : LedEvent → LedState
  | .activityRx => if s = .idle then .rx else if s = .tx then .rxTx else s
  | .activityTx => if s = .idle then .tx else if s = .rx then .rxTx else s
  | .errorRx => if s ≠ .systemError ∧ s ≠ .busError then .rxError else s
  | .errorTx => if s ≠ .systemError ∧ s ≠ .busError then .txError else s
  | .internal => .systemError
  | .bus => .busError

/-- led_manager.hpp:88-129: the modes set by `Update` for each state: rx, tx, power -/
def LedState.modes : LedState → LedMode × LedMode × LedMode
  | .idle => (.off, .off, .on)
  | .busError => (.on, .on, .off)
  | .rx => (.slow, .off, .on)
  | .tx => (.off, .slow, .on)
  | .rxTx => (.slow, .slow, .on)
  | .systemError => (.off, .off, .fast)
  | .txError => (.off, .fast, .fast)
  | .rxError => (.fast, .off, .fast)

/-- led_manager.hpp:132-136 and the three drivers -/
structure LedManager where
  state : LedState
  newState : LedState
  r : Led
  t : Led
  p : Led
deriving DecidableEq, Repr

/-- led_manager.hpp:20-27 constructor -/
def LedManager.init : LedManager :=
  { state := .systemError, newState := .idle, r := Led.init.set .on, t := Led.init.set .on, p := Led.init.set .on }

/-- led_manager.hpp:84-130 `Update`, called every 500 ms -/
def LedManager.update (m : LedManager) : LedManager :=
  let s := m.newState
  { state := s, newState := .idle, r := m.r.set s.modes.1, t := m.t.set s.modes.2.1, p := m.p.set s.modes.2.2 }

/-- The steps of the LED subsystem: a report by the main loop, the 500 ms timer, the 100 ms timers of the drivers. -/
inductive LedStep where
  | report (e : LedEvent)
  | refresh
  | tickR
  | tickT
  | tickP
deriving DecidableEq, Repr

/-- One step. -/
def LedManager.step (m : LedManager) : LedStep → LedManager
  | .report e => { m with newState := m.newState.report e }
  | .refresh => m.update
  | .tickR => { m with r := m.r.tick }
  | .tickT => { m with t := m.t.tick }
  | .tickP => { m with p := m.p.tick }

end P1P2
