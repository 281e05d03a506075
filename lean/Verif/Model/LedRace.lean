import Verif.Model.Led
/-!
# The LED manager at the granularity of its loads and stores

The functions called by the main loop (led_manager.hpp:34-72) load `newState`, compare it and store it; the 500 ms timer
interrupt (lines 75-130) may strike between the load and the store.  The timer callbacks are not interrupted by each other
(one alarm pool, one interrupt).  `newState` is loaded once per call (it is not volatile).
-/
namespace P1P2

/-- led_manager.hpp:34-72: what a call stores into `newState` if it has loaded `v`; `none` when it stores nothing -/
def LedState.stores (v : LedState) : LedEvent → Option LedState
  | .activityRx => if v = .idle then some .rx else if v = .tx then some .rxTx else none
  | .activityTx => if v = .idle then some .tx else if v = .rx then some .rxTx else none
  | .errorRx => if v ≠ .systemError ∧ v ≠ .busError then some .rxError else none
  | .errorTx => if v ≠ .systemError ∧ v ≠ .busError then some .txError else none
  | .internal => some .systemError
  | .bus => some .busError

/-- The manager, and the running call of the main loop with the value it has loaded. -/
structure LedRace where
  m : LedManager
  call : Option (LedEvent × LedState)
deriving DecidableEq, Repr

/-- What can happen: the main loop calls a function, which loads `newState`; the call stores and returns; the timers. -/
inductive LedRaceStep where
  | load (e : LedEvent)
  | store
  | refresh
  | tickR
  | tickT
  | tickP
deriving DecidableEq, Repr

/-- One step; `none` when it is not possible (the main loop makes one call at a time). -/
def LedRace.next (s : LedRace) : LedRaceStep → Option LedRace
  | .load e => match s.call with
    | none => some { s with call := some (e, s.m.newState) }
    | some _ => none
  | .store => match s.call with
    | some (e, v) => some { m := { s.m with newState := (v.stores e).getD s.m.newState }, call := none }
    | none => none
  | .refresh => some { s with m := s.m.update }
  | .tickR => some { s with m := { s.m with r := s.m.r.tick } }
  | .tickT => some { s with m := { s.m with t := s.m.t.tick } }
  | .tickP => some { s with m := { s.m with p := s.m.p.tick } }

/-- A run. -/
def LedRace.run (s : LedRace) : List LedRaceStep → Option LedRace
  | [] => some s
  | x :: xs => match s.next x with
    | none => none
    | some t => t.run xs

/-- led_manager.hpp:20-27 -/
def LedRace.init : LedRace := { m := LedManager.init, call := none }

end P1P2
