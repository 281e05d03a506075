import Verif.Model.Tx
/-!
# Vocabulary for the transmitter properties

An execution is a list of calls annotated with what was observed: the calls made on the hardware and the
object state afterwards (`GetState()`, `Error()`, `RxMsg`, ... are projections of it).
-/
namespace P1P2

/-- One observed call. -/
structure TxObs where
  call : TxCall
  cmds : List HwCmd
  after : TxSM

/-- `es` is an execution of the program that starts in `s`. -/
def TxRun (pf : Platform) : TxSM → List TxObs → Prop
  | _, [] => True
  | s, e :: es => s.call pf e.call = .ok (e.after, e.cmds) ∧ TxRun pf e.after es

/-- State at the end of an execution. -/
def txEnd : TxSM → List TxObs → TxSM
  | s, [] => s
  | _, e :: es => txEnd e.after es

/-- All hardware calls of an execution. -/
def txCmds (es : List TxObs) : List HwCmd := es.flatMap TxObs.cmds

/-- Effect of one hardware call on the level of the shutdown pin. -/
def pinStep (p : Bool) : HwCmd → Bool
  | .shutdown b => b
  | _ => p

/-- Level of the shutdown pin after a list of hardware calls (high after reset: uart_pio.cpp:39). -/
def shutdownPin (l : List HwCmd) : Bool := l.foldl pinStep true

/-- The bytes received without error in an execution, in order. -/
def echoes (es : List TxObs) : List UInt8 :=
  es.filterMap fun e => match e.call with
    | .update i => if i.rxValid && !i.rxError then some i.rxChar else none
    | _ => none

/-- No call of the execution reported a receive error. -/
def noRxError (es : List TxObs) : Prop := ∀ e ∈ es, ∀ i, e.call = .update i → i.rxError = false

/-- No call of the execution handed a message to the hardware. -/
def noSend (es : List TxObs) : Prop := ∀ e ∈ es, ∀ m, HwCmd.send m ∉ e.cmds

/-- The clock reading with which a phase is entered by a call. -/
def entryTime : TxCall → Nat
  | .update i => i.tNew
  | .wake _ now => now
  | _ => 0

/-- Longest allowed stay in a phase in microseconds (none: unlimited), after which the transmission has
failed: 17 character times for the line to become free, 1 for the start, 2 for each byte and for the end. -/
def phaseLimit : TxSt → Option Nat
  | .waitLineFree => some 34000
  | .startedWaitForBusy => some 2000
  | .runningCheckData => some 4000
  | .runningWaitForIdle => some 4000
  | .idle | .waitPowerOn => none

/-- Two message objects that hold the same packet (whatever is in the unused part of the payload). -/
def SamePacket (m m' : Message) : Prop :=
  m.status = m'.status ∧ m.time = m'.time ∧ m.length = m'.length ∧ m.bytes = m'.bytes

/-- A message the system can transmit. -/
def Sendable (m : Message) : Prop := 1 ≤ m.length ∧ m.length ≤ 32

end P1P2
