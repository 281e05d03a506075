import Verif.Model.Message
/-!
# Model of pico/src/tx_state.hpp and pico/src/tx_statemachine.hpp

The clock is the 64-bit microsecond timer of the RP2040 (no wrap-around within 580000 years, not
modelled).  Every call of the C++ code that reads the clock gets its own reading.  What the transmit
hardware answers (`UART->Error()`, `UART->Transmitting()`) is an input here, what is asked from it an
output; `Verif/Model/UartPio.lean` connects both to a model of the hardware.
-/
namespace P1P2

/-- tx_state.hpp:8-15 `enum STATE` -/
inductive TxSt where
  | idle
  | waitLineFree
  | waitPowerOn
  | startedWaitForBusy
  | runningCheckData
  | runningWaitForIdle
deriving DecidableEq, Repr

namespace TxSt

/-- tx_state.hpp:48-65 `TimeoutForState`, defines.hpp:25-26 -/
def timeout : TxSt → Nat
  | .idle => 0
  | .waitLineFree => 2000 * 16 + 2000
  | .waitPowerOn => 32000
  | .startedWaitForBusy => 2000
  | .runningCheckData => 2000 * 2
  | .runningWaitForIdle => 2000 * 2

/-- tx_state.hpp:83-95 `IsTimeoutError` -/
def timeoutIsError : TxSt → Bool
  | .idle | .waitPowerOn => false
  | _ => true

/-- tx_state.hpp:97-110 `LineBusyIsError` -/
def busyIsError : TxSt → Bool
  | .waitPowerOn => true
  | _ => false

/-- tx_state.hpp:112-125 `LineFreeIsError` -/
def freeIsError : TxSt → Bool
  | .runningCheckData => true
  | _ => false

/-- tx_state.hpp:37-42 `LineStateIsError` -/
def lineStateIsError (s : TxSt) (busy : Bool) : Bool := if busy then s.busyIsError else s.freeIsError

end TxSt

/-- tx_state.hpp:17-22: the constructor of `TxState` computes `WaitCounter`; `now` is the clock reading of
`make_timeout_time_us`. -/
def waitCounter (s : TxSt) (now : Nat) : Nat := if s.timeout ≠ 0 then now + s.timeout else 0

/-- Calls on the transmit hardware object. -/
inductive HwCmd where
  /-- `UART->EnableShutdown(b)` -/
  | shutdown (b : Bool)
  /-- `UART->Send(TxMsg)` -/
  | send (m : Message)
  /-- `UART->ClearFifo()` -/
  | clearFifo

/-- tx_statemachine.hpp:148-149,180-183 data members (`st` and `dl` are the members of `State`). -/
structure TxSM where
  txMsg : Message
  rxMsg : Message
  st : TxSt
  dl : Nat
  txOffset : Nat
  err : Bool

/-- Inputs of one call of `Update` (tx_statemachine.hpp:76-77): the parameters, the answers of the hardware
object and the three clock readings the call can make: in `State.IsError()` (line 79), in `State.TimedOut()`
(line 106) and the last one made in `ChangeState`. -/
structure UpdIn where
  busy : Bool
  rxError : Bool
  rxValid : Bool
  rxChar : UInt8
  hwErr : Bool
  transmitting : Bool
  tErr : Nat
  tPow : Nat
  tNew : Nat
deriving DecidableEq, Repr

namespace TxSM

/-- tx_statemachine.hpp:17-22 constructor: `TxOffset(~0)`; the payload bytes are indeterminate. -/
def init (garbage : Nat → UInt8) : TxSM :=
  { txMsg := Message.empty garbage, rxMsg := Message.empty garbage, st := .idle,
    dl := waitCounter .idle 0, txOffset := 4294967295, err := false }

/-- tx_statemachine.hpp:20-21 calls of the constructor. -/
def initCmds : List HwCmd := [.clearFifo, .shutdown true]

/-- tx_statemachine.hpp:154-175: hardware calls of `ChangeState`. -/
def entryCmds (m : Message) : TxSt → List HwCmd
  | .idle => [.shutdown true]
  | .waitLineFree => []
  | .waitPowerOn => [.shutdown false]
  | .startedWaitForBusy => [.send m]
  | .runningCheckData => []
  | .runningWaitForIdle => [.clearFifo]

/-- tx_statemachine.hpp:154-178 `ChangeState` -/
def change (s : TxSM) (n : TxSt) (now : Nat) : TxSM × List HwCmd :=
  ({ s with st := n, dl := waitCounter n now }, entryCmds s.txMsg n)

/-- tx_statemachine.hpp:48-50 `IsIdle` -/
def isIdle (s : TxSM) : Bool := s.st = .idle

/-- tx_statemachine.hpp:58-60 `Done` -/
def done (s : TxSM) : Bool := s.txOffset = s.txMsg.length

/-- tx_statemachine.hpp:64-68 `Error` -/
def error (s : TxSM) : TxSM × Bool := ({ s with err := false }, s.err)

/-- tx_statemachine.hpp:37-45 `WakeAndTransmit` -/
def wake (s : TxSM) (m : Message) (now : Nat) : TxSM × List HwCmd :=
  if s.isIdle then
    change { s with txMsg := m, txOffset := 0, err := false, rxMsg := s.rxMsg.clear } .waitLineFree now
  else (s, [])

/-- tx_statemachine.hpp:124 `TxMsg.Data[TxOffset] != RxChar`: `RxChar` is a plain `char` that is promoted to
`int`; where plain `char` is signed, values from 0x80 on compare unequal to every `uint8_t`. -/
def echoDiffers (pf : Platform) (tx rx : UInt8) : Bool :=
  if pf.charSigned && decide (128 ≤ rx.toNat) then true else tx != rx

/-- tx_statemachine.hpp:118-132: the case RUNNING_CHECK_DATA (also entered from the case before it);
result: state, calls, `BusCollision`.  `bc` is the value of `BusCollision` before. -/
def checkData (pf : Platform) (s : TxSM) (i : UpdIn) (bc : Bool) : Res (TxSM × List HwCmd × Bool) :=
  if i.rxError then .ok ({ s with rxMsg := { s.rxMsg with status := Message.errParity } }, [], true)
  else if i.rxValid then do
    let b ← rd maxPacket s.txMsg.data s.txOffset
    let rx ← s.rxMsg.append b
    let s1 := { s with rxMsg := rx, txOffset := s.txOffset + 1 }
    let r := if s1.txOffset = s1.txMsg.length then change s1 .runningWaitForIdle i.tNew
             else change s1 .runningCheckData i.tNew
    .ok (r.1, r.2, bc || echoDiffers pf b i.rxChar)
  else .ok (s, [], bc)

/-- tx_statemachine.hpp:110-114: first part of the case STARTED_WAIT_FOR_BUSY. -/
def sawStart (s : TxSM) (i : UpdIn) : TxSM × List HwCmd × Bool :=
  if i.rxError then ({ s with rxMsg := { s.rxMsg with status := Message.errParity } }, [], true)
  else if i.busy || i.rxValid then
    let c := change s .runningCheckData i.tNew
    (c.1, c.2, false)
  else (s, [], false)

/-- tx_statemachine.hpp:96-139: the `switch`. -/
def dispatch (pf : Platform) (s : TxSM) (i : UpdIn) : Res (TxSM × List HwCmd × Bool) :=
  match s.st with
  | .idle => .ok (s, [], false)
  | .waitLineFree =>
    if !i.busy && !i.transmitting && s.txOffset = 0 then
      let r := change s .waitPowerOn i.tNew
      .ok (r.1, r.2, false)
    else .ok (s, [], false)
  | .waitPowerOn =>
    if s.dl ≤ i.tPow then
      let r := change s .startedWaitForBusy i.tNew
      .ok (r.1, r.2, false)
    else .ok (s, [], false)
  | .startedWaitForBusy =>
    let r := sawStart s i
    if !i.rxValid then .ok r
    else do
      let q ← checkData pf r.1 i r.2.2
      .ok (q.1, r.2.1 ++ q.2.1, q.2.2)
  | .runningCheckData => checkData pf s i false
  | .runningWaitForIdle =>
    if !i.busy then
      let r := change s .idle i.tNew
      .ok (r.1, r.2, false)
    else .ok (s, [], false)

/-- tx_state.hpp:31-33 `IsError` (`time_reached(t)`: now >= t) -/
def timedOutError (s : TxSM) (i : UpdIn) : Bool := decide (s.dl ≤ i.tErr) && s.st.timeoutIsError

/-- tx_statemachine.hpp:76-147 `Update` -/
def update (pf : Platform) (s : TxSM) (i : UpdIn) : Res (TxSM × List HwCmd) :=
  if s.timedOutError i || s.st.lineStateIsError i.busy then
    let stat := if i.busy then Message.errBusCollision else Message.errNoFraming
    let r := change { s with rxMsg := { s.rxMsg with status := stat } } .idle i.tNew
    .ok ({ r.1 with err := true }, r.2)
  else if !s.isIdle && i.hwErr then
    let r := change { s with rxMsg := { s.rxMsg with status := Message.errInternal } } .idle i.tNew
    .ok ({ r.1 with err := true }, r.2)
  else do
    let d ← dispatch pf s i
    if d.2.2 then
      let r := change d.1 .runningWaitForIdle i.tNew
      let rx := if r.1.rxMsg.status = 0 then { r.1.rxMsg with status := 21 } else r.1.rxMsg
      .ok ({ r.1 with rxMsg := rx, err := true }, d.2.1 ++ r.2)
    else .ok (d.1, d.2.1)

end TxSM

/-- One call on the transmitter object.  core0 (main.cpp:258-262) also clears `SM.RxMsg`, which is public. -/
inductive TxCall where
  | update (i : UpdIn)
  | wake (m : Message) (now : Nat)
  | error
  | clearRx

/-- One call: new state and hardware calls. -/
def TxSM.call (pf : Platform) (s : TxSM) : TxCall → Res (TxSM × List HwCmd)
  | .update i => s.update pf i
  | .wake m now => .ok (s.wake m now)
  | .error => .ok (s.error.1, [])
  | .clearRx => .ok ({ s with rxMsg := s.rxMsg.clear }, [])

/-- A history of calls: final state and all hardware calls in order. -/
def TxSM.runCalls (pf : Platform) (s : TxSM) : List TxCall → Res (TxSM × List HwCmd)
  | [] => .ok (s, [])
  | c :: cs => do
    let r ← s.call pf c
    let r' ← runCalls pf r.1 cs
    .ok (r'.1, r.2 ++ r'.2)

end P1P2
