import Verif.Model.Tx
/-!
# Model of pico/src/uart_pio.cpp and the transmit hardware behind it

The DMA channel copies from the object's buffer into the 8 entry transmit FIFO; the PIO program
(p1p2_uart_tx.pio:25-31) clears its flag, pulls a byte from the FIFO, and one PIO cycle later sets the flag and
starts the start bit.  Software and hardware steps are interleaved arbitrarily, with two timing facts about the
RP2040 built into the guards of `Sys.next`:
* the DMA needs a few system clocks per byte: it has caught up (nothing left or FIFO full) whenever the
  PIO pulls or software looks at the FIFO;
* the PIO finishes a byte within 32 ms of pulling it (175 PIO cycles at 153.6 kHz, 1.15 ms).
-/
namespace P1P2

/-- uart_pio.hpp:31-42 data members (`error`, `Data`), and the hardware registers. -/
structure TxHw where
  error : Bool
  /-- `Data[32]` -/
  buf : Nat → UInt8
  /-- DMA read address (index into `buf`) and remaining transfer count -/
  dmaPos : Nat
  dmaCount : Nat
  /-- TX FIFO, 8 entries (p1p2_uart_tx.pio:122) -/
  fifo : List UInt8
  /-- byte pulled, start bit not yet begun -/
  osr : Option UInt8
  /-- PIO interrupt flag: start bit begun, byte not finished -/
  flag : Bool
  /-- time of the last pull -/
  pulledAt : Nat
  /-- all bytes whose start bit has begun -/
  wire : List UInt8
  /-- level of the shutdown pin -/
  pin : Bool

namespace TxHw

/-- uart_pio.cpp:10-40 after construction -/
def init : TxHw :=
  { error := false, buf := fun _ => 0, dmaPos := 0, dmaCount := 0, fifo := [], osr := none, flag := false,
    pulledAt := 0, wire := [], pin := true }

/-- uart_pio.cpp:82-85 `DataWaiting` (`dma_channel_is_busy`) -/
def dmaBusy (h : TxHw) : Bool := h.dmaCount ≠ 0

/-- uart_pio.cpp:63-80 `Send` -/
def send (h : TxHw) (m : Message) : TxHw :=
  if h.dmaBusy then { h with error := true }
  else if m.length > 32 then { h with error := true }
  else { h with buf := fun k => if k < m.length then m.data k else h.buf k, dmaPos := 0, dmaCount := m.length }

/-- uart_pio.cpp:56-59 `ClearFifo` -/
def clearFifo (h : TxHw) : TxHw := { h with dmaCount := 0, fifo := [] }

/-- Effect of a call of the state machine (uart_pio.cpp:44-46, 56-59, 63-80). -/
def apply (h : TxHw) : HwCmd → TxHw
  | .shutdown b => { h with pin := b }
  | .send m => h.send m
  | .clearFifo => h.clearFifo

/-- The DMA moves one byte. -/
def dmaStep (h : TxHw) : Option TxHw :=
  if 0 < h.dmaCount ∧ h.fifo.length < 8 then
    some { h with fifo := h.fifo ++ [h.buf h.dmaPos], dmaPos := h.dmaPos + 1, dmaCount := h.dmaCount - 1 }
  else none

/-- The DMA has nothing to do. -/
def caughtUp (h : TxHw) : Prop := h.dmaCount = 0 ∨ h.fifo.length = 8

instance (h : TxHw) : Decidable h.caughtUp := by unfold caughtUp; infer_instance

/-- p1p2_uart_tx.pio:28 `pull block` -/
def pull (h : TxHw) (t : Nat) : Option TxHw :=
  match h.fifo with
  | b :: q => if h.osr = none ∧ h.flag = false ∧ h.caughtUp then
      some { h with fifo := q, osr := some b, pulledAt := t } else none
  | [] => none

/-- p1p2_uart_tx.pio:31 `irq set 0 side LEVEL_ZERO_UP` -/
def startBit (h : TxHw) : Option TxHw :=
  match h.osr with
  | some b => some { h with osr := none, flag := true, wire := h.wire ++ [b] }
  | none => none

/-- p1p2_uart_tx.pio:27 `irq clear 0` -/
def byteDone (h : TxHw) : Option TxHw := if h.flag then some { h with flag := false } else none

/-- The PIO works on a byte. -/
def working (h : TxHw) : Prop := h.osr ≠ none ∨ h.flag = true

instance (h : TxHw) : Decidable h.working := by unfold working; infer_instance

end TxHw

/-- The transmitter object with its hardware.  `stage` and the three `rd` fields describe a call of
`Transmitting()` (uart_pio.cpp:49-53) that is being evaluated: the registers are read one after the other. -/
structure Sys where
  sm : TxSM
  hw : TxHw
  now : Nat
  stage : Nat
  rdFlag : Bool
  rdFifo : Bool
  rdDma : Bool
  /-- bookkeeping: the bytes of the message handed over last, and the length of `wire` then -/
  cur : List UInt8
  mark : Nat

/-- Events: hardware steps, the three register reads of `Transmitting()`, calls on the state machine, and the
call of `uart_tx.Error()` in main.cpp:231. -/
inductive SysEv where
  | dma
  | pull (t : Nat)
  | startBit (t : Nat)
  | byteDone (t : Nat)
  | readFlag (t : Nat)
  | readFifo (t : Nat)
  | readDma (t : Nat)
  | update (i : UpdIn)
  | call (c : TxCall)
  | clearError

namespace Sys

/-- main.cpp:81,211 initial state: hardware constructed, then tx_statemachine.hpp:17-22. -/
def init (garbage : Nat → UInt8) : Sys :=
  { sm := TxSM.init garbage, hw := TxSM.initCmds.foldl TxHw.apply TxHw.init, now := 0, stage := 0, rdFlag := false,
    rdFifo := false, rdDma := false, cur := [], mark := 0 }

/-- Time may advance to `t`. -/
def timeOk (s : Sys) (t : Nat) : Prop := s.now ≤ t ∧ (s.hw.working → t < s.hw.pulledAt + 32000)

instance (s : Sys) (t : Nat) : Decidable (s.timeOk t) := by unfold timeOk; infer_instance

/-- An update with input `i` can happen now: `i` reports the registers as they were read. -/
def updateOk (s : Sys) (i : UpdIn) : Prop :=
  s.timeOk i.tPow ∧ s.now ≤ i.tErr ∧ i.tErr ≤ i.tPow ∧ i.tPow ≤ i.tNew ∧ i.hwErr = s.hw.error ∧
    (if s.sm.st = .waitLineFree then s.stage = 3 ∧ i.transmitting = (s.rdFlag || s.rdFifo || s.rdDma)
     else s.stage = 0)

instance (s : Sys) (i : UpdIn) : Decidable (s.updateOk i) := by unfold updateOk; infer_instance

/-- The message handed over by a list of calls, if any. -/
def sentBy : List HwCmd → Option Message
  | [] => none
  | .send m :: _ => some m
  | _ :: cs => sentBy cs

/-- The state machine made some calls on the hardware (simplification: the calls of one update are not
interleaved with hardware steps; there are at most two, both `ClearFifo`). -/
def effect (s : Sys) (sm : TxSM) (cmds : List HwCmd) : Sys :=
  match sentBy cmds with
  | some m => { s with sm := sm, hw := cmds.foldl TxHw.apply s.hw, cur := m.bytes, mark := s.hw.wire.length }
  | none => { s with sm := sm, hw := cmds.foldl TxHw.apply s.hw }

/-- One step; `none` when the event cannot happen now. -/
def next (pf : Platform) (s : Sys) : SysEv → Option Sys
  | .dma => (s.hw.dmaStep).map fun h => { s with hw := h }
  | .pull t => if s.timeOk t then (s.hw.pull t).map fun h => { s with hw := h, now := t } else none
  | .startBit t => if s.timeOk t then (s.hw.startBit).map fun h => { s with hw := h, now := t } else none
  | .byteDone t => if s.timeOk t then (s.hw.byteDone).map fun h => { s with hw := h, now := t } else none
  | .readFlag t => if s.timeOk t ∧ s.stage = 0 ∧ s.sm.st = .waitLineFree then
      some { s with now := t, stage := 1, rdFlag := s.hw.flag } else none
  | .readFifo t => if s.timeOk t ∧ s.stage = 1 ∧ s.hw.caughtUp then
      some { s with now := t, stage := 2, rdFifo := !s.hw.fifo.isEmpty } else none
  | .readDma t => if s.timeOk t ∧ s.stage = 2 then
      some { s with now := t, stage := 3, rdDma := s.hw.dmaBusy } else none
  | .update i =>
    if s.updateOk i then
      match s.sm.update pf i with
      | .ok r =>
        let s1 := if s.sm.timedOutError i || s.sm.st.lineStateIsError i.busy || s.sm.isIdle then s
                  else { s with hw := { s.hw with error := false } }
        some { s1.effect r.1 r.2 with now := i.tNew, stage := 0 }
      | .ub => none
    else none
  | .call c =>
    if s.stage = 0 then
      match c with
      | .update _ => none
      | .wake m t => if s.timeOk t then
          some { s with sm := (s.sm.wake m t).1, now := t } else none
      | .error => some { s with sm := s.sm.error.1 }
      | .clearRx => some { s with sm := { s.sm with rxMsg := s.sm.rxMsg.clear } }
    else none
  | .clearError => if s.stage = 0 then some { s with hw := { s.hw with error := false } } else none

/-- A run. -/
def run (pf : Platform) (s : Sys) : List SysEv → Option Sys
  | [] => some s
  | e :: es => match s.next pf e with
    | some s' => run pf s' es
    | none => none

end Sys
end P1P2
