import Verif.Model.TxDev
/-!
# The transmitter object on the cycle accurate hardware

As `Sys` of `Verif/Model/UartPio.lean`, but with the transmit program p1p2_uart_tx.pio run by the interpreter of `Verif/Model/Pio.lean` in place of the
three abstract steps of the PIO, and without bookkeeping.  Two timing facts about the RP2040 are built into the guards:
* the DMA has caught up when the program pulls (guard of `TxDev.cycle`) or software looks at the FIFO;
* a PIO cycle takes 6.51 us (p1p2_uart_tx.pio:125-126): no event happens more than 150 us after the last cycle.  (The bound is not 7 us because an update, which
  is one step here, may take longer than a cycle.)
-/
namespace P1P2

/-- The state: transmitter object, driver and hardware, time, time of the last PIO cycle, and a call of `Transmitting()` (uart_pio.cpp:49-53) that is being
evaluated: the registers are read one after the other. -/
structure FSys where
  sm : TxSM
  dev : TxDev
  now : Nat
  last : Nat
  stage : Nat
  rdFlag : Bool
  rdFifo : Bool
  rdDma : Bool

/-- Events: a DMA transfer, a PIO cycle, the three register reads of `Transmitting()`, calls on the transmitter object, and the
call of `uart_tx.Error()` in main.cpp:231. -/
inductive FEv where
  | dma
  | cycle (t : Nat)
  | readFlag (t : Nat)
  | readFifo (t : Nat)
  | readDma (t : Nat)
  | update (i : UpdIn)
  | call (c : TxCall)
  | clearError

/-- What can be seen: pins and PIO flag after a cycle, and the calls on the driver. -/
inductive FOut where
  | pins (v : Nat × Bool)
  | cmd (c : HwCmd)

namespace FSys

/-- main.cpp:81,211 initial state: hardware constructed, then tx_statemachine.hpp:17-22. -/
def init (garbage : Nat → UInt8) : FSys :=
  { sm := TxSM.init garbage, dev := TxSM.initCmds.foldl TxDev.apply TxDev.init, now := 0, last := 0, stage := 0, rdFlag := false, rdFifo := false, rdDma := false }

/-- Time may advance to `t`. -/
def timeOk (s : FSys) (t : Nat) : Prop := s.now ≤ t ∧ t ≤ s.last + 150

instance (s : FSys) (t : Nat) : Decidable (s.timeOk t) := by unfold timeOk; infer_instance

/-- An update with input `i` can happen now: `i` reports the registers as they were read. -/
def updateOk (s : FSys) (i : UpdIn) : Prop :=
  s.timeOk i.tNew ∧ s.now ≤ i.tErr ∧ i.tErr ≤ i.tPow ∧ i.tPow ≤ i.tNew ∧ i.hwErr = s.dev.error ∧
    (if s.sm.st = .waitLineFree then s.stage = 3 ∧ i.transmitting = (s.rdFlag || s.rdFifo || s.rdDma)
     else s.stage = 0)

instance (s : FSys) (i : UpdIn) : Decidable (s.updateOk i) := by unfold updateOk; infer_instance

/-- One step; `none` when the event cannot happen now. -/
def next (pf : Platform) (s : FSys) : FEv → Option (FSys × List FOut)
  | .dma => (s.dev.dmaStep).map fun d => ({ s with dev := d }, [])
  | .cycle t => if s.timeOk t then (s.dev.cycle).map fun d => ({ s with dev := d, now := t, last := t }, [.pins (d.pio.core.pins, d.pio.core.irq)]) else none
  | .readFlag t => if s.timeOk t ∧ s.stage = 0 ∧ s.sm.st = .waitLineFree then
      some ({ s with now := t, stage := 1, rdFlag := s.dev.pio.core.irq }, []) else none
  | .readFifo t => if s.timeOk t ∧ s.stage = 1 ∧ s.dev.caughtUp then
      some ({ s with now := t, stage := 2, rdFifo := !s.dev.pio.tx.isEmpty }, []) else none
  | .readDma t => if s.timeOk t ∧ s.stage = 2 then
      some ({ s with now := t, stage := 3, rdDma := s.dev.dmaBusy }, []) else none
  | .update i =>
    if s.updateOk i then
      match s.sm.update pf i with
      | .ok r =>
        let d := if s.sm.timedOutError i || s.sm.st.lineStateIsError i.busy || s.sm.isIdle then s.dev
                  else { s.dev with error := false }
        some ({ s with sm := r.1, dev := r.2.foldl TxDev.apply d, now := i.tNew, stage := 0 }, r.2.map .cmd)
      | .ub => none
    else none
  | .call c =>
    if s.stage = 0 then
      match c with
      | .update _ => none
      | .wake m t => if s.timeOk t then
          some ({ s with sm := (s.sm.wake m t).1, now := t }, []) else none
      | .error => some ({ s with sm := s.sm.error.1 }, [])
      | .clearRx => some ({ s with sm := { s.sm with rxMsg := s.sm.rxMsg.clear } }, [])
    else none
  | .clearError => if s.stage = 0 then some ({ s with dev := { s.dev with error := false } }, []) else none

/-- A run with everything that can be seen. -/
def run (pf : Platform) (s : FSys) : List FEv → Option (FSys × List FOut)
  | [] => some (s, [])
  | e :: es => (s.next pf e).bind fun r => (run pf r.1 es).map fun q => (q.1, r.2 ++ q.2)

end FSys
end P1P2
