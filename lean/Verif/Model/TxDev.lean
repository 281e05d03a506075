import Verif.Model.Tx
import Verif.Model.Pio
/-!
# The transmit driver with the transmit program itself

`Verif/Model/UartPio.lean` describes the PIO by three steps (pull, start bit, end of byte).  Here the driver object and the DMA
channel work on the FIFO of the cycle accurate interpreter of `Verif/Model/Pio.lean` running p1p2_uart_tx.pio.
Calls, DMA transfers and PIO cycles are interleaved arbitrarily; the one timing fact built into the guard of `TxDev.step` is that
the DMA, which needs a few of the 814 system clocks of a PIO cycle per byte, has caught up (nothing left or FIFO full)
when the program executes `pull` (also while it is blocked there).
-/
namespace P1P2

/-- uart_pio.hpp:31-42 data members, the registers of the DMA channel and of the PIO state machine, and the shutdown pin. -/
structure TxDev where
  error : Bool
  /-- `Data[32]` -/
  buf : Nat → UInt8
  /-- DMA read address (index into `buf`) and remaining transfer count -/
  dmaPos : Nat
  dmaCount : Nat
  pio : Pio.State
  /-- level of the shutdown pin -/
  pin : Bool

namespace TxDev

/-- uart_pio.cpp:10-40 after construction: the state machine is enabled, the DMA has nothing to do. -/
def init : TxDev := { error := false, buf := fun _ => 0, dmaPos := 0, dmaCount := 0, pio := Pio.reset, pin := true }

/-- uart_pio.cpp:82-85 `DataWaiting` (`dma_channel_is_busy`) -/
def dmaBusy (d : TxDev) : Bool := d.dmaCount ≠ 0

/-- uart_pio.cpp:49-53 `Transmitting` (all registers read at once; `Sys` of Verif/Model/UartPio.lean reads them one by one) -/
def transmitting (d : TxDev) : Bool := d.pio.core.irq || !d.pio.tx.isEmpty || d.dmaBusy

/-- uart_pio.cpp:63-80 `Send` -/
def send (d : TxDev) (m : Message) : TxDev :=
  if d.dmaBusy then { d with error := true }
  else if m.length > 32 then { d with error := true }
  else { d with buf := fun k => if k < m.length then m.data k else d.buf k, dmaPos := 0, dmaCount := m.length }

/-- uart_pio.cpp:56-59 `ClearFifo`: the DMA is aborted and the FIFO emptied; the byte the program has already pulled stays. -/
def clearFifo (d : TxDev) : TxDev := { d with dmaCount := 0, pio := { d.pio with tx := [] } }

/-- Effect of a call (uart_pio.cpp:44-46, 56-59, 63-80). -/
def apply (d : TxDev) : HwCmd → TxDev
  | .shutdown b => { d with pin := b }
  | .send m => d.send m
  | .clearFifo => d.clearFifo

/-- The DMA moves one byte (uart_pio.cpp:20-35): 8 bit transfers, the read address increments, paced by the FIFO. The bus
replicates the byte over the 32 bit register. -/
def dmaStep (d : TxDev) : Option TxDev :=
  if 0 < d.dmaCount ∧ d.pio.tx.length < Pio.uartTx.txDepth then
    some { d with pio := { d.pio with tx := d.pio.tx ++ [Pio.narrow (d.buf d.dmaPos)] }, dmaPos := d.dmaPos + 1, dmaCount := d.dmaCount - 1 }
  else none

/-- The DMA has nothing to do. -/
def caughtUp (d : TxDev) : Prop := d.dmaCount = 0 ∨ d.pio.tx.length = Pio.uartTx.txDepth

instance (d : TxDev) : Decidable d.caughtUp := by unfold caughtUp; infer_instance

/-- The next cycle executes a `pull` (p1p2_uart_tx.pio:28). -/
def pulling (d : TxDev) : Prop := d.pio.core.wait = 0 ∧ (Pio.uartTx.at d.pio.core.pc).op = .pull

instance (d : TxDev) : Decidable d.pulling := by unfold pulling; infer_instance

/-- One PIO cycle. -/
def cycle (d : TxDev) : Option TxDev :=
  if d.pulling → d.caughtUp then some { d with pio := Pio.cycle Pio.uartTx d.pio { put := none, get := false } } else none

end TxDev

/-- What can happen: a call of the client, a call of `Error()` (uart_pio.cpp:88-92), a DMA transfer, a PIO cycle. -/
inductive DevEv where
  | call (c : HwCmd)
  | error
  | dma
  | cycle

/-- One step: new state, the pins and the PIO flag after a cycle, and the result of `Error()`. -/
def TxDev.step (d : TxDev) : DevEv → Option (TxDev × List (Nat × Bool) × List Bool)
  | .call c => some (d.apply c, [], [])
  | .error => some ({ d with error := false }, [], [d.error])
  | .dma => d.dmaStep.map fun d => (d, [], [])
  | .cycle => d.cycle.map fun d => (d, [(d.pio.core.pins, d.pio.core.irq)], [])

/-- A run: final state, pins and flag cycle by cycle, and the results of the calls of `Error()`. -/
def TxDev.run (d : TxDev) : List DevEv → Option (TxDev × List (Nat × Bool) × List Bool)
  | [] => some (d, [], [])
  | e :: es => (d.step e).bind fun r => (TxDev.run r.1 es).map fun q => (q.1, r.2.1 ++ q.2.1, r.2.2 ++ q.2.2)

end P1P2
