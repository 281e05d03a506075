import Verif.Model.Adc
import Verif.Model.Pio
/-!
# The way of a sample: ADC FIFO, DMA, sign conversion in the PIO, DMA, ring buffer

pico/src/adc.cpp with the hardware it programs, one event at a time.  `Verif/Model/Adc.lean` starts behind the second DMA channel
and takes `Reset` as one step; here the ADC FIFO, both DMA channels and the state machine of twos_complement.pio are modelled, and
`Stop`/`Start` operation by operation with hardware events in between.

Hardware facts (RP2040 datasheet): the ADC FIFO has four entries, a conversion that finds it full is lost (4.9.2.4); a DMA channel
moves a unit only while its transfer count is not 0 and its one DREQ is asserted (2.5.3): `channel` is paced by the ADC FIFO alone
(adc.cpp:123), so a byte it writes into a full transmit FIFO of the PIO is lost; `SM_RESTART` clears the ISR, the shift counters and the delay counter, and neither the program counter nor X, Y and
the OSR (3.7, CTRL).  An aborted channel is modelled as having transfer count 0 (nobody reads the count before it is set again).
Not modelled: bus contention, the erratum on aborts with transfers in flight (RP2040-E13), the sticky error bits of the ADC FIFO
(nobody reads them), interrupts (they only wake the core).
-/
namespace P1P2

open Pio

/-- A 16-bit DMA read of a word of the PIO, as `int16_t` (adc.cpp:89-90: 16 bit transfers into `int16_t data[]`). -/
def ringValue (w : BitVec 32) : Int := toI16 (w.toNat : Int)

/-- The ADC with both DMA channels and the state machine.  `adc` holds the ring, channel2 and the variables of the class (adc.hpp:35-51),
`tc1` the transfer count of `channel`, `on` whether the state machine is enabled. -/
structure AdcDev where
  adc : Adc
  tc1 : Nat
  fifo : List UInt8
  pio : Pio.State
  on : Bool

/-- What the hardware does by itself: a conversion is complete; or a clock cycle of the state machine, in which the channels may move a
unit each if they can (whether they get the bus is left open). -/
inductive HwEv where
  | convert (b : UInt8)
  | cycle (move1 move2 : Bool)
deriving DecidableEq, Repr

/-- adc.cpp:110-130, `channel`: the byte moved from the ADC FIFO to the PIO, if any -/
def AdcDev.moved1 (d : AdcDev) (move : Bool) : Option UInt8 :=
  if move && decide (d.tc1 ≠ 0) then d.fifo.head? else none

/-- adc.cpp:86-109, `channel2`: the word moved from the PIO to the ring, if any -/
def AdcDev.moved2 (d : AdcDev) (move : Bool) : Option (BitVec 32) :=
  if move && decide (d.adc.tcHw ≠ 0) then d.pio.rx.head? else none

/-- adc.cpp:66-72 (ADC FIFO), 86-130 (DMA), twos_complement.pio.  A stopped state machine keeps its registers; its FIFOs can still be
accessed. -/
def AdcDev.hw (d : AdcDev) : HwEv → AdcDev
  | .convert b => if d.fifo.length < 4 then { d with fifo := d.fifo ++ [b] } else d
  | .cycle m1 m2 =>
    let put := d.moved1 m1
    let get := d.moved2 m2
    let env : Pio.Env := { put := put.map narrow, get := get.isSome }
    { d with
      adc := match get with | some w => d.adc.write (ringValue w) | none => d.adc
      tc1 := if put.isSome then d.tc1 - 1 else d.tc1
      fifo := if put.isSome then d.fifo.tail else d.fifo
      pio := if d.on then Pio.cycle twosComplement d.pio env
        else { d.pio with tx := enqueue twosComplement d.pio.tx env, rx := dequeue d.pio.rx env } }

/-- Hardware events in a row. -/
def AdcDev.hws (d : AdcDev) (es : List HwEv) : AdcDev := es.foldl AdcDev.hw d

/-- adc.cpp:137-151 `DMARestart` -/
def AdcDev.restart (d : AdcDev) : AdcDev := { d with adc := d.adc.restart, tc1 := adcBlock }

/-- `pio_sm_restart` -/
def smRestart (c : Pio.Core) : Pio.Core := { c with isr := 0, wait := 0, osrCnt := 32 }

/-- What the hardware does before each step of `Reset`. -/
structure ResetEnv where
  drain : List HwEv
  abort1 : List HwEv
  abort2 : List HwEv
  off : List HwEv
  on : List HwEv
  start : List HwEv
deriving DecidableEq, Repr

/-- adc.cpp:173 `adc_fifo_drain` -/
def AdcDev.drain (d : AdcDev) : AdcDev := { d with fifo := [] }

/-- adc.cpp:177 `dma_channel_abort(channel)` -/
def AdcDev.abort1 (d : AdcDev) : AdcDev := { d with tc1 := 0 }

/-- adc.cpp:178 `dma_channel_abort(channel2)` -/
def AdcDev.abort2 (d : AdcDev) : AdcDev := { d with adc := { d.adc with tcHw := 0 } }

/-- adc.cpp:179-180 `pio_sm_set_enabled(false)` and `pio_sm_clear_fifos` (the FIFOs cannot change between the two) -/
def AdcDev.halt (d : AdcDev) : AdcDev := { d with on := false, pio := { d.pio with tx := [], rx := [] } }

/-- adc.cpp:154-155 `pio_sm_restart` and `pio_sm_set_enabled(true)` -/
def AdcDev.enable (d : AdcDev) : AdcDev := { d with on := true, pio := { d.pio with core := smRestart d.pio.core } }

/-- adc.cpp:171-181 `Stop` -/
def AdcDev.stop (d : AdcDev) (e : ResetEnv) : AdcDev :=
  ((((d.hws e.drain).drain.hws e.abort1).abort1.hws e.abort2).abort2.hws e.off).halt

/-- adc.cpp:153-169 `Start` -/
def AdcDev.startUp (d : AdcDev) (e : ResetEnv) : AdcDev := ((d.hws e.on).enable.hws e.start).restart

/-- adc.cpp:190-193 `Reset` -/
def AdcDev.reset (d : AdcDev) (e : ResetEnv) : AdcDev := (d.stop e).startUp e

/-- What the hardware does during `Update`: while it waits for `channel` at the end of a block (lines 209-217), until the
count is read again (line 220) and until the ring is read (lines 235-237). -/
structure UpdEnv where
  wait : List HwEv
  mid : List HwEv
  late : List HwEv
deriving DecidableEq, Repr

/-- adc.cpp:202-221: the end of a block.  The loop of lines 209-217 gives up with an error if `channel` has not finished by then. -/
def AdcDev.blockEnd (d : AdcDev) (e : UpdEnv) : AdcDev :=
  if d.adc.tcHw = 0 then
    let d := d.hws e.wait
    let d := if d.tc1 = 0 then d else { d with adc := { d.adc with err := true } }
    d.restart.hws e.mid
  else d

/-- adc.cpp:228-232: check for an overrun, count the sample -/
def AdcDev.book (d : AdcDev) : AdcDev :=
  { d with adc := { d.adc with err := d.adc.err || decide (256 ≤ (d.adc.tc + 4294967296 - d.adc.tcHw) % 4294967296), tc := (d.adc.tc + 4294967295) % 4294967296 } }

/-- adc.cpp:223-250 `Update` from the comparison of the counts on -/
def AdcDev.take (d : AdcDev) (late : List HwEv) : Res (AdcDev × Option Int) :=
  if d.adc.tc = d.adc.tcHw then .ok (d, none)
  else do
    let d := d.book.hws late
    let v ← d.adc.value
    .ok ({ d with adc := { d.adc with off := (d.adc.off + 1) % 256 } }, some v)

/-- adc.cpp:196-251 `Update` -/
def AdcDev.update (d : AdcDev) (e : UpdEnv) : Res (AdcDev × Option Int) := (d.blockEnd e).take e.late

/-! ## With the loop of core 1 -/

/-- The receive side with its hardware. -/
structure DevSystem where
  dev : AdcDev
  core : Core1

/-- main.cpp:122-137, adc.cpp:49-169 (constructor and `Start`): the state machine is at its first instruction; the channels have
just been started.  `ring` and `rxErr` are not initialised. -/
def DevSystem.init (ring : Nat → Int) (rxErr : Bool) : DevSystem :=
  { dev := { adc := Adc.start ring 426, tc1 := adcBlock, fifo := [], pio := Pio.reset, on := true }, core := Core1.init rxErr }

/-- Events: the hardware, or an iteration of the loop of core 1. -/
inductive PathEv where
  | hw (e : HwEv)
  | iterate (ready : Bool) (upd : UpdEnv) (reset : ResetEnv)

/-- main.cpp:138-202, an iteration with the result of `Update` -/
def DevSystem.loop (S : Nat) (core : Core1) (ready : Bool) (rst : ResetEnv) (u : AdcDev × Option Int) : Res (DevSystem × C1Out) :=
  match u.2 with
  | none => do
    let c ← core.step S { ready := ready, adc := .none }
    .ok ({ dev := u.1, core := c.1 }, c.2)
  | some v =>
    let e := u.1.adc.error
    let d := { u.1 with adc := e.1 }
    if e.2 then do
      let c ← core.step S { ready := ready, adc := .error }
      .ok ({ dev := d.reset rst, core := c.1 }, c.2)
    else do
      let c ← core.step S { ready := ready, adc := .sample v }
      .ok ({ dev := d, core := c.1 }, c.2)

/-- One event; main.cpp:137-202. -/
def DevSystem.step (S : Nat) (s : DevSystem) : PathEv → Res (DevSystem × Option C1Out)
  | .hw e => .ok ({ s with dev := s.dev.hw e }, none)
  | .iterate ready upd rst => do
    let u ← s.dev.update upd
    let r ← DevSystem.loop S s.core ready rst u
    .ok (r.1, some r.2)

/-- A run. -/
def DevSystem.run (S : Nat) (s : DevSystem) : List PathEv → Res (DevSystem × List C1Out)
  | [] => .ok (s, [])
  | e :: es => do
    let r ← s.step S e
    let q ← DevSystem.run S r.1 es
    .ok (q.1, r.2.toList ++ q.2)

end P1P2
