import Verif.Model.Core1
/-!
# The differential ADC, pico/src/adc.cpp

Hardware: channel2 of the DMA writes 16 bit samples into a ring of 256 and counts `transfer_count` down from 0x10000000;
at 0 it stops until it is restarted.  The other channel (ADC to PIO) is taken to have finished by then
(adc.cpp:209-217, "should never be entered"); samples that arrive while the DMA is stopped wait in the PIO.
-/
namespace P1P2

/-- adc.cpp:50, 139: transfers per block -/
def adcBlock : Nat := 0x10000000

/-- adc.hpp:35-47 and the registers of DMA channel2 (`tcHw` transfer count, `wp` write position in the ring) -/
structure Adc where
  data : Nat → Int
  tcHw : Nat
  wp : Nat
  tc : Nat
  off : Nat
  err : Bool
  gain : Int

/-- One DMA transfer (adc.cpp:87-107); nothing happens when the block is complete. -/
def Adc.write (a : Adc) (v : Int) : Adc :=
  if a.tcHw = 0 then a
  else { a with data := upd a.data a.wp v, wp := (a.wp + 1) % 256, tcHw := a.tcHw - 1 }

/-- adc.cpp:20-23 `SetGain`; `g` is a `uint16_t` (defines.hpp: ADC_REF_VOLTAGE_MV 3000) -/
def adcGain (g : Nat) : Int := (g * 3000 % 4294967296) / 256

/-- adc.cpp:137-151 `DMARestart` -/
def Adc.restart (a : Adc) : Adc := { a with off := 0, tc := adcBlock, wp := 0, tcHw := adcBlock }

/-- adc.cpp:49-50, 153-169 constructor and `Start`; `ring` is the initial contents, `g` the gain set before
(main.cpp:135-136) -/
def Adc.start (ring : Nat → Int) (g : Nat) : Adc :=
  Adc.restart { data := ring, tcHw := 0, wp := 0, tc := adcBlock, off := 0, err := false, gain := adcGain g }

/-- adc.cpp:171-189 `Reset`: `Stop` and `Start`; the error flag is left alone -/
def Adc.reset (a : Adc) : Adc := a.restart

/-- adc.cpp:12-16 `Error` -/
def Adc.error (a : Adc) : Adc × Bool := ({ a with err := false }, a.err)

/-- adc.cpp:234-248, the sample at the read position: `int16_t` ring entries, `/ 2` rounds towards zero, the
assignments to `diff` convert to `int16_t`, `>> 8` rounds down. -/
def Adc.value (a : Adc) : Res Int := do
  let x1 ← rd 256 a.data (a.off % 256)
  let x2 ← rd 256 a.data ((a.off + 254) % 256)
  let y ← rd 256 a.data ((a.off + 255) % 256)
  let diff := toI16 (Int.tdiv (x1 + x2) 2)
  let diff := toI16 (diff + y)
  let p ← i32 (diff * a.gain)
  .ok (p / 256)

/-- adc.cpp:196-251 `Update`.  `late` are the samples the DMA writes between the read of the counter (line 202/220) and
the reads of the ring (lines 235-237; these three are taken as one step). -/
def Adc.update (a : Adc) (late : List Int) : Res (Adc × Option Int) :=
  let a := if a.tcHw = 0 then a.restart else a
  if a.tc = a.tcHw then .ok (a, none)
  else do
    let a := { a with err := a.err || decide (256 ≤ (a.tc + 4294967296 - a.tcHw) % 4294967296) }
    let a := { a with tc := (a.tc + 4294967295) % 4294967296 }
    let a := late.foldl Adc.write a
    let v ← a.value
    .ok ({ a with off := (a.off + 1) % 256 }, some v)

/-! ## ADC and receive core together, main.cpp:137-202 -/

/-- The whole receive side: ADC and the loop of core 1. -/
structure RxSystem where
  adc : Adc
  core : Core1

/-- main.cpp:122-136 with `ADC_EXTERNAL_GAIN` 1.666 (426/256); `ring` and `rxErr` are not initialised -/
def RxSystem.init (ring : Nat → Int) (rxErr : Bool) : RxSystem := { adc := Adc.start ring 426, core := Core1.init rxErr }

/-- Events: a DMA transfer, or one iteration of the loop of core 1 (FIFO ready or not, samples arriving meanwhile). -/
inductive RxEv where
  | transfer (v : Int)
  | iterate (ready : Bool) (late : List Int)

/-- One event; main.cpp:146-154 for the ADC part of the loop. -/
def RxSystem.step (S : Nat) (s : RxSystem) : RxEv → Res (RxSystem × Option C1Out)
  | .transfer v => .ok ({ s with adc := s.adc.write v }, none)
  | .iterate ready late => do
    let u ← s.adc.update late
    match u.2 with
    | none => do
      let c ← s.core.step S { ready := ready, adc := .none }
      .ok ({ adc := u.1, core := c.1 }, some c.2)
    | some v =>
      let e := u.1.error
      if e.2 then do
        let c ← s.core.step S { ready := ready, adc := .error }
        .ok ({ adc := e.1.reset, core := c.1 }, some c.2)
      else do
        let c ← s.core.step S { ready := ready, adc := .sample v }
        .ok ({ adc := e.1, core := c.1 }, some c.2)

end P1P2
