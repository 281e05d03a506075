import Verif.Model.Uart
/-!
# The receive core, pico/src/main.cpp

`core1_entry` polls the ADC, passes every sample through the signal chain and sends events to the other core.
-/
namespace P1P2

/-! ## Level detector to UART, main.cpp:165-201 -/

/-- main.cpp:66, 71, 77: the blocks behind the DC blocker. -/
structure RxBack where
  level : LevelSt
  bit : BitDetect
  uart : Uart

/-- main.cpp:66, 71, 77 -/
def RxBack.init : RxBack := { level := .none, bit := BitDetect.main, uart := Uart.init .even }

/-- main.cpp:165-169, the sample seen by the UART -/
def RxBack.detect (c : RxBack) (x : Int) : Res (RxBack × Int) := do
  let l ← c.level.update x
  let b ← c.bit.update 16 l.2
  .ok ({ c with level := l.1, bit := b.1 }, b.2)

/-- main.cpp:195-198, `rx_data` is cleared first; `err` is the old value of `rx_error` -/
def RxBack.decode (S : Nat) (err : Bool) (c : RxBack) (p : Int) : Res (RxBack × Option (UInt8 × Bool)) := do
  let u ← c.uart.update S p 0 err
  .ok ({ c with uart := u.1 }, u.2)

/-- main.cpp:165-198 without the busy detection: one sample from the level detector to the UART -/
def RxBack.step (S : Nat) (err : Bool) (c : RxBack) (x : Int) : Res (RxBack × Option (UInt8 × Bool)) := do
  let r ← c.detect x
  r.1.decode S err r.2

/-! ## FIR to DC blocker, main.cpp:155-164 -/

/-- main.cpp:40, 52, 61 -/
structure RxFront where
  fir : Fir
  rs : Resample
  dc : DCblock

/-- main.cpp:40, 52, 61: `FIR_OVERSAMPLING_RATE / UART_OVERSAMPLING_RATE` is 2 -/
def RxFront.init : RxFront := { fir := Fir.init, rs := Resample.init 1, dc := DCblock.init }

/-- main.cpp:155-164; `none` for the samples dropped by the resampler (`continue`) -/
def RxFront.step (c : RxFront) (x : Int) : Res (RxFront × Option Int) := do
  let f ← c.fir.update x
  let r := c.rs.update f.2
  match r.2 with
  | none => .ok ({ c with fir := f.1, rs := r.1 }, none)
  | some v => do
    let d ← c.dc.update v
    .ok ({ fir := f.1, rs := r.1, dc := d.1 }, some d.2)

/-! ## The word exchanged between the cores, main.cpp:106-116 -/

/-- main.cpp:107-114 -/
structure Word where
  rxChar : UInt8
  rxValid : Bool
  rxError : Bool
  lineBusy : Bool
  lineFree : Bool
  dadcError : Bool
deriving DecidableEq, Repr

/-- `Raw = 0` -/
def Word.zero : Word :=
  { rxChar := 0, rxValid := false, rxError := false, lineBusy := false, lineFree := false, dadcError := false }

/-- main.cpp:106-116: the union's `Raw` (little endian, bit-fields allocated from the least significant bit; the
bits that belong to no field were cleared by the last `Raw = 0`) -/
def Word.raw (w : Word) : Nat :=
  w.rxChar.toNat + 256 * w.rxValid.toNat + 512 * w.rxError.toNat + 1024 * w.lineBusy.toNat +
    2048 * w.lineFree.toNat + 4096 * w.dadcError.toNat

/-- main.cpp:106-116: the fields of a given `Raw` -/
def Word.ofRaw (r : Nat) : Word :=
  { rxChar := UInt8.ofNat r
    rxValid := r.testBit 8
    rxError := r.testBit 9
    lineBusy := r.testBit 10
    lineFree := r.testBit 11
    dadcError := r.testBit 12 }

/-! ## The loop, main.cpp:121-203 -/

/-- What the ADC delivers in one iteration: `Update` returned false, or true with `Error()` clear or set. -/
inductive AdcIn where
  | none
  | sample (v : Int)
  | error
deriving DecidableEq, Repr

/-- Environment of one iteration: result of `multicore_fifo_wready()` and the ADC. -/
structure C1In where
  ready : Bool
  adc : AdcIn
deriving DecidableEq, Repr

/-- main.cpp:122-128 and the signal blocks -/
structure Core1 where
  word : Word
  front : RxFront
  back : RxBack
  rxErr : Bool
  busy : Bool
  idle : Int

/-- main.cpp:122-135; `rxErr` is not initialised -/
def Core1.init (rxErr : Bool) : Core1 :=
  { word := .zero, front := .init, back := .init, rxErr := rxErr, busy := true, idle := 176 }

/-- Effects of one iteration: the word sent (if `Raw` was not 0), whether it was dropped because the FIFO was full
(`FifoErr` set) and whether `dadc.Reset()` was called. -/
structure C1Out where
  word : Option Word
  dropped : Bool
  reset : Bool
deriving DecidableEq, Repr

/-- main.cpp:179-192, busy detection; `receiving` is `p1p2uart.Receiving()` -/
def Core1.busyStep (c : Core1) (receiving : Bool) : Core1 :=
  if receiving then
    if c.busy then c
    else { c with busy := true, idle := 176, word := { c.word with lineBusy := true } }
  else if c.busy then
    if c.idle > 0 then { c with idle := c.idle - 1 }
    else { c with busy := false, word := { c.word with lineFree := true } }
  else c

/-- main.cpp:165-201, a sample from the level detector on -/
def Core1.ac (S : Nat) (c : Core1) (a : Int) : Res Core1 := do
  let d ← c.back.detect a
  let c := Core1.busyStep { c with back := d.1 } d.1.uart.receiving
  let r ← c.back.decode S c.rxErr d.2
  match r.2 with
  | none => .ok { c with back := r.1 }
  | some (b, e) => .ok { c with
      back := r.1
      rxErr := e
      word := { c.word with rxChar := b, rxError := e, rxValid := !e } }

/-- main.cpp:155-201, a sample from the FIR filter on -/
def Core1.sample (S : Nat) (c : Core1) (v : Int) : Res Core1 := do
  let f ← c.front.step v
  match f.2 with
  | none => .ok { c with front := f.1 }
  | some a => Core1.ac S { c with front := f.1 } a

/-- main.cpp:138-145, sending the word of the previous iteration; the word sent and whether it was dropped.  The FIFO
has one producer, so a push after `wready` does not fail. -/
def Core1.send (c : Core1) (ready : Bool) : Core1 × Option Word × Bool :=
  if c.word.raw ≠ 0 then ({ c with word := .zero }, some c.word, !ready)
  else (c, none, false)

/-- main.cpp:137-202, one iteration -/
def Core1.step (S : Nat) (c : Core1) (i : C1In) : Res (Core1 × C1Out) :=
  let s := c.send i.ready
  match i.adc with
  | .none => .ok (s.1, { word := s.2.1, dropped := s.2.2, reset := false })
  | .error => .ok ({ s.1 with word := { s.1.word with dadcError := true } },
      { word := s.2.1, dropped := s.2.2, reset := true })
  | .sample v => do
    let c ← s.1.sample S v
    .ok (c, { word := s.2.1, dropped := s.2.2, reset := false })

end P1P2
