import Verif.Model.Dsp
/-!
# Model of the receiver, pico/src/uart.cpp and uart.hpp

Platform parameter: the width of `size_t` (the sample counter).  Probabilities are `int16_t`: the `int32_t` argument is
converted (`toI16`) both for the zero test and for the register.
-/
namespace P1P2

/-- uart.hpp:14-18 -/
inductive Parity where
  | none | even | odd
deriving DecidableEq, Repr

/-- uart.hpp:6-7: samples of a frame, `UART_OVERSAMPLING_RATE * UART_BITS_(NO_)PARITY` -/
def Parity.frame : Parity → Nat
  | .none => 16 * 10
  | _ => 16 * 11

/-- uart.hpp:41-52 -/
inductive UState where
  | waitIdle | waitStart | data | stop
deriving DecidableEq, Repr

/-- uart.hpp:54-61 -/
structure Uart where
  parity : Parity
  counter : Nat
  state : UState
  reg : ShiftReg Int

/-- uart.hpp:8: 16 * 11 - 8 -/
def uartLen : Nat := 168

/-- uart.cpp:9-15 constructor; the register takes over the caller's buffer: shiftreg.hpp:28-31 zeroes it. -/
def Uart.init (p : Parity) : Uart := { parity := p, counter := 0, state := .waitIdle, reg := ShiftReg.zero }

/-- uart.cpp:18-20 `Receiving` -/
def Uart.receiving (u : Uart) : Bool := u.state ≠ .waitStart

/-- The local variables of `ExtractData` and `ExtractDataAndParity`.  `prob` (uint32_t, at most 11 * 32768) and
`parity` (uint8_t, at most 9) cannot wrap. -/
structure Ext where
  out : UInt8
  par : Nat
  err : Bool
  last : Int
  prob : Nat

/-- uart.cpp:98-107 / uart.cpp:146-153: polarity check and sum -/
def Ext.polarity (e : Ext) (t : Int) : Ext :=
  let e := if t ≠ 0 then
      { e with err := e.err || decide ((e.last > 0 ∧ t > 0) ∨ (e.last < 0 ∧ t < 0)), last := t }
    else e
  { e with prob := e.prob + t.natAbs }

/-- uart.cpp:128-154, loop body for bit `b` with value `t` -/
def Ext.stepParity (e : Ext) (b : Nat) (t : Int) : Ext :=
  let e :=
    if 1 ≤ b ∧ b ≤ 8 then
      if t = 0 then { e with out := e.out ||| ((1 : UInt8) <<< UInt8.ofNat (b - 1)), par := e.par + 1 } else e
    else if b = 9 then
      if t = 0 then { e with par := e.par + 1 } else e
    else if b = 10 then
      if t ≠ 0 then { e with err := true } else e
    else e
  e.polarity t

/-- uart.cpp:85-108, loop body without parity -/
def Ext.stepPlain (e : Ext) (b : Nat) (t : Int) : Ext :=
  let e :=
    if 1 ≤ b ∧ b ≤ 8 then
      if t = 0 then { e with out := e.out ||| ((1 : UInt8) <<< UInt8.ofNat (b - 1)) } else e
    else if b = 9 then
      if t ≠ 0 then { e with err := true } else e
    else e
  e.polarity t

/-- The loops of uart.cpp:84 and uart.cpp:127: bits `b`, `b + 1`, ..., `n` of them. -/
def extLoop (step : Ext → Nat → Int → Ext) (read : Nat → Res Int) (e : Ext) (b : Nat) : Nat → Res Ext
  | 0 => .ok e
  | n + 1 => do
    let t ← read b
    extLoop step read (step e b t) (b + 1) n

/-- uart.cpp:73-111 `ExtractData`: data, error flag, probability -/
def Uart.extractData (u : Uart) (phase : Nat) : Res (UInt8 × Bool × Nat) := do
  let s ← u.reg.get uartLen (phase + 1 * 16)
  if s = 0 then .ok (0, true, 0)
  else
    let e ← extLoop Ext.stepPlain (fun b => u.reg.get uartLen (phase + (b + 1) * 16))
      { out := 0, par := 0, err := false, last := s, prob := s.natAbs } 1 9
    .ok (e.out, e.err, e.prob)

/-- uart.cpp:113-158 `ExtractDataAndParity`: data, parity count, error flag, probability -/
def Uart.extractDataAndParity (u : Uart) (phase : Nat) : Res (UInt8 × Nat × Bool × Nat) := do
  let s ← u.reg.get uartLen (phase + 0 * 16)
  if s = 0 then .ok (0, 0, true, 0)
  else
    let e ← extLoop Ext.stepParity (fun b => u.reg.get uartLen (phase + b * 16))
      { out := 0, par := 0, err := false, last := s, prob := s.natAbs } 1 10
    .ok (e.out, e.par, e.err, e.prob)

/-- uart.cpp:33-54, one phase: data, error flag, probability -/
def Uart.tryPhase (u : Uart) (phase : Nat) : Res (UInt8 × Bool × Nat) :=
  match u.parity with
  | .none => u.extractData phase
  | .even => do
    let r ← u.extractDataAndParity phase
    .ok (r.1, r.2.2.1 || decide (r.2.1 % 2 = 1), r.2.2.2)
  | .odd => do
    let r ← u.extractDataAndParity phase
    .ok (r.1, r.2.2.1 || decide (r.2.1 % 2 = 0), r.2.2.2)

/-- uart.cpp:32-66, phases `ph`, `ph + 1`, ..., `n` of them; the variables are `bestprob`, `*out`, `*err`. -/
def Uart.phases (u : Uart) (best : Nat) (out : UInt8) (err : Bool) (ph : Nat) : Nat → Res (Nat × UInt8 × Bool)
  | 0 => .ok (best, out, err)
  | n + 1 => do
    let r ← u.tryPhase ph
    if r.2.2 > best then u.phases r.2.2 r.1 r.2.1 (ph + 1) n
    else u.phases best out err (ph + 1) n

/-- uart.cpp:26-71 `FindBestPhase`: the new values of the caller's `*out` and `*err`. -/
def Uart.findBestPhase (u : Uart) (out : UInt8) (err : Bool) : Res (UInt8 × Bool) := do
  let r ← u.phases 0 out err 0 8
  .ok (r.2.1, if r.1 = 0 then true else r.2.2)

/-- uart.cpp:196-201, the part shared by `WAIT_FOR_START` and `DATA` (the value pushed out is not read); `S` is the width of `size_t`. -/
def Uart.shift (S : Nat) (u : Uart) (v : Int) : Res Uart := do
  let r ← u.reg.push uartLen v
  let c := (u.counter + (2 ^ S - 1)) % 2 ^ S
  .ok { u with reg := r.1, counter := c, state := if c = 0 then .stop else u.state }

/-- uart.cpp:174-212 `Update(symbol_prob, out, err)`; `out`, `err` are the values of the caller's variables.
The result is `none` if the function returns false. -/
def Uart.update (S : Nat) (u : Uart) (prob : Int) (out : UInt8) (err : Bool) : Res (Uart × Option (UInt8 × Bool)) :=
  let v := toI16 prob
  match u.state with
  | .waitIdle => .ok (if v = 0 then { u with state := .waitStart } else u, none)
  | .waitStart => do
    let u :=
      if v ≠ 0 then
        { u with state := .data, counter := u.parity.frame - 8 }
      else u
    let u ← u.shift S v
    .ok (u, none)
  | .data => do
    let u ← u.shift S v
    .ok (u, none)
  | .stop => do
    let r ← u.findBestPhase out err
    .ok ({ u with state := .waitIdle }, some r)

/-- uart.cpp:160-170 `PrintShiftreg` (debugging aid): the values printed -/
def Uart.printShiftreg (u : Uart) : Res (List Int) :=
  let rec go (b : Nat) : Nat → Res (List Int)
    | 0 => .ok []
    | n + 1 => do
      let v ← u.reg.get uartLen b
      let l ← go (b + 1) n
      .ok (v :: l)
  go 0 u.parity.frame

end P1P2
