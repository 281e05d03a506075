import Verif.Model.Core1
import Verif.Model.Host
import Verif.Model.Tx
import Verif.Model.Standalone
import Verif.Model.Led
/-!
# Model of the main loop, pico/src/main.cpp `core0_entry`

What is given to the host is recorded as a list of messages (the arguments of `UpdateAndSend`; what happens to them is
modelled in `Verif/Model/Host.lean`).  The transmit queue and the error flag of the host object are left out, as they
influence nothing else.  What the transmit hardware answers is part of the environment (`Verif/Model/UartPio.lean`).
One iteration is divided into two parts, because `FifoErr` is shared with the other core: the first part ends with
reading it (main.cpp:248) and reporting; then it is cleared (main.cpp:253); the second part is the rest.
-/
namespace P1P2

/-- What main.cpp passes to `UpdateAndSend`: a message collected from the bus, or the message of the transmitter. -/
inductive Report where
  /-- main.cpp:242, 250, 287, 294 -/
  | rx (m : Message)
  /-- main.cpp:260 -/
  | tx (m : Message)

/-- The message of a report. -/
def Report.msg : Report → Message
  | .rx m => m
  | .tx m => m

/-- main.cpp:206-211 and the objects it uses.  `word` is `Core1Data`; `fail` is `TxFailure`, `clr` tells that `FifoErr` was read as set
(both are live between the parts only). -/
structure Core0 where
  rxMsg : Message
  lineBusy : Bool
  busySince : Nat
  fail : Bool
  clr : Bool
  word : Word
  sm : TxSM
  ctrl : Ctrl
  host : Host

/-- main.cpp:206-217; `w0` is the indeterminate initial value of `Core1Data`, `t0` the clock when the controller is
constructed, `t1` the one of line 214. -/
def Core0.init (garbage : Nat → UInt8) (w0 : Word) (t0 t1 : Nat) : Core0 :=
  { rxMsg := Message.empty garbage, lineBusy := true, busySince := Host.msNow t1, fail := false, clr := false, word := w0,
    sm := TxSM.init garbage, ctrl := Ctrl.init garbage t0, host := Host.init garbage }

/-- Environment of the first part: characters available to `Check`, clock readings (microseconds), `uart_tx.Error()`, and the two readings of
`FifoErr` in lines 231 and 248. -/
structure Env1 where
  chunk : List UInt8
  tHost : Nat
  tCtrl1 : Nat
  tCtrl2 : Nat
  hwErr : Bool
  fifoErrLed : Bool
  tDog1 : Nat
  tDog2 : Nat
  fifoErr : Bool
deriving DecidableEq, Repr

/-- host_uart.cpp:62-72: the lines found are handled one after the other (`reset_usb_boot` does not return; what follows is irrelevant then) -/
def Host.onLines (pf : Platform) (g : Nat → UInt8) (h : Host) (us : Nat) : List (List UInt8) → Res Host
  | [] => .ok h
  | l :: ls => do
    let r ← Host.onLine pf g h us l
    Host.onLines pf g r.1 us ls

/-- host_uart.cpp:76-80 `Check`, receive side -/
def Host.check (pf : Platform) (g : Nat → UInt8) (h : Host) (us : Nat) (chunk : List UInt8) : Res Host := do
  let r ← Host.poll h.rx chunk
  Host.onLines pf g { h with rx := r.1 } us r.2

/-- main.cpp:238; `uint32_t` arithmetic on milliseconds -/
def Core0.dogBites (c : Core0) (us : Nat) : Bool := c.lineBusy && decide ((c.busySince + 500) % 4294967296 < Host.msNow us)

/-- main.cpp:237-245 -/
def Core0.watchdog (c : Core0) (us1 us2 : Nat) : Core0 × List Report :=
  if c.dogBites us1 then
    ({ c with busySince := Host.msNow us2, rxMsg := c.rxMsg.clear }, [.rx { c.rxMsg with status := Message.errNoFraming }])
  else (c, [])

/-- main.cpp:248-251 -/
def Core0.fifoCheck (c : Core0) (err : Bool) : Core0 × List Report :=
  if err then ({ c with rxMsg := c.rxMsg.clear, clr := true }, [.rx { c.rxMsg with status := Message.errOverflow }])
  else ({ c with clr := false }, [])

/-- main.cpp:229-234, 239 -/
def Core0.leds1 (c : Core0) (fail : Bool) (e : Env1) : List LedEvent :=
  (if !c.sm.isIdle then [.activityTx]
   else if e.fifoErrLed || e.hwErr then [.internal]
   else if fail then [.errorTx] else []) ++
  (if c.dogBites e.tDog1 then [.internal] else [])

/-- main.cpp:220-251, the first part of an iteration -/
def Core0.part1 (pf : Platform) (g : Nat → UInt8) (c : Core0) (e : Env1) : Res (Core0 × List Report) := do
  let h ← Host.check pf g c.host e.tHost e.chunk
  let c := { c with host := h, ctrl := c.ctrl.check e.tCtrl1 e.tCtrl2, sm := c.sm.error.1, fail := c.sm.error.2 }
  let d := c.watchdog e.tDog1 e.tDog2
  let f := d.1.fifoCheck e.fifoErr
  .ok (f.1, d.2 ++ f.2)

/-- Environment of the second part: the word taken from the other core, clock readings, the answers of the transmit hardware. -/
structure Env2 where
  word : Option Word
  tColl : Nat
  tBusy : Nat
  tWake : Nat
  hwErr : Bool
  transmitting : Bool
  tErr : Nat
  tPow : Nat
  tNew : Nat
deriving DecidableEq, Repr

/-- main.cpp:257-265 -/
def Core0.reportFailure (c : Core0) (now : Nat) : Core0 × List Report :=
  if c.fail then
    let s := if c.sm.rxMsg.status ≠ Message.errParity then
        ({ c with sm := { c.sm with rxMsg := c.sm.rxMsg.clear } }, [Report.tx c.sm.rxMsg])
      else (c, [])
    if s.1.ctrl.isTxAnswer s.1.sm.txMsg then ({ s.1 with ctrl := s.1.ctrl.busCollision now }, s.2) else s
  else (c, [])

/-- main.cpp:272-278 -/
def Core0.collectByte (c : Core0) (w : Word) : Res Core0 :=
  if w.dadcError then .ok { c with rxMsg := { c.rxMsg with status := Message.errOverflow } }
  else if w.rxError then do
    let m ← ({ c.rxMsg with status := Message.errParity } : Message).append w.rxChar
    .ok { c with rxMsg := m }
  else if w.rxValid then do
    let m ← c.rxMsg.append w.rxChar
    .ok { c with rxMsg := m }
  else .ok c

/-- main.cpp:281-290 -/
def Core0.packetEnd (c : Core0) (w : Word) : Res (Core0 × List Report) :=
  if w.lineFree && (decide (c.rxMsg.length > 0) || c.rxMsg.status != 0) then do
    let k ← c.ctrl.receive c.rxMsg
    .ok ({ c with ctrl := k, rxMsg := c.rxMsg.clear }, [.rx c.rxMsg])
  else .ok (c, [])

/-- main.cpp:292-296 -/
def Core0.overflowCheck (c : Core0) : Core0 × List Report :=
  if c.rxMsg.overflow then ({ c with rxMsg := c.rxMsg.clear }, [.rx { c.rxMsg with status := Message.errOverflow }])
  else (c, [])

/-- main.cpp:299-304 -/
def Core0.lineState (c : Core0) (w : Word) (us : Nat) : Core0 :=
  if w.lineFree && c.lineBusy then { c with lineBusy := false }
  else if w.lineBusy && !c.lineBusy then { c with lineBusy := true, busySince := Host.msNow us }
  else c

/-- main.cpp:307-314 -/
def leds2 (w : Word) : List LedEvent :=
  (if w.rxError then [.errorRx] else if w.rxValid then [.activityRx] else []) ++ (if w.dadcError then [.internal] else [])

/-- main.cpp:269-314, a word from the other core -/
def Core0.takeWord (c : Core0) (w : Word) (us : Nat) : Res (Core0 × List Report) := do
  let c ← ({ c with word := w } : Core0).collectByte w
  let p ← c.packetEnd w
  let o := p.1.overflowCheck
  .ok (o.1.lineState w us, p.2 ++ o.2)

/-- main.cpp:327-336; the message given to the transmitter, if any.  `garbage` is the payload of the local message. -/
def Core0.startTx (g : Nat → UInt8) (c : Core0) (now : Nat) : Res (Core0 × Option Message × List HwCmd) :=
  if c.sm.isIdle then
    if c.host.hasData then do
      let p ← c.host.popMsg g
      let s := c.sm.wake p.2 now
      .ok ({ c with host := p.1, sm := s.1 }, some p.2, s.2)
    else if c.ctrl.hasTxData then do
      let a ← c.ctrl.txAnswer (Message.empty g)
      let s := c.sm.wake a.2 now
      .ok ({ c with ctrl := a.1, sm := s.1 }, some a.2, s.2)
    else .ok (c, none, [])
  else .ok (c, none, [])

/-- Effects of the second part: reports, the message given to the transmitter, calls on the transmit hardware, whether `SM.Update` was reached. -/
structure Out2 where
  reports : List Report
  started : Option Message
  cmds : List HwCmd
  updated : Bool

/-- main.cpp:339-341 -/
def Core0.updateTx (pf : Platform) (c : Core0) (e : Env2) : Res (Core0 × List HwCmd) := do
  let u ← c.sm.update pf
    { busy := c.lineBusy, rxError := c.word.rxError, rxValid := c.word.rxValid, rxChar := c.word.rxChar, hwErr := e.hwErr,
      transmitting := e.transmitting, tErr := e.tErr, tPow := e.tPow, tNew := e.tNew }
  .ok ({ c with sm := u.1, word := .zero }, u.2)

/-- main.cpp:327-341, the rest of an iteration -/
def Core0.finish (pf : Platform) (g : Nat → UInt8) (c : Core0) (e : Env2) (rs : List Report) : Res (Core0 × Out2) := do
  let s ← c.startTx g e.tWake
  let u ← s.1.updateTx pf e
  .ok (u.1, { reports := rs, started := s.2.1, cmds := s.2.2 ++ u.2, updated := true })

/-- main.cpp:257-341, the second part of an iteration, after `FifoErr` was cleared -/
def Core0.part2 (pf : Platform) (g : Nat → UInt8) (c : Core0) (e : Env2) : Res (Core0 × Out2) :=
  let r := c.reportFailure e.tColl
  match e.word with
  | some w => do
    let t ← r.1.takeWord w e.tBusy
    t.1.finish pf g e (r.2 ++ t.2)
  | none =>
    if !r.1.lineBusy && !r.1.ctrl.hasTxData && !r.1.host.hasData && r.1.sm.isIdle then
      .ok (r.1, { reports := r.2, started := none, cmds := [], updated := false })
    else r.1.finish pf g e r.2

/-- One iteration in which the other core does not set `FifoErr` between the two parts. -/
def Core0.iter (pf : Platform) (g : Nat → UInt8) (c : Core0) (e : Env1 × Env2) : Res (Core0 × Out2) := do
  let a ← c.part1 pf g e.1
  let b ← a.1.part2 pf g e.2
  .ok (b.1, { b.2 with reports := a.2 ++ b.2.reports })

/-- A history of iterations: final state and the effects of each iteration. -/
def Core0.run (pf : Platform) (g : Nat → UInt8) (c : Core0) : List (Env1 × Env2) → Res (Core0 × List Out2)
  | [] => .ok (c, [])
  | e :: es => do
    let r ← c.iter pf g e
    let r' ← Core0.run pf g r.1 es
    .ok (r'.1, r.2 :: r'.2)

/-! ## Both cores -/

/-- Where the main loop is: before the first part, before clearing `FifoErr`, before the second part. -/
inductive Pc where
  | top
  | clear
  | rest
deriving DecidableEq, Repr

/-- The inter-core FIFO (8 words), `FifoErr`, and the main loop. -/
structure TwoCores where
  c0 : Core0
  fifo : List Word
  fifoErr : Bool
  pc : Pc

/-- Steps: core 1 hands over a word (main.cpp:138-145); first part of an iteration of core 0; main.cpp:253; second part. -/
inductive TwoStep where
  | push (w : Word)
  | first (e : Env1)
  | clear
  | second (e : Env2)

/-- What a step shows. -/
structure TwoOut where
  reports : List Report
  dropped : Bool

/-- One step.  `multicore_fifo_wready` and the push are one step, as core 1 is the only producer; `FifoErr` and the FIFO are read as they
are.  (The reading of `FifoErr` for the LEDs in line 231 is left free.) -/
def TwoCores.step (pf : Platform) (g : Nat → UInt8) (s : TwoCores) : TwoStep → Res (Option (TwoCores × TwoOut))
  | .push w =>
    if s.fifo.length < 8 then .ok (some ({ s with fifo := s.fifo ++ [w] }, { reports := [], dropped := false }))
    else .ok (some ({ s with fifoErr := true }, { reports := [], dropped := true }))
  | .first e =>
    if s.pc = .top ∧ e.fifoErr = s.fifoErr then do
      let r ← s.c0.part1 pf g e
      .ok (some ({ s with c0 := r.1, pc := .clear }, { reports := r.2, dropped := false }))
    else .ok none
  | .clear =>
    if s.pc = .clear then
      .ok (some ({ s with fifoErr := if s.c0.clr then false else s.fifoErr, pc := .rest }, { reports := [], dropped := false }))
    else .ok none
  | .second e =>
    if s.pc = .rest ∧ e.word = s.fifo.head? then do
      let r ← s.c0.part2 pf g e
      .ok (some ({ s with c0 := r.1, fifo := s.fifo.tail, pc := .top }, { reports := r.2.reports, dropped := false }))
    else .ok none

/-- A run; `none` if a step was not possible. -/
def TwoCores.run (pf : Platform) (g : Nat → UInt8) (s : TwoCores) : List TwoStep → Res (Option (TwoCores × List TwoOut))
  | [] => .ok (some (s, []))
  | x :: xs => do
    match ← s.step pf g x with
    | none => .ok none
    | some (s', o) => do
      match ← TwoCores.run pf g s' xs with
      | none => .ok none
      | some (t, os) => .ok (some (t, o :: os))

/-- main.cpp:206-217, 130: the start, after `multicore_fifo_drain`.  (Core 1 may have set `FifoErr` before; `fe` is its value.) -/
def TwoCores.init (g : Nat → UInt8) (w0 : Word) (t0 t1 : Nat) (fe : Bool) : TwoCores :=
  { c0 := Core0.init g w0 t0 t1, fifo := [], fifoErr := fe, pc := .top }

end P1P2
