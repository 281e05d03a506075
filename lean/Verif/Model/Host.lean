import Verif.Model.Fifo
import Verif.Model.Message
/-!
# Model of pico/src/host_uart.hpp and pico/src/host_uart.cpp

Outside world: characters delivered by `getchar_timeout_us(0)` (a list per poll), `uart_is_writable`
(how many bytes a drain moves), the 64-bit microsecond timer, `reset_usb_boot`.
Calls on the interrupt-safe containers are single steps here (justified by C11/C12); what the interrupt
handler does between two calls is an explicit schedule parameter where it matters.
-/
namespace P1P2

/-- host_uart.hpp:48-54 data members. -/
structure Host where
  time : Int
  error : Bool
  tx : Fifo UInt8
  rx : LineRecv UInt8
  msgs : Fifo Message

namespace Host

/-- host_uart.hpp:52-54 template parameters -/
def txCap : Nat := 128
def rxCap : Nat := 128
def msgCap : Nat := 8

/-- host_uart.cpp:15-16 constructor (`garbage`: indeterminate payloads of the message slots). -/
def init (garbage : Nat → UInt8) : Host :=
  { time := 0, error := false, tx := Fifo.mk0 0, rx := LineRecv.mk0 0,
    msgs := Fifo.mk0 (Message.empty garbage) }

/-! ## Receiving lines -/

/-- host_uart.cpp:41-48 `CheckRXFIFO`: all characters available now. -/
def checkRx (rx : LineRecv UInt8) : List UInt8 → Res (LineRecv UInt8)
  | [] => .ok rx
  | c :: cs =>
    if rx.isFull rxCap then checkRx rx cs
    else do
      let r ← LineRecv.push rxCap rx c
      checkRx r.1 cs

/-- Line terminators, host_uart.cpp:63 -/
def isTerm (c : UInt8) : Bool := c = chr '\n' || c = chr '\r'

/-- host_uart.cpp:62-72: the loop of `CheckRxLine`; `n` bounds the iterations (`i < Length() <= 128`).
Returns the C strings passed to `OnLineReceived`.  The handler works on the same buffer (it overwrites
':' by NUL) but the buffer is cleared right after. -/
def scanLoop : (n i : Nat) → LineRecv UInt8 → Res (LineRecv UInt8 × List (List UInt8))
  | 0, _, rx => .ok (rx, [])
  | n + 1, i, rx =>
    if i < rx.off then do
      let c ← rd rxCap rx.data i
      if isTerm c then
        if i = 0 then scanLoop n (i + 1) rx.clear
        else do
          let d ← wr rxCap rx.data i 0
          let s ← readCStr d rxCap 0
          let r ← scanLoop n (i + 1) { rx with data := d, off := 0 }
          .ok (r.1, s :: r.2)
      else scanLoop n (i + 1) rx
    else .ok (rx, [])

/-- host_uart.cpp:58-74 `CheckRxLine` -/
def checkRxLine (rx : LineRecv UInt8) : Res (LineRecv UInt8 × List (List UInt8)) :=
  if rx.isEmpty then .ok (rx, []) else scanLoop rxCap 0 rx

/-- The receive half of `Check` (host_uart.cpp:78-79): new characters, then line detection. -/
def poll (rx : LineRecv UInt8) (chunk : List UInt8) : Res (LineRecv UInt8 × List (List UInt8)) := do
  let rx' ← checkRx rx chunk
  checkRxLine rx'

/-- A sequence of polls and all lines handed over. -/
def polls (rx : LineRecv UInt8) : List (List UInt8) → Res (LineRecv UInt8 × List (List UInt8))
  | [] => .ok (rx, [])
  | c :: cs => do
    let r ← poll rx c
    let r' ← polls r.1 cs
    .ok (r'.1, r.2 ++ r'.2)

/-! ## Time -/

/-- `to_ms_since_boot(get_absolute_time())`: pico-sdk converts the 64-bit microsecond counter to a
`uint32_t` millisecond count. -/
def msNow (us : Nat) : Nat := us / 1000 % 4294967296

/-- Conversion `uint64_t` to `int64_t`. -/
def toI64 (x : Int) : Int := (x + 9223372036854775808) % 18446744073709551616 - 9223372036854775808

/-- host_uart.cpp:152-154 `SetTime` -/
def setTime (h : Host) (t : Nat) (us : Nat) : Host :=
  { h with time := toI64 ((t : Int) - msNow us) }

/-- host_uart.cpp:156-158 `GetTime`: `int64_t + uint32_t` is a signed 64-bit addition. -/
def getTime (h : Host) (us : Nat) : Res Nat :=
  let s := h.time + msNow us
  if s ≤ 9223372036854775807 then .ok (s % 18446744073709551616).toNat else .ub

/-! ## The line handler -/

/-- Read character `k` of a C string: reading beyond the terminating NUL is undefined. -/
def charAt (s : List UInt8) (k : Nat) : Res UInt8 :=
  if k ≤ s.length then .ok (s.getD k 0) else .ub

/-- host_uart.cpp:96-97: short-circuit comparison of the characters from position `k` on. -/
def startsWith (s : List UInt8) : (pat : List UInt8) → (k : Nat) → Res Bool
  | [], _ => .ok true
  | p :: ps, k => do
    let c ← charAt s k
    if c = p then startsWith s ps (k + 1) else .ok false

/-- host_uart.cpp:96-97: `;!BLD!;` -/
def bldCmd : List UInt8 := [chr ';', chr '!', chr 'B', chr 'L', chr 'D', chr '!', chr ';']

/-- host_uart.cpp:95-112 `OnLineReceived`; the Boolean is true when `reset_usb_boot` is called. -/
def onLine (pf : Platform) (garbage : Nat → UInt8) (h : Host) (us : Nat) (line : List UInt8) :
    Res (Host × Bool) := do
  let b ← startsWith line bldCmd 0
  if b then .ok (h, true)
  else do
    let c0 ← charAt line 0
    if c0 = 0 ∨ c0 = chr '#' ∨ c0 = chr ';' then .ok (h, false)
    else do
      let m ← Message.parse pf garbage line
      let h := if m.time > 0 then setTime h m.time us else h
      if m.length > 0 then do
        let r ← Fifo.push msgCap h.msgs m
        .ok ({ h with msgs := r.1 }, false)
      else .ok (h, false)

/-- host_uart.cpp:82-84 `HasData` -/
def hasData (h : Host) : Bool := !h.msgs.isEmpty

/-- host_uart.cpp:86-93 `Pop` (`garbage`: payload of the default constructed message). -/
def popMsg (garbage : Nat → UInt8) (h : Host) : Res (Host × Message) :=
  if h.msgs.isEmpty then .ok (h, Message.empty garbage)
  else do
    let r ← Fifo.pop msgCap h.msgs
    .ok ({ h with msgs := r.1 }, r.2.getD (Message.empty garbage))

/-! ## Sending -/

/-- host_uart.cpp:50-56 `CheckTXFIFO` with room for `k` bytes in the UART; `wire` are the bytes
handed to `putchar_raw` so far. -/
def drain : (k : Nat) → Fifo UInt8 → (wire : List UInt8) → Res (Fifo UInt8 × List UInt8)
  | 0, tx, wire => .ok (tx, wire)
  | k + 1, tx, wire =>
    if tx.isEmpty then .ok (tx, wire)
    else do
      let r ← Fifo.pop txCap tx
      match r.2 with
      | some c => drain k r.1 (wire ++ [c])
      | none => drain k r.1 wire

/-- Transmit side of the object: queue, bytes already at the UART, error flag. -/
structure Tx where
  tx : Fifo UInt8
  wire : List UInt8
  error : Bool

/-- One queueing attempt of `Send` (host_uart.cpp:128-133, 136-140, 141-145) preceded by an interrupt
that moves `k` bytes; the Boolean tells whether the byte was queued. -/
def attempt (t : Tx) (k : Nat) (c : UInt8) : Res (Tx × Bool) := do
  let r ← drain k t.tx t.wire
  if r.1.isFull txCap then .ok ({ tx := r.1, wire := r.2, error := true }, false)
  else do
    let p ← Fifo.push txCap r.1 c
    .ok ({ tx := p.1, wire := r.2, error := t.error }, true)

/-- host_uart.cpp:127-135: the loop of `Send`; false when it returned early.  `sched i` is the number of
bytes an interrupt moves before attempt `i`. -/
def sendLoop (sched : Nat → Nat) : List UInt8 → (i : Nat) → Tx → Res (Tx × Bool)
  | [], _, t => .ok (t, true)
  | c :: cs, i, t => do
    let r ← attempt t (sched i) c
    if r.2 then sendLoop sched cs (i + 1) r.1 else .ok (r.1, false)

/-- host_uart.cpp:123-150 `Send` of a printed line; `kfin` bytes are moved by the final CheckTXFIFO. -/
def send (t : Tx) (line : List UInt8) (sched : Nat → Nat) (kfin : Nat) : Res Tx := do
  let r ← sendLoop sched line 0 t
  if r.2 then do
    let a ← attempt r.1 (sched line.length) (chr '\r')
    let b ← attempt a.1 (sched (line.length + 1)) (chr '\n')
    let d ← drain kfin b.1.tx b.1.wire
    .ok { tx := d.1, wire := d.2, error := b.1.error }
  else .ok r.1

/-- host_uart.cpp:114-121 `UpdateAndSend`; `wire`: bytes at the UART so far, `buf`: previous content of
the static line buffer of `c_str`. -/
def updateAndSend (h : Host) (wire : List UInt8) (m : Message) (us : Nat) (buf : Nat → UInt8)
    (sched : Nat → Nat) (kfin : Nat) : Res (Host × List UInt8) := do
  let t ← getTime h us
  let m1 := { m with time := t }
  let m2 := if h.error then { m1 with status := m1.status ||| Message.errOverflow } else m1
  let err := if h.error then false else h.error
  let line ← Message.lineOf m2 buf
  let r ← send { tx := h.tx, wire := wire, error := err } line sched kfin
  .ok ({ h with tx := r.tx, error := r.error }, r.wire)

/-! ## CheckTXFIFO at instruction granularity -/

/-- State for the interleaving of `CheckTXFIFO` in the main program with the interrupt handler. -/
structure TxRace where
  queue : List UInt8
  wire : List UInt8
  /-- the local variable `c` between `Pop` and `putchar_raw` -/
  reg : Option UInt8
  mask : Bool
deriving DecidableEq, Repr

/-- Steps: main pops, main writes, the handler moves `k` bytes, main sets PRIMASK (host_uart.cpp:147-149). -/
inductive TxStep where
  | pop
  | put
  | irq (k : Nat)
  | setMask (b : Bool)
deriving DecidableEq, Repr

/-- host_uart.cpp:50-56 with the handler host_uart.cpp:9-13 between any two steps. -/
def TxRace.next (s : TxRace) : TxStep → Option TxRace
  | .pop => match s.reg, s.queue with
    | none, c :: q => some { s with queue := q, reg := some c }
    | _, _ => none
  | .put => match s.reg with
    | some c => some { s with wire := s.wire ++ [c], reg := none }
    | none => none
  | .irq k => if s.mask then none else
      some { s with queue := s.queue.drop k, wire := s.wire ++ s.queue.take k }
  | .setMask b => if s.reg.isSome then none else some { s with mask := b }

/-- A run. -/
def TxRace.run : TxRace → List TxStep → Option TxRace
  | s, [] => some s
  | s, e :: es => match s.next e with
    | none => none
    | some s' => s'.run es

end Host
end P1P2
