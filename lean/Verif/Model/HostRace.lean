import Verif.Model.Host
/-!
# Reception of host characters with the UART interrupt

`HostUART::Check` (host_uart.cpp:76-80, the receiving half) in the main program, one container call or one access of the
line buffer per step, and the interrupt handler of the UART (host_uart.cpp:9-13), which may strike between any two of these
steps.  The calls on the line buffer are single steps, as they mask interrupts (C11, C95).  The handler runs to completion.
`OnLineReceived` (line 68) is one step: it reads the characters below the terminator, which the handler never changes
(`RxRace.irq_keeps` in Props/HostRace.lean); what it does with the line is `Host.onLine`.  The output side (`CheckTXFIFO`)
uses another container and is modelled by `Host.TxRace`.
-/
namespace P1P2
namespace Host

/-- Where the main program is in `Check`. -/
inductive RxPc where
  /-- not in `CheckRXFIFO` or `CheckRxLine` -/
  | out
  /-- before `getchar_timeout_us`, host_uart.cpp:43 -/
  | get
  /-- before `Full`, line 44, with the character in the local variable `c` -/
  | full (c : UInt8)
  /-- before `Push`, line 45 -/
  | push (c : UInt8)
  /-- before `Empty`, line 60 -/
  | empty
  /-- before `Length`, line 62 -/
  | len (i : Nat)
  /-- before reading `str[i]`, line 63 -/
  | look (i : Nat)
  /-- before `str[i] = 0`, line 67 -/
  | zero (i : Nat)
  /-- before `OnLineReceived`, line 68 -/
  | hand (i : Nat)
  /-- before `Clear`, line 65 or 69 -/
  | clear (i : Nat)
deriving DecidableEq, Repr

/-- The characters in the UART in order of arrival, the line buffer (host_uart.hpp:53), the main program, and the lines given
to `OnLineReceived` so far. -/
structure RxRace where
  uart : List UInt8
  rx : LineRecv UInt8
  pc : RxPc
  lines : List (List UInt8)

/-- What can happen. -/
inductive RxEv where
  /-- a character arrives from the host -/
  | arrive (c : UInt8)
  /-- the interrupt handler runs -/
  | irq
  /-- the main program enters `Check` -/
  | check
  /-- the main program executes its next step in `Check` -/
  | step
deriving DecidableEq, Repr

/-- One step of the main program; `none` when it is not in `Check`. -/
def RxRace.main (s : RxRace) : Res (Option RxRace) :=
  match s.pc with
  | .out => .ok none
  | .get => match s.uart with
    | [] => .ok (some { s with pc := .empty })
    | c :: u => .ok (some { s with uart := u, pc := .full c })
  | .full c => .ok (some { s with pc := if s.rx.isFull rxCap then .get else .push c })
  | .push c => do
    let r ← LineRecv.push rxCap s.rx c
    .ok (some { s with rx := r.1, pc := .get })
  | .empty => .ok (some { s with pc := if s.rx.isEmpty then .out else .len 0 })
  | .len i => .ok (some { s with pc := if i < s.rx.off then .look i else .out })
  | .look i => do
    let c ← rd rxCap s.rx.data i
    .ok (some { s with pc := if isTerm c then (if i = 0 then .clear i else .zero i) else .len (i + 1) })
  | .zero i => do
    let d ← wr rxCap s.rx.data i 0
    .ok (some { s with rx := { s.rx with data := d }, pc := .hand i })
  | .hand i => do
    let l ← readCStr s.rx.data rxCap 0
    .ok (some { s with lines := s.lines ++ [l], pc := .clear i })
  | .clear i => .ok (some { s with rx := s.rx.clear, pc := .len (i + 1) })

/-- One event; `none` when it cannot happen.  The handler (host_uart.cpp:9-13) empties the UART by `CheckRXFIFO`. -/
def RxRace.next (s : RxRace) : RxEv → Res (Option RxRace)
  | .arrive c => .ok (some { s with uart := s.uart ++ [c] })
  | .irq => do
    let r ← checkRx s.rx s.uart
    .ok (some { s with uart := [], rx := r })
  | .check => .ok (if s.pc = .out then some { s with pc := .get } else none)
  | .step => s.main

/-- A run. -/
def RxRace.run (s : RxRace) : List RxEv → Res (Option RxRace)
  | [] => .ok (some s)
  | e :: es => do
    match ← s.next e with
    | none => .ok none
    | some t => t.run es

/-- The start: nothing received, host_uart.cpp:15-16. -/
def RxRace.init : RxRace := { uart := [], rx := LineRecv.mk0 0, pc := .out, lines := [] }

end Host
end P1P2
