import Verif.Model.Message
/-!
# Model of pico/src/standalone.cpp, the external controller

Times are readings of the 64 bit microsecond clock.  A message is read through its array `data`; an access outside the
32 entries is undefined behaviour.
-/
namespace P1P2

/-- standalone.hpp:53-57 `enum CTRL_STATE` -/
inductive CtrlSt where
  | idle
  | busScan
  | operating
deriving DecidableEq, Repr

/-- standalone.hpp:59-70 -/
structure Ctrl where
  answer : Message
  address : Nat
  ready : Bool
  state : CtrlSt
  dl : Nat

/-- standalone.cpp:184-191, one bit: `(crc ^ c) & 1` -/
def crcBit (p : UInt32 × UInt32) : UInt32 × UInt32 :=
  (if (p.1 ^^^ p.2) &&& 1 ≠ 0 then (p.1 >>> 1) ^^^ 0xd9 else p.1 >>> 1, p.2 >>> 1)

/-- standalone.cpp:183-191, one byte -/
def crcByte (crc : UInt32) (b : UInt8) : UInt32 :=
  (crcBit (crcBit (crcBit (crcBit (crcBit (crcBit (crcBit (crcBit (crc, b.toUInt32))))))))).1

/-- standalone.cpp:182-192, bytes `j`, `j + 1`, ..., `n` of them -/
def crcLoop (data : Nat → UInt8) (crc : UInt32) (j : Nat) : Nat → Res UInt32
  | 0 => .ok crc
  | n + 1 => do
    let b ← rd maxPacket data j
    crcLoop data (crcByte crc b) (j + 1) n

/-- standalone.cpp:180-194 `GenCRC` -/
def genCRC (data : Nat → UInt8) (len : Nat) : Res UInt8 := do
  let c ← crcLoop data 0 0 len
  .ok (c &&& 0xff).toUInt8

/-- standalone.cpp:14-21 constructor -/
def Ctrl.init (garbage : Nat → UInt8) (now : Nat) : Ctrl :=
  { answer := { Message.empty garbage with data := upd (upd garbage 0 0x40) 1 0xF0 }
    address := 0xF0
    ready := false
    state := .idle
    dl := now + 100 * 1000 }

/-- standalone.cpp:25-50 `Check`; `t1` is the clock read by `time_reached`, `t2` the one by `make_timeout_time_ms` -/
def Ctrl.check (c : Ctrl) (t1 t2 : Nat) : Ctrl :=
  match c.state with
  | .idle => if c.dl ≤ t1 then { c with state := .busScan, dl := t2 + 2000 * 1000 } else c
  | .busScan => if c.dl ≤ t1 then { c with state := .operating, dl := t2 + 600000 * 1000 } else c
  | .operating => if c.dl ≤ t1 then { c with state := .idle, ready := false, dl := t2 + 100 * 1000 } else c

/-- standalone.cpp:86-109 `NeedToHandlePacket` -/
def Ctrl.needToHandle (c : Ctrl) (m : Message) : Bool :=
  if m.data 0 ≠ 0x00 then false
  else if (m.data 1).toNat ≠ c.address then false
  else if m.data 2 = 0x30 then true
  else if m.data 2 = 0x31 then true
  else false

/-- The loops of standalone.cpp:117-119 and 126-128: copy entries `i`, `i + 1`, ..., `n` of them -/
def copyLoop (src dst : Nat → UInt8) (i : Nat) : Nat → Res (Nat → UInt8)
  | 0 => .ok dst
  | n + 1 => do
    let b ← rd maxPacket src i
    let d ← wr maxPacket dst i b
    copyLoop src d (i + 1) n

/-- standalone.cpp:136-139 -/
def Ctrl.finish (c : Ctrl) : Res Ctrl := do
  let crc ← genCRC c.answer.data (c.answer.length - 1)
  let d ← wr maxPacket c.answer.data (c.answer.length - 1) crc
  .ok { c with answer := { c.answer with data := d }, ready := true }

/-- standalone.cpp:113-140 `GenerateAnswer` -/
def Ctrl.generateAnswer (c : Ctrl) (m : Message) : Res Ctrl :=
  if m.data 2 = 0x30 then do
    let d ← copyLoop m.data (upd c.answer.data 2 0x30) 3 14
    Ctrl.finish { c with answer := { c.answer with data := d, length := 18 } }
  else if m.data 2 = 0x31 then do
    let d ← copyLoop m.data (upd c.answer.data 2 0x31) 3 12
    Ctrl.finish { c with answer := { c.answer with data := upd (upd d 7 0xB4) 8 0x10, length := 16 } }
  else .ok { c with ready := false }

/-- standalone.cpp:63-66, 75: `GenCRC(in, in->Length - 1) == in->Data[in->Length - 1]` -/
def crcMatches (m : Message) : Res Bool := do
  let crc ← genCRC m.data (m.length - 1)
  let b ← rd maxPacket m.data (m.length - 1)
  .ok (crc == b)

/-- standalone.cpp:60-71, the state BUS_SCAN -/
def Ctrl.scanPacket (c : Ctrl) (m : Message) : Res Ctrl :=
  if m.data 0 = 0x40 ∧ (m.data 1).toNat = c.address ∧ m.data 2 = 0x30 then do
    let ok ← crcMatches m
    if ok then
      let a := if c.address + 1 > 0xF1 then 0xF0 else c.address + 1
      let d := upd c.answer.data 1 (UInt8.ofNat a)
      let crc ← genCRC d 17
      .ok { c with address := a, answer := { c.answer with data := upd d 17 crc } }
    else .ok c
  else .ok c

/-- standalone.cpp:54-84 `Receive` -/
def Ctrl.receive (c : Ctrl) (m : Message) : Res Ctrl :=
  if m.length ≤ 3 then .ok c
  else match c.state with
  | .idle => .ok c
  | .busScan => c.scanPacket m
  | .operating =>
    if c.needToHandle m then do
      let ok ← crcMatches m
      if ok then c.generateAnswer m else .ok { c with ready := false }
    else .ok { c with ready := false }

/-- standalone.cpp:145-147 `HasTxData` -/
def Ctrl.hasTxData (c : Ctrl) : Bool := c.ready

/-- standalone.cpp:151-157 `TxAnswer`; `out` is the caller's message -/
def Ctrl.txAnswer (c : Ctrl) (out : Message) : Res (Ctrl × Message) := do
  let d ← copyLoop c.answer.data out.data 0 c.answer.length
  .ok ({ c with ready := false }, { out with length := c.answer.length, data := d })

/-- standalone.cpp:159-164 `BusCollision` -/
def Ctrl.busCollision (c : Ctrl) (now : Nat) : Ctrl := { c with state := .idle, dl := now + 100 * 1000, ready := false }

/-- standalone.cpp:167-176 `IsTxAnswer` -/
def Ctrl.isTxAnswer (c : Ctrl) (m : Message) : Bool :=
  if m.data 0 ≠ 0x40 then false
  else if (m.data 1).toNat = c.address then false
  else m.data 2 == 0x30 || m.data 2 == 0x31

/-- A call on the controller. -/
inductive CtrlCall where
  | check (t1 t2 : Nat)
  | receive (m : Message)
  | txAnswer (out : Message)
  | busCollision (now : Nat)

/-- One call. -/
def Ctrl.call (c : Ctrl) : CtrlCall → Res Ctrl
  | .check t1 t2 => .ok (c.check t1 t2)
  | .receive m => c.receive m
  | .txAnswer out => do
    let r ← c.txAnswer out
    .ok r.1
  | .busCollision now => .ok (c.busCollision now)

/-- A history of calls. -/
def Ctrl.run (c : Ctrl) : List CtrlCall → Res Ctrl
  | [] => .ok c
  | x :: xs => do
    let c ← c.call x
    Ctrl.run c xs

end P1P2
