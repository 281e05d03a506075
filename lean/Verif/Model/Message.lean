import Verif.Model.Text
/-!
# Model of pico/src/message.hpp and pico/src/message.cpp
-/
namespace P1P2

/-- message.hpp:4 `MAX_PACKET_SIZE` -/
def maxPacket : Nat := 32

/-- message.hpp:6-39 `class Message`.  `data` models `uint8_t Data[32]`; only indices below 32 are
ever accessed by the model (other accesses are `ub`). -/
structure Message where
  status : Nat
  time : Nat
  data : Nat → UInt8
  length : Nat

namespace Message

/-- message.hpp:9-22 `enum STATUS` -/
def statusOk : Nat := 0
def errBusCollision : Nat := 1
def errOverflow : Nat := 2
def errParity : Nat := 3
def errNoFraming : Nat := 4
def errInternal : Nat := 5

/-- The payload bytes held by a message. -/
def bytes (m : Message) : List UInt8 := (List.range m.length).map m.data

/-- message.cpp:8-11 default constructor; `Data` is left indeterminate (`garbage`). -/
def empty (garbage : Nat → UInt8) : Message :=
  { status := 0, time := 0, data := garbage, length := 0 }

/-- `memcpy(dst, src, n)` from a source object of `src.length` bytes into `Data`. -/
def memcpyData (dst : Nat → UInt8) (src : List UInt8) (n : Nat) : Res (Nat → UInt8) :=
  if n ≤ src.length ∧ n ≤ maxPacket then
    .ok (fun i => if i < n then src.getD i 0 else dst i)
  else .ub

/-- message.cpp:13-17 `Message(time, status, data, length)`. -/
def mk4 (garbage : Nat → UInt8) (time status : Nat) (src : List UInt8) (length : Nat) : Res Message := do
  let len := if length < maxPacket then length else maxPacket
  let d ← memcpyData garbage src len
  .ok { status := status, time := time, data := d, length := len }

/-- message.cpp:28-29 loop of `c_str`: `n` iterations left, loop variable `i`. -/
def cStrLoop (m : Message) (off : Nat) : (n i : Nat) → (Nat → UInt8) → Res (Nat → UInt8)
  | 0, _, buf => .ok buf
  | n + 1, i, buf => do
    let b ← rd maxPacket m.data i
    let buf' ← snprintfAt 128 buf (off + i * 2) (fmtHex2 b.toNat)
    cStrLoop m off n (i + 1) buf'

/-- message.cpp:21-32 `c_str`: new content of the static buffer `line[128]` (previous content `buf`). -/
def cStr (m : Message) (buf : Nat → UInt8) : Res (Nat → UInt8) := do
  let head := fmtDec m.time ++ [chr ':'] ++ fmtHex2 m.status ++ [chr ':']
  let buf1 ← snprintfAt 128 buf 0 head
  let off := head.length
  cStrLoop m off m.length 0 buf1

/-- The text a caller of `c_str` sees. -/
def lineOf (m : Message) (buf : Nat → UInt8) : Res (List UInt8) := do
  let b ← cStr m buf
  readCStr b 128 0

/-- Local pointers of the parser (message.cpp:39-50), as positions in the line. -/
structure Scan where
  field : Nat
  timePtr : Option Nat
  statusPtr : Option Nat
  dataPtr : Nat
deriving DecidableEq, Repr

/-- message.cpp:51-71: the scanning loop; `pos` is `ptr - line`.  The overwriting of ':' by NUL
(line 59) is applied by `cut` below. -/
def scan : List UInt8 → (pos : Nat) → Scan → Scan
  | [], _, s => s
  | c :: cs, pos, s =>
    if c = chr ':' then
      let s' :=
        if s.field = 0 then { s with timePtr := some 0, statusPtr := some (pos + 1) }
        else if s.field = 1 then { s with dataPtr := pos + 1 }
        else s
      scan cs (pos + 1) { s' with field := s.field + 1 }
    else scan cs (pos + 1) s

/-- message.cpp:59: every ':' of the line has been overwritten by NUL. -/
def cut (line : List UInt8) : List UInt8 := line.map (fun c => if c = chr ':' then 0 else c)

/-- The C string that starts at position `p` of the modified line. -/
def strAt (line : List UInt8) (p : Nat) : List UInt8 := ((cut line).drop p).takeWhile (· ≠ 0)

/-- message.cpp:90-98: the value of `decoded` for a character, `none` when `decoded == -1`.
With unsigned plain `char`, `decoded = -1` stores 255 and the comparison `decoded != -1` is true. -/
def decodeChar (pf : Platform) (c : UInt8) : Option Nat :=
  match hexVal c with
  | some d => some d
  | none => if pf.charSigned then none else some 255

/-- message.cpp:81-109: the data loop.  `field` is the nibble selector. -/
def dataLoop (pf : Platform) : List UInt8 → (field : Bool) → (data : Nat → UInt8) → (length : Nat) →
    Res ((Nat → UInt8) × Nat)
  | [], _, d, len => .ok (d, len)
  | c :: cs, field, d, len =>
    if c = chr ' ' then dataLoop pf cs field d len
    else if c = chr '#' ∨ c = chr ';' then .ok (d, len)
    else match decodeChar pf c with
      | none => dataLoop pf cs field d len
      | some v =>
        if field = false then do
          let d' ← wr maxPacket d len (UInt8.ofNat (v * 16))
          dataLoop pf cs true d' len
        else do
          let old ← rd maxPacket d len
          let d' ← wr maxPacket d len (old ||| UInt8.ofNat v)
          dataLoop pf cs false d' ((len + 1) % 256)

/-- message.cpp:44,73-75: the time field (`p` is `time_ptr`). -/
def parseTime (line : List UInt8) : Option Nat → Res Nat
  | none => .ok 0
  | some p =>
    if (strAt line p).length > 0 then do
      let v ← atoll (strAt line p)
      .ok (v % 18446744073709551616).toNat
    else .ok 0

/-- message.cpp:45,76-78: the status field (`p` is `status_ptr`). -/
def parseStatus (pf : Platform) (line : List UInt8) : Option Nat → Nat
  | none => 0
  | some p => if (strAt line p).length > 0 then toU32 (strtol16 pf (strAt line p)) else 0

/-- message.cpp:37-110 `Message(char *line)`; `line` is the C string (no NUL inside), `garbage` the
indeterminate initial content of `Data`. -/
def parse (pf : Platform) (garbage : Nat → UInt8) (line : List UInt8) : Res Message := do
  let s := scan line 0 { field := 0, timePtr := none, statusPtr := none, dataPtr := 0 }
  let time ← parseTime line s.timePtr
  let status := parseStatus pf line s.statusPtr
  let r ← dataLoop pf (strAt line s.dataPtr) false garbage 0
  .ok { status := status, time := time, data := r.1, length := r.2 }

/-- message.cpp:112-117 `Append` -/
def append (m : Message) (b : UInt8) : Res Message :=
  if m.length < maxPacket then do
    let d ← wr maxPacket m.data m.length b
    .ok { m with data := d, length := m.length + 1 }
  else .ok m

/-- message.cpp:119-123 `Clear` -/
def clear (m : Message) : Message := { m with length := 0, status := 0 }

/-- message.cpp:125-128 `Overflow` -/
def overflow (m : Message) : Bool := m.length = maxPacket

end Message
end P1P2
