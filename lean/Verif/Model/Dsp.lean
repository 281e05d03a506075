import Verif.Basic
/-!
# Model of the receive signal chain

pico/src/shiftreg.hpp, fir_filter.cpp, resample.hpp, dcblock.cpp, level_detect.hpp, uart_bit_detect_fast.cpp,
line_busy.hpp, uart_edge_detect.hpp.  Every array access and every signed 32-bit operation is checked (`Res.ub`).
`x >> n` on a negative `int32_t` is an arithmetic shift with gcc, i.e. division rounding down (`Int` division by a
positive literal); `x << 8` is multiplication by 256 (overflow is `ub`).
-/
namespace P1P2

/-! ## Shift register, shiftreg.hpp -/

/-- shiftreg.hpp:109-110 (`data` has `2 N` entries) -/
structure ShiftReg (α : Type) where
  data : Nat → α
  off : Nat

namespace ShiftReg
variable {α : Type}

/-- shiftreg.hpp:18-26, initialised from `init[0..N)` -/
def mk' (N : Nat) (init : Nat → α) : ShiftReg α :=
  { data := fun i => if i < N then init i else init (i - N), off := 0 }

/-- shiftreg.hpp:28-31, zeroed -/
def zero : ShiftReg Int := { data := fun _ => 0, off := 0 }

/-- shiftreg.hpp:34-46 `Update(in, out)`: new register and the value pushed out (the assertion counts as `ub`). -/
def push (N : Nat) (s : ShiftReg α) (x : α) : Res (ShiftReg α × α) := do
  let o ← rd (2 * N) s.data s.off
  if s.off < N then
    let d ← wr (2 * N) s.data s.off x
    let d ← wr (2 * N) d (s.off + N) x
    let off := s.off + 1
    .ok ({ data := d, off := if off = N then 0 else off }, o)
  else .ub

/-- shiftreg.hpp:50-58 `Update(in)`; the same without the value pushed out. -/
def update (N : Nat) (s : ShiftReg α) (x : α) : Res (ShiftReg α) := do
  let d ← wr (2 * N) s.data s.off x
  let d ← wr (2 * N) d (s.off + N) x
  let off := s.off + 1
  .ok { data := d, off := if off = N then 0 else off }

/-- shiftreg.hpp:66-74 `At` (the assertion counts as `ub`) -/
def get (N : Nat) (s : ShiftReg α) (i : Nat) : Res α := if i < N then rd (2 * N) s.data (i + s.off) else .ub

/-- shiftreg.hpp:79-84 `Data()[i]` -/
def ptr (N : Nat) (s : ShiftReg α) (i : Nat) : Res α := rd (2 * N) s.data (s.off + i)

end ShiftReg

/-- A loop `for (i = from; i < from + n; i++) acc += f(i)` in `int32_t` arithmetic. -/
def sumLoop (f : Nat → Res Int) (acc : Int) (from' : Nat) : Nat → Res Int
  | 0 => .ok acc
  | n + 1 => do
    let v ← f from'
    let acc' ← i32 (acc + v)
    sumLoop f acc' (from' + 1) n

/-- shiftreg.hpp:92-106 `Convolute` of two registers of the same length -/
def convolute (N : Nat) (a b : ShiftReg Int) : Res Int :=
  sumLoop (fun i => do
    let x ← a.ptr N i
    let y ← b.ptr N i
    i32 (x * y)) 0 0 N

/-! ## FIR filter, fir_filter.cpp -/

/-- fir_filter.cpp:9-25: `double * 0x7fff` truncated to `int32_t` -/
def firCoeff : Nat → Int := fun i => [-2339, 1817, 9984, 14313, 9984, 1817, -2339].getD i 0

/-- fir_filter.hpp:13-14 -/
structure Fir where
  reg : ShiftReg Int
  coeff : ShiftReg Int

/-- fir_filter.cpp:27-30 -/
def Fir.init : Fir := { reg := ShiftReg.zero, coeff := ShiftReg.mk' 7 firCoeff }

/-- fir_filter.cpp:34-43 `Update` -/
def Fir.update (f : Fir) (x : Int) : Res (Fir × Int) := do
  let reg ← f.reg.update 7 x
  let acc ← convolute 7 reg f.coeff
  .ok ({ f with reg := reg }, acc / 32768)

/-! ## Resampler, resample.hpp -/

/-- resample.hpp:32-33 -/
structure Resample where
  counter : Nat
  n : Nat

/-- resample.hpp:13-15 -/
def Resample.init (n : Nat) : Resample := { counter := 0, n := n }

/-- resample.hpp:19-30 `Update` -/
def Resample.update {α : Type} (r : Resample) (x : α) : Resample × Option α :=
  let out := if r.counter = 0 then some x else none
  let c := r.counter + 1
  ({ r with counter := if c > r.n then 0 else c }, out)

/-! ## DC blocker, dcblock.cpp -/

/-- dcblock.hpp:12-13 -/
structure DCblock where
  x : Int
  y : Int

/-- dcblock.cpp:7-9 -/
def DCblock.init : DCblock := { x := 0, y := 0 }

/-- dcblock.cpp:13-26 `Update`; `(uint16_t)(0.995 * 256)` is 254. -/
def DCblock.update (d : DCblock) (inp : Int) : Res (DCblock × Int) := do
  let xn ← i32 (inp * 256)
  let dx ← i32 (xn - d.x)
  let m ← i32 (254 * d.y)
  let tmp ← i32 (dx + m / 256)
  .ok ({ x := xn, y := tmp }, tmp / 256)

/-! ## Level hysteresis, level_detect.hpp -/

/-- level_detect.hpp:41 `state`: 0, 1, -1 -/
inductive LevelSt where
  | none | pos | neg
deriving DecidableEq, Repr

/-- level_detect.hpp:15-29, the new state (defines.hpp: BUS_HIGH_MV 1400, BUS_LOW_MV 600) -/
def LevelSt.next (s : LevelSt) (x : Int) : LevelSt :=
  match s with
  | .none => if x ≥ 1400 then .pos else if x ≤ -1400 then .neg else .none
  | .pos => if x < 600 then .none else .pos
  | .neg => if x > -600 then .none else .neg

/-- level_detect.hpp:14-39 `Update` -/
def LevelSt.update (s : LevelSt) (x : Int) : Res (LevelSt × Int) :=
  match s.next x with
  | .none => do
    let m ← i32 (x * 26)
    .ok (.none, m / 256)
  | s' => .ok (s', x)

/-! ## Pulse detector, uart_bit_detect_fast.cpp -/

/-- uart_bit_detect_fast.hpp:28-31 -/
structure BitDetect where
  data : Nat → Int
  dataAbs : Nat → Int
  level : Int
  off : Nat

/-- uart_bit_detect_fast.cpp:8-24 constructor (unsigned arithmetic in the levels; no wrap for the values used) -/
def BitDetect.init (N : Nat) (high low : Nat) (rate : Nat) : BitDetect :=
  { data := fun _ => 0, dataAbs := fun _ => 0,
    level := (((N / 2 - 1 : Nat) * high - (N / 2 - 1 : Nat) * low : Int) * (rate + 1)) / 256, off := 0 }

/-- main.cpp:77 -/
def BitDetect.main : BitDetect := BitDetect.init 16 1400 600 0xE0

/-- uart_bit_detect_fast.cpp:69-85 `ShiftIn` -/
def BitDetect.shiftIn (N : Nat) (b : BitDetect) (x : Int) : Res BitDetect := do
  let a ← i32 (if x < 0 then -x else x)
  if b.off < N then
    let d ← wr (2 * N) b.data b.off x
    let d ← wr (2 * N) d (b.off + N) x
    let e ← wr (2 * N) b.dataAbs b.off a
    let e ← wr (2 * N) e (b.off + N) a
    let off := b.off + 1
    .ok { b with data := d, dataAbs := e, off := if off = N then 0 else off }
  else .ub

/-- uart_bit_detect_fast.cpp:31-62 `Update` -/
def BitDetect.update (N : Nat) (b : BitDetect) (x : Int) : Res (BitDetect × Int) := do
  let b ← b.shiftIn N x
  let abs0 ← rd (2 * N) b.dataAbs (b.off + 0)
  let high ← sumLoop (fun i => rd (2 * N) b.data (b.off + i)) 0 1 (N / 2 - 1)
  let abs ← sumLoop (fun i => rd (2 * N) b.dataAbs (b.off + i)) abs0 (N / 2 + 2) (N - (N / 2 + 2))
  let h ← i32 (high - abs)
  let nh ← i32 (-high)
  let l ← i32 (nh - abs)
  if h ≥ b.level then .ok (b, h)
  else if l ≥ b.level then
    let nl ← i32 (-l)
    .ok (b, nl)
  else .ok (b, 0)

/-! ## Energy based busy detector, line_busy.hpp -/

/-- line_busy.hpp:33-35 -/
structure LineBusy where
  reg : ShiftReg Int
  level : Int

/-- line_busy.hpp:8-13 -/
def LineBusy.init (level : Int) : LineBusy := { reg := ShiftReg.zero, level := level }

/-- line_busy.hpp:15-18 `Update` -/
def LineBusy.update (N : Nat) (l : LineBusy) (x : Int) : Res LineBusy := do
  let r ← l.reg.push N x
  .ok { l with reg := r.1 }

/-- line_busy.hpp:23-26, the counting loop from index `i`, `n` rounds -/
def LineBusy.count (N : Nat) (l : LineBusy) (cnt : Nat) (i : Nat) : Nat → Res Nat
  | 0 => .ok cnt
  | n + 1 => do
    let v ← l.reg.get N i
    let cnt' := if v > l.level ∨ v < -l.level then cnt + 1 else cnt
    LineBusy.count N l cnt' (i + 1) n

/-- line_busy.hpp:22-30 `Busy` -/
def LineBusy.busy (N : Nat) (l : LineBusy) : Res Bool := do
  let cnt ← l.count N 0 0 N
  .ok (cnt > N / 8 ∧ cnt ≤ N * 5 / 8)

/-! ## Edge detector, uart_edge_detect.hpp -/

/-- uart_edge_detect.hpp:26-30 -/
structure Edge where
  phase : Nat
  maxProb : Int
  counter : Nat

/-- uart_edge_detect.hpp:7-10, 12-16 constructor and `Reset` -/
def Edge.init : Edge := { phase := 0, maxProb := 0, counter := 0 }

/-- uart_edge_detect.hpp:18-24 `Update`; `uint8_t` counter and phase. -/
def Edge.update (e : Edge) (p : Int) : Edge :=
  let e := if p > e.maxProb then { e with maxProb := p, phase := e.counter } else e
  { e with counter := (e.counter + 1) % 256 }

end P1P2
