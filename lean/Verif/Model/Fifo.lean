import Verif.Basic
/-!
# Model of pico/src/fifo_irqsafe.hpp and pico/src/line_receiver_irqsafe.hpp

Each call is modelled twice: as one step (`push`, `pop`, ...: what a caller that is not interrupted
sees) and as a list of machine-level actions between "disable interrupts" and "restore interrupts"
(`pushActs`, ...), used for the interleaving semantics of `Verif/Model/Irq.lean`.
Counters are `uint32_t` in the code; they never exceed `N`, which is the number of elements of an
array object, so no wrap-around is modelled.
-/
namespace P1P2

/-- fifo_irqsafe.hpp:108-113 data members. -/
structure Fifo (α : Type) where
  data : Nat → α
  offRead : Nat
  offWrite : Nat
  length : Nat

namespace Fifo
variable {α : Type}

/-- fifo_irqsafe.hpp:22-23 default constructor (`data{}`: value-initialised elements `z`). -/
def mk0 (z : α) : Fifo α := { data := fun _ => z, offRead := 0, offWrite := 0, length := 0 }

/-- fifo_irqsafe.hpp:14-20 constructor from `N` initial elements: the copy loop. -/
def initLoop (N : Nat) (init : Nat → α) : (n i : Nat) → (Nat → α) → Res (Nat → α)
  | 0, _, d => .ok d
  | n + 1, i, d => do
    let x ← rd N init i
    let d' ← wr N d i x
    initLoop N init n (i + 1) d'

/-- fifo_irqsafe.hpp:14-20 -/
def mkInit (N : Nat) (z : α) (init : Nat → α) : Res (Fifo α) := do
  let d ← initLoop N init N 0 (fun _ => z)
  .ok { data := d, offRead := 0, offWrite := 0, length := N }

/-- fifo_irqsafe.hpp:27-45 `Push` -/
def push (N : Nat) (f : Fifo α) (v : α) : Res (Fifo α × Bool) :=
  if f.length < N then do
    let d ← wr N f.data f.offWrite v
    let w := f.offWrite + 1
    .ok ({ f with data := d, length := f.length + 1, offWrite := if w = N then 0 else w }, true)
  else .ok (f, false)

/-- fifo_irqsafe.hpp:49-67 `Pop`; `none` when it returns false. -/
def pop (N : Nat) (f : Fifo α) : Res (Fifo α × Option α) :=
  if f.length > 0 then do
    let v ← rd N f.data f.offRead
    let r := f.offRead + 1
    .ok ({ f with offRead := if r = N then 0 else r, length := f.length - 1 }, some v)
  else .ok (f, none)

/-- fifo_irqsafe.hpp:77-79 `Empty` -/
def isEmpty (f : Fifo α) : Bool := f.length = 0

/-- fifo_irqsafe.hpp:81-83 `Full` -/
def isFull (N : Nat) (f : Fifo α) : Bool := f.length = N

/-- fifo_irqsafe.hpp:85-91 `Clear` -/
def clear (f : Fifo α) : Fifo α := { f with length := 0, offRead := 0, offWrite := 0 }

/-- fifo_irqsafe.hpp:96-106 `At`: the array element `i`. -/
def at_ (N : Nat) (f : Fifo α) (i : Nat) : Res α := rd N f.data i

end Fifo

/-- line_receiver_irqsafe.hpp:82-85 data members. -/
structure LineRecv (α : Type) where
  data : Nat → α
  off : Nat

namespace LineRecv
variable {α : Type}

/-- line_receiver_irqsafe.hpp:22-23 default constructor (the constructor from an array, 14-20, is unused) -/
def mk0 (z : α) : LineRecv α := { data := fun _ => z, off := 0 }

/-- line_receiver_irqsafe.hpp:27-41 `Push` -/
def push (N : Nat) (f : LineRecv α) (v : α) : Res (LineRecv α × Bool) :=
  if f.off < N then do
    let d ← wr N f.data f.off v
    .ok ({ f with data := d, off := f.off + 1 }, true)
  else .ok (f, false)

/-- line_receiver_irqsafe.hpp:51-53 `Empty` -/
def isEmpty (f : LineRecv α) : Bool := f.off = 0

/-- line_receiver_irqsafe.hpp:55-57 `Full` -/
def isFull (N : Nat) (f : LineRecv α) : Bool := f.off = N

/-- line_receiver_irqsafe.hpp:59-63 `Clear` -/
def clear (f : LineRecv α) : LineRecv α := { f with off := 0 }

/-- line_receiver_irqsafe.hpp:67-77 `At` -/
def at_ (N : Nat) (f : LineRecv α) (i : Nat) : Res α := rd N f.data i

end LineRecv

/-! ## Action lists -/

/-- The calls on a FIFO that are compared with the queue specification. -/
inductive QOp (α : Type) where
  | push (v : α)
  | pop
  | length
  | empty
  | full
  | clear

/-- Results of such calls. -/
inductive QRes (α : Type) where
  | bool (b : Bool)
  | popped (v : Option α)
  | num (n : Nat)
  | unit
deriving DecidableEq

/-- Local variables and scratch registers of one call. -/
structure Regs (α : Type) where
  /-- outcome of the `if` -/
  taken : Bool
  /-- scratch register -/
  r : Nat
  /-- `*out` of Pop -/
  out : Option α

/-- One machine-level action on the shared object and the local registers. -/
abbrev Act (σ α : Type) := σ × Regs α → σ × Regs α

namespace Fifo
variable {α : Type}

/-- Make an action conditional on the branch taken. -/
def onTaken {σ : Type} (f : Act σ α) : Act σ α := fun x => if x.2.taken then f x else x

/-- fifo_irqsafe.hpp:30-36 body of `Push`, one load or store per action. -/
def pushActs (N : Nat) (v : α) : List (Act (Fifo α) α) :=
  [ fun (f, g) => (f, { g with taken := decide (f.length < N) }),
    onTaken (fun (f, g) => ({ f with data := upd f.data f.offWrite v }, g)),
    onTaken (fun (f, g) => (f, { g with r := f.length })),
    onTaken (fun (f, g) => ({ f with length := g.r + 1 }, g)),
    onTaken (fun (f, g) => (f, { g with r := f.offWrite })),
    onTaken (fun (f, g) => ({ f with offWrite := g.r + 1 }, g)),
    onTaken (fun (f, g) => (if f.offWrite = N then { f with offWrite := 0 } else f, g)) ]

/-- fifo_irqsafe.hpp:52-58 body of `Pop`. -/
def popActs (N : Nat) : List (Act (Fifo α) α) :=
  [ fun (f, g) => (f, { g with taken := decide (f.length > 0) }),
    onTaken (fun (f, g) => (f, { g with out := some (f.data f.offRead) })),
    onTaken (fun (f, g) => (f, { g with r := f.offRead })),
    onTaken (fun (f, g) => ({ f with offRead := g.r + 1 }, g)),
    onTaken (fun (f, g) => (if f.offRead = N then { f with offRead := 0 } else f, g)),
    onTaken (fun (f, g) => (f, { g with r := f.length })),
    onTaken (fun (f, g) => ({ f with length := g.r - 1 }, g)) ]

/-- fifo_irqsafe.hpp:72 body of `Length` (also used by `Empty` and `Full`). -/
def lengthActs : List (Act (Fifo α) α) := [ fun (f, g) => (f, { g with r := f.length }) ]

/-- fifo_irqsafe.hpp:87-89 body of `Clear`. -/
def clearActs : List (Act (Fifo α) α) :=
  [ fun (f, g) => ({ f with length := 0 }, g),
    fun (f, g) => ({ f with offRead := 0 }, g),
    fun (f, g) => ({ f with offWrite := 0 }, g) ]

/-- The critical section of each call. -/
def acts (N : Nat) : QOp α → List (Act (Fifo α) α)
  | .push v => pushActs N v
  | .pop => popActs N
  | .length => lengthActs
  | .empty => lengthActs
  | .full => lengthActs
  | .clear => clearActs

/-- What the call returns, computed from its registers after the critical section. -/
def result (N : Nat) : QOp α → Regs α → QRes α
  | .push _, g => .bool g.taken
  | .pop, g => .popped g.out
  | .length, g => .num g.r
  | .empty, g => .bool (g.r = 0)
  | .full, g => .bool (g.r = N)
  | .clear, _ => .unit

end Fifo

namespace LineRecv
variable {α : Type}

/-- line_receiver_irqsafe.hpp:30-32 body of `Push`. -/
def pushActs (N : Nat) (v : α) : List (Act (LineRecv α) α) :=
  [ fun (f, g) => (f, { g with taken := decide (f.off < N) }),
    Fifo.onTaken (fun (f, g) => ({ f with data := upd f.data f.off v }, g)),
    Fifo.onTaken (fun (f, g) => (f, { g with r := f.off })),
    Fifo.onTaken (fun (f, g) => ({ f with off := g.r + 1 }, g)) ]

/-- line_receiver_irqsafe.hpp:46 body of `Length`. -/
def lengthActs : List (Act (LineRecv α) α) := [ fun (f, g) => (f, { g with r := f.off }) ]

/-- line_receiver_irqsafe.hpp:61 body of `Clear`. -/
def clearActs : List (Act (LineRecv α) α) := [ fun (f, g) => ({ f with off := 0 }, g) ]

end LineRecv
end P1P2
