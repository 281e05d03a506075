import Verif.Model.Fifo
/-!
# Interrupt interleaving on one Cortex-M0+ core

Main program and one interrupt handler on the same core (core 0, pico/src/host_uart.cpp:9-13,24-28).
An interrupt is taken only between two instructions of the main program and only while PRIMASK is
clear; the handler runs to completion before the main program continues (single handler, no
nesting).  `save_and_disable_interrupts` / `restore_interrupts` save, set and restore PRIMASK
(pico-sdk hardware/sync.h).
-/
namespace P1P2

/-- Instructions of one call. -/
inductive Instr (σ α : Type) where
  | save                     -- save_and_disable_interrupts
  | act (f : Act σ α)
  | restore                  -- restore_interrupts(save)

/-- A shared object: for each call the actions of its critical section and its result. -/
structure Obj (σ α ω ρ : Type) where
  acts : ω → List (Act σ α)
  result : ω → Regs α → ρ

/-- fifo_irqsafe.hpp:28-44, 50-66, 71-74, 86-90: every call is
`save; body; restore`. -/
def Obj.code {σ α ω ρ : Type} (o : Obj σ α ω ρ) (op : ω) : List (Instr σ α) :=
  [.save] ++ (o.acts op).map .act ++ [.restore]

/-- Registers at the start of a call. -/
def Regs.init {α : Type} : Regs α := { taken := false, r := 0, out := none }

/-- State of the core. -/
structure Core (σ α ω ρ : Type) where
  shared : σ
  /-- PRIMASK: interrupts disabled -/
  mask : Bool
  /-- the `save` variable of the running call -/
  saved : Bool
  regs : Regs α
  /-- the running call of the main program and its remaining instructions -/
  cur : Option (ω × List (Instr σ α))
  /-- completed calls in order of completion; `true` for calls of the main program -/
  log : List (Bool × ω × ρ)

/-- Execute one instruction. -/
def Core.exec {σ α ω ρ : Type} (c : Core σ α ω ρ) : Instr σ α → Core σ α ω ρ
  | .save => { c with saved := c.mask, mask := true }
  | .act f => let (s, g) := f (c.shared, c.regs); { c with shared := s, regs := g }
  | .restore => { c with mask := c.saved }

/-- A complete, uninterrupted call (used for the handler): state after and result. -/
def runActs {σ α : Type} (l : List (Act σ α)) (x : σ × Regs α) : σ × Regs α :=
  l.foldl (fun x f => f x) x

/-- What can happen next. -/
inductive Event (ω : Type) where
  /-- the main program starts a call -/
  | call (op : ω)
  /-- the main program sets PRIMASK outside a call, as host_uart.cpp:147-149 does around CheckTXFIFO -/
  | setMask (b : Bool)
  /-- the running call executes its next instruction -/
  | step
  /-- the interrupt handler runs, performing these calls -/
  | irq (ops : List ω)

/-- The handler performs its calls one after the other. -/
def irqRun {σ α ω ρ : Type} (o : Obj σ α ω ρ) : σ → List ω → σ × List (Bool × ω × ρ)
  | s, [] => (s, [])
  | s, op :: ops =>
    let (s', g) := runActs (o.acts op) (s, Regs.init)
    let (s'', l) := irqRun o s' ops
    (s'', (false, op, o.result op g) :: l)

/-- One event; `none` when it cannot happen. -/
def Core.next {σ α ω ρ : Type} (o : Obj σ α ω ρ) (c : Core σ α ω ρ) : Event ω → Option (Core σ α ω ρ)
  | .call op => match c.cur with
    | none => some { c with cur := some (op, o.code op), regs := Regs.init }
    | some _ => none
  | .setMask b => match c.cur with
    | none => some { c with mask := b }
    | some _ => none
  | .step => match c.cur with
    | none => none
    | some (_, []) => none
    | some (op, [i]) =>
      let c' := c.exec i
      some { c' with cur := none, log := c.log ++ [(true, op, o.result op c'.regs)] }
    | some (op, i :: is) => some { c.exec i with cur := some (op, is) }
  | .irq ops =>
    if c.mask then none
    else
      let (s, l) := irqRun o c.shared ops
      some { c with shared := s, log := c.log ++ l }

/-- A run of the core. -/
def Core.run {σ α ω ρ : Type} (o : Obj σ α ω ρ) : Core σ α ω ρ → List (Event ω) → Option (Core σ α ω ρ)
  | c, [] => some c
  | c, e :: es => match c.next o e with
    | none => none
    | some c' => c'.run o es

/-- The FIFO as a shared object. -/
def fifoObj (α : Type) (N : Nat) : Obj (Fifo α) α (QOp α) (QRes α) :=
  { acts := Fifo.acts N, result := Fifo.result N }

/-- Initial core state. -/
def Core.init {σ α ω ρ : Type} (s : σ) : Core σ α ω ρ :=
  { shared := s, mask := false, saved := false, regs := Regs.init, cur := none, log := [] }

end P1P2
