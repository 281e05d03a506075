import Verif.Model.LoopLeds
import Verif.Spec.Led
import Verif.Spec.MainLoop
/-!
# Vocabulary for C109, C110: what the LEDs tell about the device
-/
namespace P1P2

/-- All LED steps, in order. -/
def ledSteps (xs : List ((Env1 × Env2) × List LedStep)) : List LedStep := xs.flatMap Prod.snd

/-- The LEDs after the given steps. -/
def ledsAfter (s : List LedStep) : LedManager := s.foldl LedManager.step LedManager.init

/-- `mid` is a period between two refreshes (or from the start to the first one) within the LED steps of the history, after `pre`. -/
def Period (xs : List ((Env1 × Env2) × List LedStep)) (pre mid : List LedStep) : Prop :=
  LedStep.refresh ∉ mid ∧ (pre = [] ∨ ∃ p, pre = p ++ [.refresh]) ∧ (pre ++ mid ++ [.refresh]) <+: ledSteps xs

/-- The iteration `x`, which comes after the iterations `before`, is at least in part within the period. -/
def During (before : List ((Env1 × Env2) × List LedStep)) (x : (Env1 × Env2) × List LedStep) (pre mid : List LedStep) : Prop :=
  (ledSteps before).length < (pre ++ mid).length ∧ pre.length < (ledSteps (before ++ [x])).length

/-- The iteration `x`, which comes after the iterations `before`, is completely within the period. -/
def Inside (before : List ((Env1 × Env2) × List LedStep)) (x : (Env1 × Env2) × List LedStep) (pre mid : List LedStep) : Prop :=
  pre.length ≤ (ledSteps before).length ∧ (ledSteps (before ++ [x])).length ≤ (pre ++ mid).length

/-- A byte was taken from the receiving core, right or wrong. -/
def ByteTaken (e : Env1 × Env2) : Prop := ∃ w, e.2.word = some w ∧ (w.rxValid = true ∨ w.rxError = true)

/-- The transmitter is at work at the beginning of the iteration. -/
def Sending (c : Core0) : Prop := c.sm.isIdle = false

/-- The transmitter is idle and has failed to send its last packet (`SM.Error()`). -/
def GaveUp (c : Core0) : Prop := c.sm.isIdle = true ∧ c.sm.error.2 = true

/-- What the firmware regards as trouble in an iteration that begins in state `c` and does `o`: a wrong byte, an overrun of the ADC, a line that says that the bus is busy for too long (status 4);
and, while the transmitter is idle, a full inter-core FIFO, an error of the transmit hardware, or a failed transmission. -/
def Trouble (c : Core0) (e : Env1 × Env2) (o : Out2) : Prop :=
  (∃ w, e.2.word = some w ∧ (w.rxError = true ∨ w.dadcError = true)) ∨ (∃ m ∈ rxMsgs o.reports, m.status = 4) ∨
  (c.sm.isIdle = true ∧ (e.1.fifoErrLed = true ∨ e.1.hwErr = true)) ∨ GaveUp c

/-- In the history `xs`, which begins in state `c0`, there is an iteration, selected by `sel` (from the iterations before it and itself), in which `P` holds of its beginning, its environment
and its effects. -/
def SomeIteration (pf : Platform) (g : Nat → UInt8) (c0 : Core0) (xs : List ((Env1 × Env2) × List LedStep))
    (sel : List ((Env1 × Env2) × List LedStep) → (Env1 × Env2) × List LedStep → Prop) (P : Core0 → Env1 × Env2 → Out2 → Prop) : Prop :=
  ∃ a x b c c' oa o, xs = a ++ x :: b ∧ sel a x ∧ c0.run pf g (a.map Prod.fst) = .ok (c, oa) ∧ c.iter pf g x.1 = .ok (c', o) ∧ P c x.1 o

end P1P2
