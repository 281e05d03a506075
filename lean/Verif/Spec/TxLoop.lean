import Verif.Spec.Core0
import Verif.Spec.Tx
/-!
# Vocabulary for C97, C98: duration and failure of transmissions by the main loop
-/
namespace P1P2

/-- Clock readings never go back, and each iteration is completed at most `d` after the one before (`t`: completion of the previous one). -/
def LoopPaced (d : Nat) : Nat → List (Env1 × Env2) → Prop
  | _, [] => True
  | t, e :: es => t ≤ e.2.tErr ∧ e.2.tErr ≤ e.2.tPow ∧ e.2.tPow ≤ e.2.tNew ∧ e.2.tNew ≤ t + d ∧ LoopPaced d e.2.tNew es

/-- When the last iteration was completed. -/
def loopTime : Nat → List (Env1 × Env2) → Nat
  | t, [] => t
  | _, e :: es => loopTime e.2.tNew es

/-- Why a transmission of the packet `p` has failed in iteration `x`, after which the bus is known as busy or free, as told by the line `m`: 1 and 4 say
whether the bus is busy, 5 says that the transmit hardware had an error, 21 that a byte was received without error that is not the byte of `p` at
this place (the last one in the line). -/
def FailureCause (p : Message) (x : Env1 × Env2) (busy : Bool) (m : Message) : Prop :=
  (m.status = 1 ∧ busy = true) ∨ (m.status = 4 ∧ busy = false) ∨ (m.status = 5 ∧ x.2.hwErr = true) ∨
  (m.status = 21 ∧ ∃ w n, x.2.word = some w ∧ w.rxValid = true ∧ w.rxError = false ∧ m.bytes.length = n + 1 ∧ n < p.bytes.length ∧
    p.bytes[n]? ≠ some w.rxChar)

end P1P2
