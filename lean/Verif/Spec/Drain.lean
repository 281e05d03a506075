import Verif.Spec.TxLoop
/-!
# Vocabulary for C137: how long a packet of the host waits
-/
namespace P1P2

/-- Clock readings never go back, and each iteration is completed at most `d` after the one before (`t`: completion of the previous one). -/
def LoopClock (d : Nat) : Nat → List (Env1 × Env2) → Prop
  | _, [] => True
  | t, e :: es => t ≤ e.2.tWake ∧ e.2.tWake ≤ e.2.tErr ∧ e.2.tErr ≤ e.2.tPow ∧ e.2.tPow ≤ e.2.tNew ∧ e.2.tNew ≤ t + d ∧ LoopClock d e.2.tNew es

/-- What `n` calls of `Pop` would give. -/
def popped (g : Nat → UInt8) : Nat → Host → List Message
  | 0, _ => []
  | n + 1, h => match h.popMsg g with
    | .ok (h', m) => m :: popped g n h'
    | .ub => []

/-- The packets of the host that wait. -/
def queued (g : Nat → UInt8) (c : Core0) : List Message := popped g c.host.msgs.length c.host

/-- 200 ms (72 ms and 4 ms for each of 32 bytes) and the time of 39 iterations: the longest transmission. -/
def longest (d : Nat) : Nat := 200000 + 39 * d

end P1P2
