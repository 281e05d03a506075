import Verif.Spec.Drain
import Verif.Spec.MainLoop
/-!
# Vocabulary for C138: what became of a packet
-/
namespace P1P2

/-- What became of the packet `m`, started in iteration `x`, in the iterations `b` with the effects `ob`: the host was given a line with an error status
and bytes that are the beginning of `m`; or a byte was received with an error (which is in a line with an error status, C55); or `m` was handed to
the transmit hardware and all its bytes were heard on the bus, in order and with nothing in between. -/
def Outcome (m : Message) (x : Env1 × Env2) (b : List (Env1 × Env2)) (ob : List Out2) : Prop :=
  (∃ o ∈ ob, ∃ l ∈ txMsgs o.reports, l.status ≠ 0 ∧ l.bytes <+: m.bytes) ∨
  (∃ w ∈ wordsOf (x :: b), w.rxError = true) ∨
  ((∃ o ∈ ob, HwCmd.send m ∈ o.cmds) ∧ m.bytes <:+: goodBytes (wordsOf b))

/-- The packet `m`, started in iteration `x`, is settled in the first of the iterations `es` (with the effects `os`) that follow, before the longest
transmission is over and before another packet is started (the last of these iterations may start one). -/
def SettledInTime (d : Nat) (m : Message) (x : Env1 × Env2) (es : List (Env1 × Env2)) (os : List Out2) : Prop :=
  ∃ b rest ob orest, es = b ++ rest ∧ os = ob ++ orest ∧ ob.length = b.length ∧ loopTime x.2.tNew b ≤ x.2.tWake + longest d ∧
    (∀ o ∈ ob.dropLast, o.started = none) ∧ Outcome m x b ob

end P1P2
