import Verif.Spec.Modem
import Verif.Props.Pio
import Verif.Model.TxFine
/-!
# Specification: frames on the pins since a message was handed over
-/
namespace P1P2

/-- Line level and PIO flag, cycle by cycle. -/
def pinsOf : List FOut → List (Level × Bool)
  | [] => []
  | .pins v :: os => Pio.view v :: pinsOf os
  | .cmd _ :: os => pinsOf os

/-- The message handed over last: number of cycles before, and its bytes. `n` cycles have passed, `cur` was handed over last before. -/
def handedAt : (n : Nat) → (cur : Nat × List UInt8) → List FOut → Nat × List UInt8
  | _, cur, [] => cur
  | n, cur, .pins _ :: os => handedAt (n + 1) cur os
  | n, _, .cmd (.send m) :: os => handedAt n (n, m.bytes) os
  | n, cur, .cmd _ :: os => handedAt n cur os

/-- Frames (cycle of the start, byte) one after the other; a frame and the pause after it take 175 cycles. -/
def FramesApart (ss : List (Nat × UInt8)) : Prop := ss.Pairwise fun a b => a.1 + 175 ≤ b.1

/-- The bytes of the frames that start in cycle `h` or later. -/
def bytesSince (h : Nat) (ss : List (Nat × UInt8)) : List UInt8 := (ss.filter fun x => decide (h ≤ x.1)).map Prod.snd

end P1P2
