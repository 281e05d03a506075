import Verif.Spec.Rx
import Verif.Model.Uart
/-!
# Vocabulary for C116: what the receiver makes of any samples, in every parity mode
-/
namespace P1P2

/-- Number of symbols of a frame: start, eight data bits, parity if any, stop. -/
def Parity.symbols : Parity → Nat
  | .none => 10
  | _ => 11

/-- The symbol a detector value stands for. -/
def levelOfValue (v : Int) : Level := if v > 0 then .up else if v < 0 then .down else .mid

/-- Is the number of ones (missing pulses) in data and parity bit wrong? -/
def parityWrong (par : Parity) (s : Nat → Level) : Bool :=
  let ones := ((List.range 9).filter (fun k => s (k + 1) == .mid)).length
  match par with
  | .none => false
  | .even => decide (ones % 2 = 1)
  | .odd => decide (ones % 2 = 0)

/-- Meaning of the symbols of a frame: the data byte (a missing pulse is a one), and whether the frame is bad: parity wrong, a pulse in the stop
bit, or a polarity repeated. -/
def decodeFrame (par : Parity) (s : Nat → Level) : UInt8 × Bool :=
  (byteOf (fun k => s (k + 1) == .mid), parityWrong par s || s (par.symbols - 1) != .mid || polRepeat ((List.range par.symbols).map s))

/-- How well the samples fit a frame that begins `ph` samples late: the sum of the absolute values in the places of its symbols; nothing if there is no
pulse in the place of the start bit. -/
def phaseWeight (par : Parity) (v : Nat → Int) (ph : Nat) : Nat :=
  if v ph = 0 then 0 else ((List.range par.symbols).map fun k => (v (ph + 16 * k)).natAbs).sum

end P1P2
