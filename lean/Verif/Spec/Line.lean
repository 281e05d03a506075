import Verif.Basic
/-!
# Specification: the P1P2 line code

README / p1p2_uart_tx.pio:16-20: a frame is a start bit (0), eight data bits LSB first, an even parity bit and a stop
bit (1).  A "1" does not change the line, a "0" is a pulse of alternating polarity in the first half of the bit.
-/
namespace P1P2

/-- State of the differential line. -/
inductive Level where
  | mid | up | down
deriving DecidableEq, Repr

/-- bit `k` of a byte -/
def bitOf (b : UInt8) (k : Nat) : Bool := b.toNat.testBit k

/-- number of ones in a byte -/
def onesOf (b : UInt8) : Nat := ((List.range 8).filter (bitOf b)).length

/-- The eleven bits of a frame: start, data LSB first, even parity, stop. -/
def frameBits (b : UInt8) : List Bool :=
  [false] ++ (List.range 8).map (bitOf b) ++ [onesOf b % 2 == 1] ++ [true]

/-- Alternating pulses for zeros, nothing for ones; `pol` is the polarity of the next pulse. -/
def ami (pol : Bool) : List Bool → List Level
  | [] => []
  | true :: bs => .mid :: ami pol bs
  | false :: bs => (if pol then .up else .down) :: ami (!pol) bs

/-- The eleven symbols of a frame; the first pulse is positive. -/
def frameSymbols (b : UInt8) : List Level := ami true (frameBits b)

/-- One bit of 16 samples: the level in the first half, back to the middle in the second. -/
def bitWave (l : Level) : List Level := List.replicate 8 l ++ List.replicate 8 .mid

/-- A whole frame of 11 bits, 176 samples. -/
def frameWave (b : UInt8) : List Level := (frameSymbols b).flatMap bitWave

end P1P2
