import Verif.Spec.Line
/-!
# Specification: what the transmit pins do

A reference transmitter.  While it has nothing to send the line is in the middle and the busy flag is clear.  When
a byte is available it sends, starting in the next cycle, the frame of the byte with the busy flag set; the
line is in the middle for at least two cycles with the flag clear before the next frame.
-/
namespace P1P2

/-- Cycles of a frame with busy flag set: ten bits of 16 cycles and 13 cycles of the stop bit. -/
def frameCycles : Nat := 173

/-- Line level and busy flag during the frame of a byte and the first idle cycle after it. -/
def burst (b : UInt8) : List (Level × Bool) :=
  ((frameWave b).take frameCycles).map (fun l => (l, true)) ++ [(.mid, false)]

/-- Reference transmitter: the rest of the current burst and the waiting bytes. -/
structure TxRef where
  rest : List (Level × Bool)
  fifo : List UInt8

/-- After reset there is one idle cycle. -/
def TxRef.init : TxRef := { rest := [(.mid, false)], fifo := [] }

/-- A byte (if any) arrives, at most eight wait. -/
def TxRef.arrive (fifo : List UInt8) : Option UInt8 → List UInt8
  | some b => if fifo.length < 8 then fifo ++ [b] else fifo
  | none => fifo

/-- One cycle: the output and the new state. -/
def TxRef.cycle (r : TxRef) (put : Option UInt8) : (Level × Bool) × TxRef :=
  let f := arrive r.fifo put
  match r.rest with
  | o :: rest => (o, { rest := rest, fifo := f })
  | [] => ((.mid, false), match f with
    | [] => { rest := [], fifo := [] }
    | b :: q => { rest := burst b, fifo := q })

/-- Outputs of a run. -/
def TxRef.outputs (r : TxRef) : List (Option UInt8) → List (Level × Bool)
  | [] => []
  | p :: ps => (r.cycle p).1 :: outputs (r.cycle p).2 ps

/-- Idle line for `g + 1` cycles, then the frame of byte `b`, for each pair, then an idle line for ever. -/
def bursts (gs : List (Nat × UInt8)) : List (Level × Bool) :=
  gs.flatMap fun gb => List.replicate (gb.1 + 1) (.mid, false) ++ burst gb.2

end P1P2
