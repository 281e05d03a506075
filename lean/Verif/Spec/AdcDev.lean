import Verif.Model.AdcDev
import Verif.Model.Core1
/-!
# Specification: what gets into the PIO and into the ring, what is sent, and runs in which nothing is lost

The vocabulary of C124 and C126.
-/
namespace P1P2
open Pio

/-- Specification: the value the ring gets for a code: every other code is negated. -/
def signed (odd : Bool) (b : UInt8) : Int := if odd then (b.toNat : Int) else -(b.toNat : Int)

/-- Specification: codes, negated and plain in turn. -/
def alternate (odd : Bool) : List UInt8 → List Int
  | [] => []
  | b :: bs => signed odd b :: alternate (!odd) bs

/-- Negated or plain after `n` more codes. -/
def turn (odd : Bool) (n : Nat) : Bool := if n % 2 = 0 then odd else !odd

/-- The values an event stores in the ring. -/
def AdcDev.stores (d : AdcDev) : HwEv → List Int
  | .convert _ => []
  | .cycle _ m2 => (d.moved2 m2).toList.map ringValue

/-- The codes that get into the PIO with an event. -/
def AdcDev.enters (d : AdcDev) : HwEv → List UInt8
  | .convert _ => []
  | .cycle m1 _ => if d.pio.tx.length < 4 then (d.moved1 m1).toList else []

/-- The values some events store in the ring. -/
def AdcDev.stored (d : AdcDev) : List HwEv → List Int
  | [] => []
  | e :: es => d.stores e ++ (d.hw e).stored es

/-- The codes that get into the PIO. -/
def AdcDev.entered (d : AdcDev) : List HwEv → List UInt8
  | [] => []
  | e :: es => d.enters e ++ (d.hw e).entered es

/-- The values stored while `Reset` has not yet stopped channel2. -/
def AdcDev.resetStores (d : AdcDev) (e : ResetEnv) : List Int :=
  d.stored e.drain ++ ((d.hws e.drain).drain.stored e.abort1 ++ ((d.hws e.drain).drain.hws e.abort1).abort1.stored e.abort2)

/-- While `channel` waits: a conversion is completed and afterwards the channel gets the bus. -/
def served (es : List HwEv) : Prop := ∃ w1 b w2 m w3, es = w1 ++ .convert b :: w2 ++ .cycle true m :: w3

/-- `channel` ends the block in time: it is done when `channel2` is, or it is served while `Update` waits.  And the ring does not get a whole
block before the count is read again. -/
def AdcDev.Prompt (d : AdcDev) (u : UpdEnv) : Prop := d.adc.tcHw = 0 → (d.tc1 = 0 ∨ served u.wait) ∧ u.mid.length < adcBlock

/-- The values stored in an iteration after the counts are compared. -/
def AdcDev.takeStores (d : AdcDev) (late : List HwEv) (rst : ResetEnv) : List Int :=
  if d.adc.tc = d.adc.tcHw then []
  else d.book.stored late ++ (if d.book.adc.err then
      (let d2 := d.book.hws late
      ({ d2 with adc := { d2.adc with off := (d2.adc.off + 1) % 256, err := false } } : AdcDev).resetStores rst) else [])

/-- All values stored in an iteration. -/
def AdcDev.iterStores (d : AdcDev) (u : UpdEnv) (rst : ResetEnv) : List Int :=
  if d.adc.tcHw = 0 then
    (d.hws u.wait).restart.stored u.mid ++ ((d.hws u.wait).restart.hws u.mid).takeStores u.late rst
  else d.takeStores u.late rst

/-- Every iteration reached ends its block in time. -/
def DevSystem.Prompt (S : Nat) (s : DevSystem) : List PathEv → Prop
  | [] => True
  | .hw e :: es => DevSystem.Prompt S { s with dev := s.dev.hw e } es
  | .iterate ready u rst :: es => s.dev.Prompt u ∧ ∀ s' o, s.step S (.iterate ready u rst) = .ok (s', o) → DevSystem.Prompt S s' es

/-- All values stored in a run. -/
def DevSystem.stores (S : Nat) (s : DevSystem) : List PathEv → List Int
  | [] => []
  | .hw e :: es => s.dev.stores e ++ DevSystem.stores S { s with dev := s.dev.hw e } es
  | .iterate ready u rst :: es => s.dev.iterStores u rst ++
      match s.step S (.iterate ready u rst) with
      | .ok (s', _) => DevSystem.stores S s' es
      | _ => []

/-- The codes that get into the PIO in an iteration after the counts are compared (without those during `Reset`). -/
def AdcDev.takeEnters (d : AdcDev) (late : List HwEv) : List UInt8 := if d.adc.tc = d.adc.tcHw then [] else d.book.entered late

/-- The codes that get into the PIO in an iteration (without those during `Reset`). -/
def AdcDev.iterEnters (d : AdcDev) (u : UpdEnv) : List UInt8 :=
  if d.adc.tcHw = 0 then
    d.entered u.wait ++ ((d.hws u.wait).restart.entered u.mid ++ ((d.hws u.wait).restart.hws u.mid).takeEnters u.late)
  else d.takeEnters u.late

/-- All codes that get into the PIO in a run (without those during `Reset`). -/
def DevSystem.enters (S : Nat) (s : DevSystem) : List PathEv → List UInt8
  | [] => []
  | .hw e :: es => s.dev.enters e ++ DevSystem.enters S { s with dev := s.dev.hw e } es
  | .iterate ready u rst :: es => s.dev.iterEnters u ++
      match s.step S (.iterate ready u rst) with
      | .ok (s', _) => DevSystem.enters S s' es
      | _ => []

/-- The loop keeps up: no block ends, and at every iteration that takes a sample at most 254 samples wait when the ring is read (those that arrive during the iteration included). -/
def DevSystem.KeepsUp (S : Nat) (s : DevSystem) : List PathEv → Prop
  | [] => s.dev.adc.tcHw ≠ 0
  | .hw e :: es => s.dev.adc.tcHw ≠ 0 ∧ DevSystem.KeepsUp S { s with dev := s.dev.hw e } es
  | .iterate ready u rst :: es => s.dev.adc.tcHw ≠ 0 ∧
      (s.dev.adc.tc ≠ s.dev.adc.tcHw → (s.dev.book.hws u.late).adc.tcHw ≠ 0 ∧ s.dev.adc.tc ≤ (s.dev.book.hws u.late).adc.tcHw + 254) ∧
      ∀ s' o, s.step S (.iterate ready u rst) = .ok (s', o) → DevSystem.KeepsUp S s' es

/-- The results of the conversions that are completed. -/
def HwEv.codes : List HwEv → List UInt8
  | [] => []
  | .convert b :: es => b :: HwEv.codes es
  | .cycle .. :: es => HwEv.codes es

/-- No code is lost: every conversion finds room in the FIFO of the ADC, and every code that is moved finds room in the FIFO of the state machine. -/
def AdcDev.Lossless (d : AdcDev) : List HwEv → Prop
  | [] => True
  | .convert b :: es => d.fifo.length < 4 ∧ (d.hw (.convert b)).Lossless es
  | .cycle m1 m2 :: es => ((d.moved1 m1).isSome → d.pio.tx.length < 4) ∧ (d.hw (.cycle m1 m2)).Lossless es

/-- No code is lost in a run (without resets and ends of blocks). -/
def DevSystem.Lossless (S : Nat) (s : DevSystem) : List PathEv → Prop
  | [] => True
  | .hw e :: es => s.dev.Lossless [e] ∧ DevSystem.Lossless S { s with dev := s.dev.hw e } es
  | .iterate ready u rst :: es => (s.dev.adc.tc ≠ s.dev.adc.tcHw → s.dev.book.Lossless u.late) ∧
      ∀ s' o, s.step S (.iterate ready u rst) = .ok (s', o) → DevSystem.Lossless S s' es

/-- The results of the conversions in a run (without resets and ends of blocks).  An iteration that finds no new sample takes no time here: what the hardware does
during it is an event before or after it. -/
def DevSystem.converted (S : Nat) (s : DevSystem) : List PathEv → List UInt8
  | [] => []
  | .hw e :: es => HwEv.codes [e] ++ DevSystem.converted S { s with dev := s.dev.hw e } es
  | .iterate ready u rst :: es => (if s.dev.adc.tc = s.dev.adc.tcHw then [] else HwEv.codes u.late) ++
      match s.step S (.iterate ready u rst) with
      | .ok (s', _) => DevSystem.converted S s' es
      | _ => []

/-- Grants of the bus that serve a sample: the first channel gets the bus, 37 cycles later (or more) the second one does, and two more cycles pass. -/
def Serves (ms : List (Bool × Bool)) : Prop := ∃ A x B y C, ms = A ++ (true, x) :: (B ++ (y, true) :: C) ∧ 37 ≤ B.length ∧ 2 ≤ C.length

/-- The cycles with these grants of the bus. -/
def cycles (ms : List (Bool × Bool)) : List HwEv := ms.map fun m => .cycle m.1 m.2

/-- The values that arrive with some events. -/
def RxEv.values : RxEv → List Int
  | .transfer v => [v]
  | .iterate _ late => late

/-- The words that are sent, and whether each was dropped. -/
def sends (outs : List C1Out) : List (Word × Bool) := outs.filterMap fun o => o.word.map fun w => (w, o.dropped)

end P1P2
