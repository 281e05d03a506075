import Verif.Model.Dsp
/-!
# Model of the convolution based pulse detector

pico/src/uart_bit_detect.hpp, which the detector in use "implements faster" (uart_bit_detect_fast.hpp:9-10).  The file is not included
anywhere, and its constructor (lines 25-30) calls constructors of `ShiftReg` that do not exist any more; modelled is the computation,
with registers that start zeroed, respectively with the coefficients.
-/
namespace P1P2

/-- uart_bit_detect.hpp:9-11 -/
def oldAbs : Nat → Int := fun i => [-1, 0, 0, 0, 0, 0, 0, 0, 0, 0, -1, -1, -1, -1, -1, -1].getD i 0
/-- uart_bit_detect.hpp:13-15 -/
def oldHigh : Nat → Int := fun i => [0, 1, 1, 1, 1, 1, 1, 1, 0, 0, 0, 0, 0, 0, 0, 0].getD i 0
/-- uart_bit_detect.hpp:17-19 -/
def oldLow : Nat → Int := fun i => [0, -1, -1, -1, -1, -1, -1, -1, 0, 0, 0, 0, 0, 0, 0, 0].getD i 0

/-- uart_bit_detect.hpp:56-61 -/
structure OldDetect where
  reg : ShiftReg Int
  regAbs : ShiftReg Int
  absolute : ShiftReg Int
  high : ShiftReg Int
  low : ShiftReg Int

/-- uart_bit_detect.hpp:25-30 (as intended, see above) -/
def OldDetect.init : OldDetect :=
  { reg := ShiftReg.zero, regAbs := ShiftReg.zero, absolute := ShiftReg.mk' 16 oldAbs, high := ShiftReg.mk' 16 oldHigh, low := ShiftReg.mk' 16 oldLow }

/-- uart_bit_detect.hpp:35-53 `Update`; the outputs `probability_high`, `probability_low`, each converted to `int16_t`. -/
def OldDetect.update (d : OldDetect) (x : Int) : Res (OldDetect × Int × Int) := do
  let r ← d.reg.push 16 x
  let val := toI16 (if x < 0 then -x else x)
  let ra ← d.regAbs.push 16 val
  let a ← convolute 16 ra.1 d.absolute
  let l ← convolute 16 r.1 d.low
  let h ← convolute 16 r.1 d.high
  let ph ← i32 (a + h)
  let pl ← i32 (a + l)
  .ok ({ d with reg := r.1, regAbs := ra.1 }, toI16 ph, toI16 pl)

end P1P2
