import Verif.Basic
/-!
# The rates set at the start

The divider of the transmitter and that of the ADC.  Numbers of type `float` are fractions `n / d`; each operation that rounds gives any number within half a unit in the last place (`Near`).
-/
namespace P1P2

/-- `r / s` is what single-precision arithmetic may give for `p / q`: the relative error is at most 2^-24. -/
def Near (p q r s : Nat) : Prop := 0 < s ∧ 16777215 * (p * s) ≤ 16777216 * (r * q) ∧ 16777216 * (r * q) ≤ 16777217 * (p * s)

/-- p1p2_uart_tx.pio:125, `(float)clock_get_hz(clk_sys) / (16 * baud)`, with baud = UART_BAUD_RATE = 9600 (defines.hpp:13, uart_pio.cpp): `n / d` is what it may give. -/
def SetDiv (hz n d : Nat) : Prop := ∃ r s, Near hz 1 r s ∧ Near r (16 * 9600 * s) n d

/-- p1p2_uart_tx.pio:126, `sm_config_set_clkdiv`: the integer part in 16 bits, eight bits of the fraction; a state machine with the integer part 0 divides by 65536.  The result is in units of
1/256.  (The SDK is not in the repository; its newer versions add 1/512 before, with a further rounding, see `SetRegs`.) -/
def clkdivRegs (n d : Nat) : Nat := 256 * (if n / d % 65536 = 0 then 65536 else n / d % 65536) + n % d * 256 / d % 256

/-- The divider of the state machine, in units of 1/256, that may result from the float `n / d`, with either version of the SDK. -/
def SetRegs (n d N : Nat) : Prop := N = clkdivRegs n d ∨ ∃ r s, Near (512 * n + d) (512 * d) r s ∧ N = clkdivRegs r s

/-- adc.cpp:67, `adc_set_clkdiv(48000000 / (UART_BAUD_RATE * ADC_OVERSAMPLING_RATE))` (integers; defines.hpp:6-13): a conversion takes one cycle of 48 MHz more than the divider. -/
def adcCycles : Nat := 48000000 / (9600 * (16 * 2)) + 1

/-- The cycles of the state machine: the system clock has the period `u`, the divider is `N / 256`; a cycle begins when the accumulated fraction passes the next integer.  The start is at time `t0`,
with some fraction `f`. -/
def clockWith (N u t0 f : Nat) (k : Nat) : Nat := t0 + u * ((N * k + f) / 256)

end P1P2
