import Verif.Basic
/-!
# Reference formulas of the signal chain

A signal is a function of the sample number; `past x t` extends it by 0 before its beginning.
-/
namespace P1P2

/-- The signal with a silent past. -/
def past (x : Nat → Int) (t : Int) : Int := if t < 0 then 0 else x t.toNat

/-- Feed the first `n` samples of a signal to a component; the outputs in order. -/
def feed {σ α β : Type} (step : σ → α → Res (σ × β)) (s : σ) (x : Nat → α) : Nat → Res (σ × List β)
  | 0 => .ok (s, [])
  | n + 1 => do
    let r ← feed step s x n
    let q ← step r.1 (x n)
    .ok (q.1, r.2 ++ [q.2])

/-- Seven-tap symmetric low pass, scaled by 2^-15, rounding down. -/
def firRef (x : Nat → Int) (k : Nat) : Int :=
  (-2339 * (past x k + past x (k - 6)) + 1817 * (past x (k - 1) + past x (k - 5)) +
    9984 * (past x (k - 2) + past x (k - 4)) + 14313 * past x (k - 3)) / 32768

/-- Sum of the seven samples 8 to 14 samples ago. -/
def pulseSum (y : Int → Int) (k : Int) : Int :=
  y (k - 14) + y (k - 13) + y (k - 12) + y (k - 11) + y (k - 10) + y (k - 9) + y (k - 8)

/-- Energy outside the pulse: the sample 15 samples ago and the six latest ones. -/
def outsideSum (y : Int → Int) (k : Int) : Int :=
  (y (k - 15)).natAbs + (y (k - 5)).natAbs + (y (k - 4)).natAbs + (y (k - 3)).natAbs + (y (k - 2)).natAbs +
    (y (k - 1)).natAbs + (y k).natAbs

/-- Pulse detector with threshold 4921. -/
def pulseRef (y : Int → Int) (k : Int) : Int :=
  if pulseSum y k - outsideSum y k ≥ 4921 then pulseSum y k - outsideSum y k
  else if -pulseSum y k - outsideSum y k ≥ 4921 then pulseSum y k + outsideSum y k
  else 0

/-- Number of the last `N` samples (before sample `n`) whose magnitude exceeds `level`. -/
def loudCount (x : Nat → Int) (level : Int) (N n : Nat) : Nat :=
  ((List.range N).filter (fun (i : Nat) => decide (((past x ((n : Int) - 1 - (i : Int))).natAbs : Int) > level))).length

/-- First order high pass in 8.8 fixed point, state after `n` samples:
`y[n] = 256 (x[n] - x[n-1]) + floor (254 y[n-1] / 256)`. -/
def dcState (x : Nat → Int) : Nat → Int
  | 0 => 0
  | n + 1 => 256 * (x n - past x (n - 1)) + 254 * dcState x n / 256

/-- Output `k` of the high pass. -/
def dcRef (x : Nat → Int) (k : Nat) : Int := dcState x (k + 1) / 256

end P1P2
