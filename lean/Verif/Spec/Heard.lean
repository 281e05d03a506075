import Verif.Spec.Times
import Verif.Spec.TxDev
/-!
# Specification: when the words of messages handed to the driver come

The frame of byte `j` of a message handed over before cycle `n` begins in cycle `n + 1 + 175 j`; cycle `k` begins at time `c k`.
-/
namespace P1P2

/-- The words of bytes whose frames begin in the cycles `s`, `s + 175`, ... -/
def FramesHeard (P : Nat) (c : Nat → Nat) : Nat → List UInt8 → List (Nat × Word) → Prop
  | _, [], ts => ts = []
  | s, b :: bs, ts => ∃ k ts', ts = (k, wByte b) :: ts' ∧ c s + 359 * P ≤ k * P ∧ k * P ≤ c s + 367 * P ∧ FramesHeard P c (s + 175) bs ts'

/-- The words of messages, in order; `t` is the end of the one before. -/
def MessagesHeard (P : Nat) (c : Nat → Nat) : Nat → List (Nat × Message) → List (Nat × Word) → Prop
  | t, [], ts => ∃ f, ts = [(f, wFree)] ∧ t + 2 * P ≤ f * P ∧ f * P ≤ t + 376 * P
  | t, (n, m) :: ms, ts => ∃ f b ts1 ts2, ts = (f, wFree) :: (b, wBusy) :: (ts1 ++ ts2) ∧ t + 2 * P ≤ f * P ∧ f * P ≤ t + 376 * P ∧
      c (n + 1) + 25 * P ≤ b * P ∧ b * P ≤ c (n + 1) + 33 * P ∧ FramesHeard P c (n + 1) m.bytes ts1 ∧
      MessagesHeard P c (c (finalStart n m) + 348 * P) ms ts2

/-- As `Plays`, during the cycles of `w`. -/
def PlaysDuring (c : Nat → Nat) (w : List (Level × Bool)) (L : Nat → Level) : Prop :=
  (∀ τ, τ < c 0 → L τ = .mid) ∧ ∀ k v, w[k]? = some v → ∀ τ, c k ≤ τ → τ < c (k + 1) → L τ = v.1

end P1P2
