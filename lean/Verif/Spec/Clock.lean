import Verif.Spec.Shape
/-!
# Specification: a bus with its own clock

The sender and the sampling of the receiver run from different clocks: a bit takes `T` units of time, a pulse `W`, and a
sample is taken every `P` units.  Nothing is aligned.
-/
namespace P1P2

/-- The level of the bus at time `τ`: the frames start at the given times, a frame is eleven symbols of `T` units, a symbol a
pulse (or not) in its first `W` units. -/
def busLevel (T W : Nat) : List (Nat × (Nat → Level)) → Nat → Level
  | [], _ => .mid
  | (s, σ) :: fs, τ =>
    if s ≤ τ ∧ τ < s + 11 * T then (if (τ - s) % T < W then σ ((τ - s) / T) else .mid) else busLevel T W fs τ

/-- A sample of a level: within `quiet` for the undisturbed line, between `lo` and `hi` (in the direction of the pulse) in a pulse. -/
def Shape.Sample (s : Shape) (l : Level) (v : Int) : Prop :=
  match l with
  | .mid => s.Quiet v
  | .up => s.lo ≤ v ∧ v ≤ s.hi
  | .down => s.lo ≤ -v ∧ -v ≤ s.hi

/-- Frames (start time, polarity of the first pulse, byte) do not overlap; consecutive ones start at most `D` apart. -/
def Spaced (T D : Nat) : Nat → List (Nat × Bool × UInt8) → Prop
  | _, [] => True
  | t, (s, _, _) :: bs => t ≤ s ∧ s ≤ t + D ∧ (∀ b ∈ bs.head?, s + 11 * T ≤ b.1) ∧ Spaced T D s bs

/-- Start of the last frame. -/
def lastStart : Nat → List (Nat × Bool × UInt8) → Nat
  | t, [] => t
  | _, (s, _, _) :: bs => lastStart s bs

/-- The clocks agree well enough: over a frame they drift apart by less than one sample, the error of the pulse width included. -/
structure ClockOk (P T W : Nat) : Prop where
  pos : 0 < P
  drift : 9 * ((T : Int) - 16 * P).natAbs + ((W : Int) - 8 * P).natAbs ≤ P

/-- Levels the receiver tolerates on such a bus. -/
structure Shape.Loud (s : Shape) : Prop where
  min : 1400 ≤ s.lo
  le : s.lo ≤ s.hi
  max : s.hi ≤ 4681
  edge : s.edge = s.hi
  quiet0 : 0 ≤ s.quiet
  quiet : s.quiet ≤ 599
  late : 256 * (3 * s.hi) + 15 * (26 * s.quiet + 255) < 256 * (4 * s.lo)
  early : 256 * (4921 + s.hi) + 8 * (26 * s.quiet + 255) ≤ 256 * (5 * s.lo)
  wide : 256 * (4921 + 2 * s.hi) + 7 * (26 * s.quiet + 255) ≤ 256 * (6 * s.lo)

end P1P2
