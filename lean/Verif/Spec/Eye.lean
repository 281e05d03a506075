import Verif.Spec.Raw
/-!
# Specification: a mask for the pulses on the bus

Times are counted in any unit; the ADC takes a code every `P` units, at the times 0, `P`, `2 P`, ...  The sender has a clock of its own, and its edges may
jitter: all that is asked for is that every pulse covers a window of a regular grid and has about the right width.
-/
namespace P1P2

/-- Symbol `i` of a frame with reference time `X` is `l`: in the cell of the symbol, which takes the time of 32 codes from `2 P` before the grid point `X + 32 i P` on, the level of the line is
`l` from some time `u` to some time `v`, and in the middle otherwise.  The pulse covers the time of 14 codes from the grid point on, and takes the time of at most 16 codes.
(No pulse: the line is in the middle.) -/
def EyeSymbol (P X : Nat) (L : Nat → Level) (i : Nat) (l : Level) : Prop :=
  (l = .mid ∧ ∀ τ, X + 32 * i * P ≤ τ + 2 * P → τ + 2 * P < X + (32 * i + 32) * P → L τ = .mid) ∨
  ∃ u v, u ≤ X + 32 * i * P ∧ X + (32 * i + 14) * P ≤ v ∧ v ≤ u + 16 * P ∧
    ∀ τ, X + 32 * i * P ≤ τ + 2 * P → τ + 2 * P < X + (32 * i + 32) * P → L τ = if u ≤ τ ∧ τ < v then l else .mid

/-- A frame: ten symbols and the beginning of the stop bit, in all the time of 348 codes. -/
def EyeFrame (P X : Nat) (σ : Nat → Level) (L : Nat → Level) : Prop :=
  (∀ i < 10, EyeSymbol P X L i (σ i)) ∧ ∀ τ, X + 320 * P ≤ τ + 2 * P → τ + 2 * P < X + 348 * P → L τ = .mid

/-- From time `t - 2 P` on the line carries the given frames and nothing else: for each frame a gap (the reference time of a frame is `348 P` and the gap after that of the one before). -/
def EyeCarries (P : Nat) (L : Nat → Level) : Nat → List (Nat × (Nat → Level)) → Prop
  | t, [] => ∀ τ, t ≤ τ + 2 * P → L τ = .mid
  | t, (g, σ) :: fs =>
    (∀ τ, t ≤ τ + 2 * P → τ + 2 * P < t + g → L τ = .mid) ∧ EyeFrame P (t + g) σ L ∧ EyeCarries P L (t + g + 348 * P) fs

/-- Time `348 P` after the reference time of the last frame. -/
def eyeEnd {α : Type} (P : Nat) : Nat → List (Nat × α) → Nat
  | t, [] => t
  | t, (g, _) :: fs => eyeEnd P (t + g + 348 * P) fs

/-- Conditions on a packet: silence for the time of 352 codes before it, less within it, and all its bytes start with the same polarity. -/
structure BusPacket.EyeOk (P : Nat) (p : BusPacket) : Prop where
  gap : 352 * P ≤ p.gap
  rest : (p.rest.map fun b => b.1 + 10 * P).sum ≤ 345 * P
  pol : ∀ b ∈ p.rest, b.2.1 = p.pol

end P1P2
