import Verif.Spec.Shape
/-!
# Specification: the bus as the ADC sees it

The two wires of the bus are sampled alternately, 32 codes per bit (16 of each wire).  An undisturbed wire is at code `c`;
a pulse moves one wire up and the other one down by `a` codes.  Every code may be off by one.
-/
namespace P1P2

/-- Direction of a level. -/
def Level.sign : Level → Int
  | .mid => 0
  | .up => 1
  | .down => -1

/-- Code `k` of the ADC: the even ones are taken from the wire whose samples are negated. -/
def Codes (a c : Int) (L : Nat → Level) (q : Nat → UInt8) : Prop :=
  ∀ k, let ideal := if k % 2 = 0 then c - a * (L k).sign else c + a * (L k).sign
    ideal - 1 ≤ (q k).toNat ∧ ((q k).toNat : Int) ≤ ideal + 1

/-- Sample `k` as the DMA stores it: the samples of one of the wires are negated, so the offset alternates.  (Which wire
comes first, the sign of `c`, is not fixed.) -/
def Samples (a c : Int) (L : Nat → Level) (h : Nat → Int) : Prop :=
  ∀ k, let ideal := (if k % 2 = 0 then -c else c) + a * (L k).sign
    ideal - 1 ≤ h k ∧ h k ≤ ideal + 1

/-- Delays of the start (`δ`) and the end (`ε`) of the pulse of each symbol, in codes: a pulse takes 14 to 16 codes and
starts at most two codes late. -/
def DelaysOk (δ ε : Nat → Nat) : Prop := ∀ i, ε i ≤ δ i ∧ δ i ≤ 2

/-- From code `t` on, the bus carries the given frames and nothing else: for each frame an undisturbed gap and eleven
symbols of 32 codes, each a pulse (or not) in its first half, which may be late; the last one may end four codes early. -/
def RawCarries (L : Nat → Level) : Nat → List (Nat × (Nat → Level)) → Prop
  | t, [] => ∀ k, t ≤ k → L k = .mid
  | t, (g, σ) :: fs =>
    (∀ k, t ≤ k → k < t + g → L k = .mid) ∧
    (∃ δ ε, DelaysOk δ ε ∧ ∀ j, j < 348 →
      L (t + g + j) = if δ (j / 32) ≤ j % 32 ∧ j % 32 < 16 + ε (j / 32) then σ (j / 32) else .mid) ∧
    RawCarries L (t + g + 348) fs

/-- Position after the last frame. -/
def rawEnd : Nat → List (Nat × (Nat → Level)) → Nat
  | t, [] => t
  | t, (g, _) :: fs => rawEnd (t + g + 348) fs

/-- Conditions on a packet, gaps counted in codes: at least eleven bit times before it, less in total between its bytes,
and all its bytes start with the same polarity. -/
structure BusPacket.RawOk (p : BusPacket) : Prop where
  gap : 350 ≤ p.gap
  rest : (p.rest.map fun b => b.1 + 10).sum ≤ 345
  pol : ∀ b ∈ p.rest, b.2.1 = p.pol

end P1P2
