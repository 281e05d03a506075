import Verif.Spec.Raw
/-!
# Specification: a line whose frames survive the loss of a sample

As `RawCarries` (`Verif/Spec/Raw.lean`), with less tolerance: every gap is at least one code long and every edge is at most
one code late.
-/
namespace P1P2

/-- From code `t` on, the bus carries the given frames and nothing else; every pulse starts and ends at most one code late. -/
def TightCarries (L : Nat → Level) : Nat → List (Nat × (Nat → Level)) → Prop
  | t, [] => ∀ k, t ≤ k → L k = .mid
  | t, (g, σ) :: fs =>
    1 ≤ g ∧ (∀ k, t ≤ k → k < t + g → L k = .mid) ∧
    (∃ δ ε : Nat → Nat, (∀ i, ε i ≤ δ i ∧ δ i ≤ 1) ∧ ∀ j, j < 348 →
      L (t + g + j) = if δ (j / 32) ≤ j % 32 ∧ j % 32 < 16 + ε (j / 32) then σ (j / 32) else .mid) ∧
    TightCarries L (t + g + 348) fs

/-- The levels of code `J` and of the two codes before are the same. -/
def NoEdge (L : Nat → Level) (J : Nat) : Prop := ∀ k, k ≤ J → J ≤ k + 2 → L k = L J

end P1P2
