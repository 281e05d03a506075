import Verif.Proofs.FrontBase
/-!
# The shape of the pulses behind the DC blocker
-/
namespace P1P2

/-- Limits behind the DC blocker at amplitude `A`. -/
def frontShape (A : Int) : Shape :=
  { lo := (901 * A - 137212) / 1024, hi := (1170 * A + 137212) / 1024, edge := (800 * A + 137212) / 1024, quiet := (138 * A + 137212) / 1024 }

theorem frontShape_tol {a : Int} (h1 : 49 ≤ a) (h2 : a ≤ 88) : (frontShape (39 * a)).Tol := by
  constructor <;> simp only [frontShape] <;> omega

theorem front_near {A : Int} {x : Nat → Int} {k : Nat} (h : BaseOk A (dcB x k)) :
    1024 * (dcRef x k - x k) ≤ 90 * A + 69628 ∧ 1024 * (x k - dcRef x k) ≤ 90 * A + 69628 := by
  have := dcRef_eq x k
  obtain ⟨h1, h2⟩ := h
  omega

/-- Little enough disturbance for an undisturbed sample behind the DC blocker. -/
def Calmish (A v : Int) : Prop := -(48 * A + 67584) ≤ 1024 * v ∧ 1024 * v ≤ 48 * A + 67584

theorem calm_quiet {A : Int} {x : Nat → Int} {k : Nat} (h : BaseOk A (dcB x k)) (hx : Calmish A (x k)) :
    (frontShape A).Quiet (dcRef x k) := by
  have := front_near h
  unfold Calmish at hx
  unfold Shape.Quiet frontShape
  dsimp only
  omega

theorem calm_of_le {A v : Int} (hA : 0 ≤ A) (h : -66 ≤ v ∧ v ≤ 66) : Calmish A v := by unfold Calmish; omega

set_option synthInstance.maxSize 1000 in
set_option synthInstance.maxHeartbeats 100000 in
theorem pulse_calm {d e : Nat} (ho : OffsOk d e) : ∀ i, i < 16 → (i < 2 + d / 2 ∨ 11 + e / 2 ≤ i) →
    -48 ≤ pulseLo d e i ∧ pulseHi d e i ≤ 48 := by
  refine forall_offs (P := fun d e => ∀ i, i < 16 → (i < 2 + d / 2 ∨ 11 + e / 2 ≤ i) → -48 ≤ pulseLo d e i ∧ pulseHi d e i ≤ 48) ?_ ho
  decide +kernel
set_option synthInstance.maxSize 1000 in
set_option synthInstance.maxHeartbeats 100000 in
theorem pulse_top {d e : Nat} (ho : OffsOk d e) : ∀ i, i < 16 → 3 + d / 2 ≤ i → i < 10 + e / 2 → 991 ≤ pulseLo d e i ∧ pulseHi d e i ≤ 1080 := by
  refine forall_offs (P := fun d e => ∀ i, i < 16 → 3 + d / 2 ≤ i → i < 10 + e / 2 → 991 ≤ pulseLo d e i ∧ pulseHi d e i ≤ 1080) ?_ ho
  decide +kernel
set_option synthInstance.maxSize 1000 in
set_option synthInstance.maxHeartbeats 100000 in
theorem pulse_edge {d e : Nat} (ho : OffsOk d e) : ∀ i, i < 16 → (i = 2 + d / 2 ∨ i = 10 + e / 2) → 0 ≤ pulseLo d e i ∧ pulseHi d e i ≤ 710 := by
  refine forall_offs (P := fun d e => ∀ i, i < 16 → (i = 2 + d / 2 ∨ i = 10 + e / 2) → 0 ≤ pulseLo d e i ∧ pulseHi d e i ≤ 710) ?_ ho
  decide +kernel

theorem PreSymbol.calm {A : Int} (hA : 0 ≤ A) {l : Level} {d e i : Nat} {v : Int} (ho : OffsOk d e) (h : PreSymbol A l d e i v) (h2 : i < 2) :
    Calmish A v := by
  obtain ⟨p1, p4⟩ := pulse_calm ho i (by omega) (Or.inl (by omega))
  have q1 := Int.mul_le_mul_of_nonneg_right p1 hA
  have q4 := Int.mul_le_mul_of_nonneg_right p4 hA
  cases l with
  | mid => exact calm_of_le hA h
  | up =>
    obtain ⟨a, b⟩ := h
    generalize pulseLo d e i * A = p at *; generalize pulseHi d e i * A = q at *
    unfold Calmish; omega
  | down =>
    obtain ⟨a, b⟩ := h
    generalize pulseLo d e i * A = p at *; generalize pulseHi d e i * A = q at *
    unfold Calmish; omega

/-- A pulse behind the DC blocker. -/
theorem pulse_shape {A : Int} (hA : 0 ≤ A) {d e j : Nat} (ho : OffsOk d e) (hj : j < 14) {v z : Int} (h : PrePulse A d e (j + 2) v)
    (hz : 1024 * (z - v) ≤ 90 * A + 69628 ∧ 1024 * (v - z) ≤ 90 * A + 69628) : (frontShape A).Pulse (d / 2) (e / 2) j z := by
  obtain ⟨a, b⟩ := h
  unfold Shape.Pulse
  split
  · obtain ⟨p1, p2⟩ := pulse_edge ho (j + 2) (by omega) (by omega)
    have q1 := Int.mul_le_mul_of_nonneg_right p1 hA
    have q2 := Int.mul_le_mul_of_nonneg_right p2 hA
    generalize pulseLo d e (j + 2) * A = p at *; generalize pulseHi d e (j + 2) * A = q at *
    unfold frontShape; dsimp only; omega
  · split
    · obtain ⟨p1, p2⟩ := pulse_top ho (j + 2) (by omega) (by omega) (by omega)
      have q1 := Int.mul_le_mul_of_nonneg_right p1 hA
      have q2 := Int.mul_le_mul_of_nonneg_right p2 hA
      generalize pulseLo d e (j + 2) * A = p at *; generalize pulseHi d e (j + 2) * A = q at *
      unfold frontShape; dsimp only; omega
    · obtain ⟨p1, p4⟩ := pulse_calm ho (j + 2) (by omega) (by omega)
      have q1 := Int.mul_le_mul_of_nonneg_right p1 hA
      have q2 := Int.mul_le_mul_of_nonneg_right p4 hA
      generalize pulseLo d e (j + 2) * A = p at *; generalize pulseHi d e (j + 2) * A = q at *
      unfold Shape.Quiet frontShape; dsimp only; omega

theorem symbol_shape {A : Int} (hA : 0 ≤ A) {x : Nat → Int} {k d e j : Nat} (ho : OffsOk d e) (hj : j < 14) {l : Level} (h : PreSymbol A l d e (j + 2) (x k))
    (hb : BaseOk A (dcB x k)) : (frontShape A).Symbol l (d / 2) (e / 2) j (dcRef x k) := by
  have hn := front_near hb
  cases l with
  | mid => exact calm_quiet hb (calm_of_le hA h)
  | up => exact pulse_shape hA ho hj h hn
  | down => exact pulse_shape hA ho hj h (by omega)

theorem quiet_symbol {s : Shape} (hq : s.quiet ≤ s.edge) {l : Level} {o o' j : Nat} (ho : o' ≤ o ∧ o ≤ 1) (hj : 10 ≤ j) {v : Int} (h : s.Quiet v) : s.Symbol l o o' j v := by
  unfold Shape.Quiet at h
  cases l with
  | mid => exact h
  | up =>
    show s.Pulse o o' j v
    unfold Shape.Pulse
    split
    · omega
    · rw [if_neg (by omega)]; exact h
  | down =>
    show s.Pulse o o' j (-v)
    unfold Shape.Pulse
    split
    · omega
    · rw [if_neg (by omega)]; unfold Shape.Quiet; omega

/-- The first two samples of what is carried are undisturbed. -/
theorem PreCarries.calm {A : Int} (hA : 0 ≤ A) {x : Nat → Int} {t : Nat} {fs : List (Nat × (Nat → Level))} (h : PreCarries A x t fs)
    {k : Nat} (h1 : t ≤ k) (h2 : k < t + 2) : Calmish A (x k) := by
  cases fs with
  | nil => exact calm_of_le hA (h k h1)
  | cons f fs =>
    obtain ⟨g, σ⟩ := f
    obtain ⟨c1, ⟨d, e, ho, c2⟩, -⟩ := h
    by_cases hk : k < t + g
    · exact calm_of_le hA (c1 k h1 hk)
    · have := c2 (k - (t + g)) (by omega)
      rw [show t + g + (k - (t + g)) = k by omega] at this
      exact this.calm hA (ho _) (by omega)

theorem front_carries {A : Int} (hA : 0 ≤ A) {x : Nat → Int} : ∀ (fs : List (Nat × (Nat → Level))) {t : Nat}, PreCarries A x t fs →
    (∀ k, t ≤ k → BaseOk A (dcB x k)) → (frontShape A).Carries (dcRef x) (t + 2) fs := by
  intro fs
  have hqe : (frontShape A).quiet ≤ (frontShape A).edge := by simp only [frontShape]; omega
  induction fs with
  | nil =>
    intro t hc hb k hk
    exact calm_quiet (hb k (by omega)) (calm_of_le hA (hc k (by omega)))
  | cons f fs ih =>
    obtain ⟨g, σ⟩ := f
    intro t hc hb
    obtain ⟨c1, ⟨d, e, ho, c2⟩, c3⟩ := hc
    have hoo : EdgesOk (fun i => d i / 2) (fun i => e i / 2) := fun i => by
      have := ho i
      unfold OffsOk at this
      dsimp only
      omega
    refine ⟨fun k h1 h2 => ?_, ⟨_, _, hoo, fun j hj => ?_⟩, ?_⟩
    · refine calm_quiet (hb k (by omega)) ?_
      by_cases hk : k < t + g
      · exact calm_of_le hA (c1 k (by omega) hk)
      · have := c2 (k - (t + g)) (by omega)
        rw [show t + g + (k - (t + g)) = k by omega] at this
        exact this.calm hA (ho _) (by omega)
    · by_cases hj' : j % 16 < 14 ∧ j < 172
      · have := c2 (j + 2) (by omega)
        rw [show (j + 2) / 16 = j / 16 by omega, show (j + 2) % 16 = j % 16 + 2 by omega, show t + g + (j + 2) = t + 2 + g + j by omega] at this
        exact symbol_shape hA (ho _) hj'.1 this (hb _ (by omega))
      · refine quiet_symbol hqe (hoo _) (by omega) (calm_quiet (hb _ (by omega)) ?_)
        by_cases h2 : j < 172
        · have := c2 (j + 2) (by omega)
          rw [show t + g + (j + 2) = t + 2 + g + j by omega] at this
          exact this.calm hA (ho _) (by omega)
        · exact c3.calm hA (by omega) (by omega)
    · have := ih c3 (fun k hk => hb k (by omega))
      rwa [show t + 2 + g + 174 = t + g + 174 + 2 by omega]

end P1P2
