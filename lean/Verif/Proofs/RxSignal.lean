import Verif.Proofs.RxDecode
/-!
# The pulse detector on in-tolerance pulses
-/
namespace P1P2

/-- Magnitude of a sample. -/
def mag (y : Int → Int) (j : Int) : Int := (y j).natAbs

theorem mag_nonneg (y : Int → Int) (j : Int) : 0 ≤ mag y j := by unfold mag; omega
theorem le_mag (y : Int → Int) (j : Int) : y j ≤ mag y j ∧ -mag y j ≤ y j := by unfold mag; omega

/-- Sum of the magnitudes in the pulse part of the window. -/
def magSum (y : Int → Int) (k : Int) : Int :=
  mag y (k - 14) + mag y (k - 13) + mag y (k - 12) + mag y (k - 11) + mag y (k - 10) + mag y (k - 9) + mag y (k - 8)

theorem outside_mag (y : Int → Int) (k : Int) : outsideSum y k =
    mag y (k - 15) + mag y (k - 5) + mag y (k - 4) + mag y (k - 3) + mag y (k - 2) + mag y (k - 1) + mag y k := rfl

theorem pulseSum_le (y : Int → Int) (k : Int) : pulseSum y k ≤ magSum y k ∧ -magSum y k ≤ pulseSum y k := by
  have := le_mag y (k - 14); have := le_mag y (k - 13); have := le_mag y (k - 12); have := le_mag y (k - 11)
  have := le_mag y (k - 10); have := le_mag y (k - 9); have := le_mag y (k - 8)
  unfold pulseSum magSum
  omega

theorem pulse_zero {y : Int → Int} {k : Int} (h : magSum y k - outsideSum y k < 4921) : pulseRef y k = 0 := by
  have := pulseSum_le y k
  unfold pulseRef
  rw [if_neg (by omega), if_neg (by omega)]

theorem pulse_bound {y : Int → Int} {k B : Int} (hB : 0 ≤ B) (h : magSum y k - outsideSum y k ≤ B) :
    -B ≤ pulseRef y k ∧ pulseRef y k ≤ B := by
  have := pulseSum_le y k
  unfold pulseRef
  split
  · omega
  · split <;> omega

theorem pulse_up {y : Int → Int} {k : Int} (h : pulseSum y k - outsideSum y k ≥ 4921) :
    pulseRef y k = pulseSum y k - outsideSum y k := by
  unfold pulseRef
  rw [if_pos h]

theorem pulse_down {y : Int → Int} {k : Int} (h : -pulseSum y k - outsideSum y k ≥ 4921) :
    pulseRef y k = pulseSum y k + outsideSum y k := by
  have h2 := outsideSum_nonneg y k
  unfold pulseRef
  rw [if_neg (by omega), if_pos h]

/-- The amplitudes a receiver has to cope with (after the level detector): pulses between `lo` and `hi`, everything else
within 61. -/
structure Amp (lo hi : Int) : Prop where
  min : 1400 ≤ lo
  le : lo ≤ hi
  ratio : 3 * hi + 244 < 4 * lo
  max : hi ≤ 4681

/-- A sample of the line level `l` after the level detector. -/
def Band (lo hi : Int) (l : Level) (v : Int) : Prop :=
  match l with
  | .mid => -61 ≤ v ∧ v ≤ 61
  | .up => lo ≤ v ∧ v ≤ hi
  | .down => -hi ≤ v ∧ v ≤ -lo

/-- A slot starting at time `c` with symbol `l`, in a quiet neighbourhood. -/
structure Slot (lo hi : Int) (y : Int → Int) (c : Int) (l : Level) : Prop where
  before : ∀ j, c - 4 ≤ j → j < c → Band lo hi .mid (y j)
  pulse : ∀ j, c ≤ j → j < c + 8 → Band lo hi l (y j)
  after : ∀ j, c + 8 ≤ j → j < c + 14 → Band lo hi .mid (y j)
  late : l ≠ .mid → ∀ j, c + 14 ≤ j → j < c + 16 → Band lo hi .mid (y j)

theorem Band.mag_mid {lo hi : Int} {y : Int → Int} {j : Int} (h : Band lo hi .mid (y j)) :
    0 ≤ mag y j ∧ mag y j ≤ 61 := by
  unfold mag; simp only [Band] at h; omega

theorem Band.mag_pulse {lo hi : Int} {y : Int → Int} {j : Int} {l : Level} (hl : l ≠ .mid) (h0 : 0 ≤ lo)
    (h : Band lo hi l (y j)) : lo ≤ mag y j ∧ mag y j ≤ hi := by
  unfold mag
  cases l <;> simp only [Band] at h
  · exact absurd rfl hl
  · omega
  · omega

/-- Seven quiet samples in the pulse part: no pulse. -/
theorem quiet_zero {lo hi : Int} {y : Int → Int} {k : Int} (h : ∀ j, k - 14 ≤ j → j ≤ k - 8 → Band lo hi .mid (y j)) :
    pulseRef y k = 0 := by
  apply pulse_zero
  have h2 := outsideSum_nonneg y k
  have := (h (k - 14) (by omega) (by omega)).mag_mid; have := (h (k - 13) (by omega) (by omega)).mag_mid
  have := (h (k - 12) (by omega) (by omega)).mag_mid; have := (h (k - 11) (by omega) (by omega)).mag_mid
  have := (h (k - 10) (by omega) (by omega)).mag_mid; have := (h (k - 9) (by omega) (by omega)).mag_mid
  have := (h (k - 8) (by omega) (by omega)).mag_mid
  unfold magSum
  omega

theorem Slot.mid_zero {lo hi : Int} {y : Int → Int} {c : Int} (h : Slot lo hi y c .mid) {k : Int} (h1 : c + 11 ≤ k)
    (h2 : k ≤ c + 20) : pulseRef y k = 0 := by
  apply quiet_zero (lo := lo) (hi := hi)
  intro j hj1 hj2
  by_cases hc : j < c
  · exact h.before j (by omega) hc
  · by_cases hc2 : j < c + 8
    · exact h.pulse j (by omega) hc2
    · exact h.after j (by omega) (by omega)

theorem Slot.small_11 {lo hi : Int} {y : Int → Int} {c : Int} {l : Level} (h : Slot lo hi y c l) (hl : l ≠ .mid)
    (a : Amp lo hi) {k : Int} (hk : k = c + 11) :
    -(6 * hi + 61 - lo) ≤ pulseRef y k ∧ pulseRef y k ≤ 6 * hi + 61 - lo := by
  have := a.min; have := a.le
  have hlo : 0 ≤ lo := by omega
  apply pulse_bound (by omega)
  rw [outside_mag]
  unfold magSum
  have f0 := (h.before (k - 14) (by omega) (by omega)).mag_mid
  have f1 := (h.before (k - 13) (by omega) (by omega)).mag_mid
  have f2 := (h.before (k - 12) (by omega) (by omega)).mag_mid
  have f3 := (h.pulse (k - 11) (by omega) (by omega)).mag_pulse hl hlo
  have f4 := (h.pulse (k - 10) (by omega) (by omega)).mag_pulse hl hlo
  have f5 := (h.pulse (k - 9) (by omega) (by omega)).mag_pulse hl hlo
  have f6 := (h.pulse (k - 8) (by omega) (by omega)).mag_pulse hl hlo
  have f7 := (h.before (k - 15) (by omega) (by omega)).mag_mid
  have f8 := (h.pulse (k - 5) (by omega) (by omega)).mag_pulse hl hlo
  have f9 := (h.pulse (k - 4) (by omega) (by omega)).mag_pulse hl hlo
  have f10 := (h.after (k - 3) (by omega) (by omega)).mag_mid
  have f11 := (h.after (k - 2) (by omega) (by omega)).mag_mid
  have f12 := (h.after (k - 1) (by omega) (by omega)).mag_mid
  have f13 := (h.after k (by omega) (by omega)).mag_mid
  omega

theorem Slot.small_12 {lo hi : Int} {y : Int → Int} {c : Int} {l : Level} (h : Slot lo hi y c l) (hl : l ≠ .mid)
    (a : Amp lo hi) {k : Int} (hk : k = c + 12) :
    -(6 * hi + 61 - lo) ≤ pulseRef y k ∧ pulseRef y k ≤ 6 * hi + 61 - lo := by
  have := a.min; have := a.le
  have hlo : 0 ≤ lo := by omega
  apply pulse_bound (by omega)
  rw [outside_mag]
  unfold magSum
  have f0 := (h.before (k - 14) (by omega) (by omega)).mag_mid
  have f1 := (h.before (k - 13) (by omega) (by omega)).mag_mid
  have f2 := (h.pulse (k - 12) (by omega) (by omega)).mag_pulse hl hlo
  have f3 := (h.pulse (k - 11) (by omega) (by omega)).mag_pulse hl hlo
  have f4 := (h.pulse (k - 10) (by omega) (by omega)).mag_pulse hl hlo
  have f5 := (h.pulse (k - 9) (by omega) (by omega)).mag_pulse hl hlo
  have f6 := (h.pulse (k - 8) (by omega) (by omega)).mag_pulse hl hlo
  have f7 := (h.before (k - 15) (by omega) (by omega)).mag_mid
  have f8 := (h.pulse (k - 5) (by omega) (by omega)).mag_pulse hl hlo
  have f9 := (h.after (k - 4) (by omega) (by omega)).mag_mid
  have f10 := (h.after (k - 3) (by omega) (by omega)).mag_mid
  have f11 := (h.after (k - 2) (by omega) (by omega)).mag_mid
  have f12 := (h.after (k - 1) (by omega) (by omega)).mag_mid
  have f13 := (h.after k (by omega) (by omega)).mag_mid
  omega

theorem Slot.small_16 {lo hi : Int} {y : Int → Int} {c : Int} {l : Level} (h : Slot lo hi y c l) (hl : l ≠ .mid)
    (a : Amp lo hi) {k : Int} (hk : k = c + 16) :
    -(6 * hi + 61 - lo) ≤ pulseRef y k ∧ pulseRef y k ≤ 6 * hi + 61 - lo := by
  have := a.min; have := a.le
  have hlo : 0 ≤ lo := by omega
  apply pulse_bound (by omega)
  rw [outside_mag]
  unfold magSum
  have f0 := (h.pulse (k - 14) (by omega) (by omega)).mag_pulse hl hlo
  have f1 := (h.pulse (k - 13) (by omega) (by omega)).mag_pulse hl hlo
  have f2 := (h.pulse (k - 12) (by omega) (by omega)).mag_pulse hl hlo
  have f3 := (h.pulse (k - 11) (by omega) (by omega)).mag_pulse hl hlo
  have f4 := (h.pulse (k - 10) (by omega) (by omega)).mag_pulse hl hlo
  have f5 := (h.pulse (k - 9) (by omega) (by omega)).mag_pulse hl hlo
  have f6 := (h.after (k - 8) (by omega) (by omega)).mag_mid
  have f7 := (h.pulse (k - 15) (by omega) (by omega)).mag_pulse hl hlo
  have f8 := (h.after (k - 5) (by omega) (by omega)).mag_mid
  have f9 := (h.after (k - 4) (by omega) (by omega)).mag_mid
  have f10 := (h.after (k - 3) (by omega) (by omega)).mag_mid
  have f11 := (h.late hl (k - 2) (by omega) (by omega)).mag_mid
  have f12 := (h.late hl (k - 1) (by omega) (by omega)).mag_mid
  have f13 := mag_nonneg y k
  omega

theorem Slot.small_17 {lo hi : Int} {y : Int → Int} {c : Int} {l : Level} (h : Slot lo hi y c l) (hl : l ≠ .mid)
    (a : Amp lo hi) {k : Int} (hk : k = c + 17) :
    -(6 * hi + 61 - lo) ≤ pulseRef y k ∧ pulseRef y k ≤ 6 * hi + 61 - lo := by
  have := a.min; have := a.le
  have hlo : 0 ≤ lo := by omega
  apply pulse_bound (by omega)
  rw [outside_mag]
  unfold magSum
  have f0 := (h.pulse (k - 14) (by omega) (by omega)).mag_pulse hl hlo
  have f1 := (h.pulse (k - 13) (by omega) (by omega)).mag_pulse hl hlo
  have f2 := (h.pulse (k - 12) (by omega) (by omega)).mag_pulse hl hlo
  have f3 := (h.pulse (k - 11) (by omega) (by omega)).mag_pulse hl hlo
  have f4 := (h.pulse (k - 10) (by omega) (by omega)).mag_pulse hl hlo
  have f5 := (h.after (k - 9) (by omega) (by omega)).mag_mid
  have f6 := (h.after (k - 8) (by omega) (by omega)).mag_mid
  have f7 := (h.pulse (k - 15) (by omega) (by omega)).mag_pulse hl hlo
  have f8 := (h.after (k - 5) (by omega) (by omega)).mag_mid
  have f9 := (h.after (k - 4) (by omega) (by omega)).mag_mid
  have f10 := (h.late hl (k - 3) (by omega) (by omega)).mag_mid
  have f11 := (h.late hl (k - 2) (by omega) (by omega)).mag_mid
  have f12 := mag_nonneg y (k - 1)
  have f13 := mag_nonneg y k
  omega

theorem Slot.small_18 {lo hi : Int} {y : Int → Int} {c : Int} {l : Level} (h : Slot lo hi y c l) (hl : l ≠ .mid)
    (a : Amp lo hi) {k : Int} (hk : k = c + 18) :
    -(6 * hi + 61 - lo) ≤ pulseRef y k ∧ pulseRef y k ≤ 6 * hi + 61 - lo := by
  have := a.min; have := a.le
  have hlo : 0 ≤ lo := by omega
  apply pulse_bound (by omega)
  rw [outside_mag]
  unfold magSum
  have f0 := (h.pulse (k - 14) (by omega) (by omega)).mag_pulse hl hlo
  have f1 := (h.pulse (k - 13) (by omega) (by omega)).mag_pulse hl hlo
  have f2 := (h.pulse (k - 12) (by omega) (by omega)).mag_pulse hl hlo
  have f3 := (h.pulse (k - 11) (by omega) (by omega)).mag_pulse hl hlo
  have f4 := (h.after (k - 10) (by omega) (by omega)).mag_mid
  have f5 := (h.after (k - 9) (by omega) (by omega)).mag_mid
  have f6 := (h.after (k - 8) (by omega) (by omega)).mag_mid
  have f7 := (h.pulse (k - 15) (by omega) (by omega)).mag_pulse hl hlo
  have f8 := (h.after (k - 5) (by omega) (by omega)).mag_mid
  have f9 := (h.late hl (k - 4) (by omega) (by omega)).mag_mid
  have f10 := (h.late hl (k - 3) (by omega) (by omega)).mag_mid
  have f11 := mag_nonneg y (k - 2)
  have f12 := mag_nonneg y (k - 1)
  have f13 := mag_nonneg y k
  omega

theorem Slot.small_19 {lo hi : Int} {y : Int → Int} {c : Int} {l : Level} (h : Slot lo hi y c l) (hl : l ≠ .mid)
    (a : Amp lo hi) {k : Int} (hk : k = c + 19) :
    -(6 * hi + 61 - lo) ≤ pulseRef y k ∧ pulseRef y k ≤ 6 * hi + 61 - lo := by
  have := a.min; have := a.le
  have hlo : 0 ≤ lo := by omega
  apply pulse_bound (by omega)
  rw [outside_mag]
  unfold magSum
  have f0 := (h.pulse (k - 14) (by omega) (by omega)).mag_pulse hl hlo
  have f1 := (h.pulse (k - 13) (by omega) (by omega)).mag_pulse hl hlo
  have f2 := (h.pulse (k - 12) (by omega) (by omega)).mag_pulse hl hlo
  have f3 := (h.after (k - 11) (by omega) (by omega)).mag_mid
  have f4 := (h.after (k - 10) (by omega) (by omega)).mag_mid
  have f5 := (h.after (k - 9) (by omega) (by omega)).mag_mid
  have f6 := (h.after (k - 8) (by omega) (by omega)).mag_mid
  have f7 := (h.pulse (k - 15) (by omega) (by omega)).mag_pulse hl hlo
  have f8 := (h.late hl (k - 5) (by omega) (by omega)).mag_mid
  have f9 := (h.late hl (k - 4) (by omega) (by omega)).mag_mid
  have f10 := mag_nonneg y (k - 3)
  have f11 := mag_nonneg y (k - 2)
  have f12 := mag_nonneg y (k - 1)
  have f13 := mag_nonneg y k
  omega

theorem Slot.small_20 {lo hi : Int} {y : Int → Int} {c : Int} {l : Level} (h : Slot lo hi y c l) (hl : l ≠ .mid)
    (a : Amp lo hi) {k : Int} (hk : k = c + 20) :
    -(6 * hi + 61 - lo) ≤ pulseRef y k ∧ pulseRef y k ≤ 6 * hi + 61 - lo := by
  have := a.min; have := a.le
  have hlo : 0 ≤ lo := by omega
  apply pulse_bound (by omega)
  rw [outside_mag]
  unfold magSum
  have f0 := (h.pulse (k - 14) (by omega) (by omega)).mag_pulse hl hlo
  have f1 := (h.pulse (k - 13) (by omega) (by omega)).mag_pulse hl hlo
  have f2 := (h.after (k - 12) (by omega) (by omega)).mag_mid
  have f3 := (h.after (k - 11) (by omega) (by omega)).mag_mid
  have f4 := (h.after (k - 10) (by omega) (by omega)).mag_mid
  have f5 := (h.after (k - 9) (by omega) (by omega)).mag_mid
  have f6 := (h.after (k - 8) (by omega) (by omega)).mag_mid
  have f7 := (h.pulse (k - 15) (by omega) (by omega)).mag_pulse hl hlo
  have f8 := (h.late hl (k - 5) (by omega) (by omega)).mag_mid
  have f9 := mag_nonneg y (k - 4)
  have f10 := mag_nonneg y (k - 3)
  have f11 := mag_nonneg y (k - 2)
  have f12 := mag_nonneg y (k - 1)
  have f13 := mag_nonneg y k
  omega

theorem Slot.small {lo hi : Int} {y : Int → Int} {c : Int} {l : Level} (h : Slot lo hi y c l) (hl : l ≠ .mid)
    (a : Amp lo hi) {k : Int} (h1 : c + 11 ≤ k) (h2 : k ≤ c + 20) (h3 : k ≠ c + 13) (h4 : k ≠ c + 14) (h5 : k ≠ c + 15) :
    -(6 * hi + 61 - lo) ≤ pulseRef y k ∧ pulseRef y k ≤ 6 * hi + 61 - lo := by
  have hk : k = c + 11 ∨ k = c + 12 ∨ k = c + 16 ∨ k = c + 17 ∨ k = c + 18 ∨ k = c + 19 ∨ k = c + 20 := by omega
  rcases hk with hk | hk | hk | hk | hk | hk | hk
  · exact h.small_11 hl a hk
  · exact h.small_12 hl a hk
  · exact h.small_16 hl a hk
  · exact h.small_17 hl a hk
  · exact h.small_18 hl a hk
  · exact h.small_19 hl a hk
  · exact h.small_20 hl a hk

theorem Slot.up_13 {lo hi : Int} {y : Int → Int} {c : Int} (h : Slot lo hi y c .up)
    (a : Amp lo hi) {k : Int} (hk : k = c + 13) : 6 * lo - 8 * 61 ≤ pulseRef y k := by
  have := a.min; have := a.le; have := a.ratio
  have hlo : 0 ≤ lo := by omega
  have hl : Level.up ≠ .mid := by decide
  have key : pulseSum y k - outsideSum y k ≥ 6 * lo - 8 * 61 := by
    rw [outside_mag]
    unfold pulseSum
    have f0 := h.before (k - 14) (by omega) (by omega)
    have f1 := h.pulse (k - 13) (by omega) (by omega)
    have f2 := h.pulse (k - 12) (by omega) (by omega)
    have f3 := h.pulse (k - 11) (by omega) (by omega)
    have f4 := h.pulse (k - 10) (by omega) (by omega)
    have f5 := h.pulse (k - 9) (by omega) (by omega)
    have f6 := h.pulse (k - 8) (by omega) (by omega)
    simp only [Band] at f0 f1 f2 f3 f4 f5 f6
    have g0 := (h.before (k - 15) (by omega) (by omega)).mag_mid
    have g1 := (h.after (k - 5) (by omega) (by omega)).mag_mid
    have g2 := (h.after (k - 4) (by omega) (by omega)).mag_mid
    have g3 := (h.after (k - 3) (by omega) (by omega)).mag_mid
    have g4 := (h.after (k - 2) (by omega) (by omega)).mag_mid
    have g5 := (h.after (k - 1) (by omega) (by omega)).mag_mid
    have g6 := (h.after k (by omega) (by omega)).mag_mid
    omega
  rw [pulse_up (by omega)]
  omega

theorem Slot.up_14 {lo hi : Int} {y : Int → Int} {c : Int} (h : Slot lo hi y c .up)
    (a : Amp lo hi) {k : Int} (hk : k = c + 14) : 7 * lo - 7 * 61 ≤ pulseRef y k := by
  have := a.min; have := a.le; have := a.ratio
  have hlo : 0 ≤ lo := by omega
  have hl : Level.up ≠ .mid := by decide
  have key : pulseSum y k - outsideSum y k ≥ 7 * lo - 7 * 61 := by
    rw [outside_mag]
    unfold pulseSum
    have f0 := h.pulse (k - 14) (by omega) (by omega)
    have f1 := h.pulse (k - 13) (by omega) (by omega)
    have f2 := h.pulse (k - 12) (by omega) (by omega)
    have f3 := h.pulse (k - 11) (by omega) (by omega)
    have f4 := h.pulse (k - 10) (by omega) (by omega)
    have f5 := h.pulse (k - 9) (by omega) (by omega)
    have f6 := h.pulse (k - 8) (by omega) (by omega)
    simp only [Band] at f0 f1 f2 f3 f4 f5 f6
    have g0 := (h.before (k - 15) (by omega) (by omega)).mag_mid
    have g1 := (h.after (k - 5) (by omega) (by omega)).mag_mid
    have g2 := (h.after (k - 4) (by omega) (by omega)).mag_mid
    have g3 := (h.after (k - 3) (by omega) (by omega)).mag_mid
    have g4 := (h.after (k - 2) (by omega) (by omega)).mag_mid
    have g5 := (h.after (k - 1) (by omega) (by omega)).mag_mid
    have g6 := (h.late hl k (by omega) (by omega)).mag_mid
    omega
  rw [pulse_up (by omega)]
  omega

theorem Slot.up_15 {lo hi : Int} {y : Int → Int} {c : Int} (h : Slot lo hi y c .up)
    (a : Amp lo hi) {k : Int} (hk : k = c + 15) : 7 * lo - hi - 6 * 61 ≤ pulseRef y k := by
  have := a.min; have := a.le; have := a.ratio
  have hlo : 0 ≤ lo := by omega
  have hl : Level.up ≠ .mid := by decide
  have key : pulseSum y k - outsideSum y k ≥ 7 * lo - hi - 6 * 61 := by
    rw [outside_mag]
    unfold pulseSum
    have f0 := h.pulse (k - 14) (by omega) (by omega)
    have f1 := h.pulse (k - 13) (by omega) (by omega)
    have f2 := h.pulse (k - 12) (by omega) (by omega)
    have f3 := h.pulse (k - 11) (by omega) (by omega)
    have f4 := h.pulse (k - 10) (by omega) (by omega)
    have f5 := h.pulse (k - 9) (by omega) (by omega)
    have f6 := h.pulse (k - 8) (by omega) (by omega)
    simp only [Band] at f0 f1 f2 f3 f4 f5 f6
    have g0 := (h.pulse (k - 15) (by omega) (by omega)).mag_pulse hl hlo
    have g1 := (h.after (k - 5) (by omega) (by omega)).mag_mid
    have g2 := (h.after (k - 4) (by omega) (by omega)).mag_mid
    have g3 := (h.after (k - 3) (by omega) (by omega)).mag_mid
    have g4 := (h.after (k - 2) (by omega) (by omega)).mag_mid
    have g5 := (h.late hl (k - 1) (by omega) (by omega)).mag_mid
    have g6 := (h.late hl k (by omega) (by omega)).mag_mid
    omega
  rw [pulse_up (by omega)]
  omega

theorem Slot.down_13 {lo hi : Int} {y : Int → Int} {c : Int} (h : Slot lo hi y c .down)
    (a : Amp lo hi) {k : Int} (hk : k = c + 13) : pulseRef y k ≤ -(6 * lo - 8 * 61) := by
  have := a.min; have := a.le; have := a.ratio
  have hlo : 0 ≤ lo := by omega
  have hl : Level.down ≠ .mid := by decide
  have key : -pulseSum y k - outsideSum y k ≥ 6 * lo - 8 * 61 := by
    rw [outside_mag]
    unfold pulseSum
    have f0 := h.before (k - 14) (by omega) (by omega)
    have f1 := h.pulse (k - 13) (by omega) (by omega)
    have f2 := h.pulse (k - 12) (by omega) (by omega)
    have f3 := h.pulse (k - 11) (by omega) (by omega)
    have f4 := h.pulse (k - 10) (by omega) (by omega)
    have f5 := h.pulse (k - 9) (by omega) (by omega)
    have f6 := h.pulse (k - 8) (by omega) (by omega)
    simp only [Band] at f0 f1 f2 f3 f4 f5 f6
    have g0 := (h.before (k - 15) (by omega) (by omega)).mag_mid
    have g1 := (h.after (k - 5) (by omega) (by omega)).mag_mid
    have g2 := (h.after (k - 4) (by omega) (by omega)).mag_mid
    have g3 := (h.after (k - 3) (by omega) (by omega)).mag_mid
    have g4 := (h.after (k - 2) (by omega) (by omega)).mag_mid
    have g5 := (h.after (k - 1) (by omega) (by omega)).mag_mid
    have g6 := (h.after k (by omega) (by omega)).mag_mid
    omega
  rw [pulse_down (by omega)]
  omega

theorem Slot.down_14 {lo hi : Int} {y : Int → Int} {c : Int} (h : Slot lo hi y c .down)
    (a : Amp lo hi) {k : Int} (hk : k = c + 14) : pulseRef y k ≤ -(7 * lo - 7 * 61) := by
  have := a.min; have := a.le; have := a.ratio
  have hlo : 0 ≤ lo := by omega
  have hl : Level.down ≠ .mid := by decide
  have key : -pulseSum y k - outsideSum y k ≥ 7 * lo - 7 * 61 := by
    rw [outside_mag]
    unfold pulseSum
    have f0 := h.pulse (k - 14) (by omega) (by omega)
    have f1 := h.pulse (k - 13) (by omega) (by omega)
    have f2 := h.pulse (k - 12) (by omega) (by omega)
    have f3 := h.pulse (k - 11) (by omega) (by omega)
    have f4 := h.pulse (k - 10) (by omega) (by omega)
    have f5 := h.pulse (k - 9) (by omega) (by omega)
    have f6 := h.pulse (k - 8) (by omega) (by omega)
    simp only [Band] at f0 f1 f2 f3 f4 f5 f6
    have g0 := (h.before (k - 15) (by omega) (by omega)).mag_mid
    have g1 := (h.after (k - 5) (by omega) (by omega)).mag_mid
    have g2 := (h.after (k - 4) (by omega) (by omega)).mag_mid
    have g3 := (h.after (k - 3) (by omega) (by omega)).mag_mid
    have g4 := (h.after (k - 2) (by omega) (by omega)).mag_mid
    have g5 := (h.after (k - 1) (by omega) (by omega)).mag_mid
    have g6 := (h.late hl k (by omega) (by omega)).mag_mid
    omega
  rw [pulse_down (by omega)]
  omega

theorem Slot.down_15 {lo hi : Int} {y : Int → Int} {c : Int} (h : Slot lo hi y c .down)
    (a : Amp lo hi) {k : Int} (hk : k = c + 15) : pulseRef y k ≤ -(7 * lo - hi - 6 * 61) := by
  have := a.min; have := a.le; have := a.ratio
  have hlo : 0 ≤ lo := by omega
  have hl : Level.down ≠ .mid := by decide
  have key : -pulseSum y k - outsideSum y k ≥ 7 * lo - hi - 6 * 61 := by
    rw [outside_mag]
    unfold pulseSum
    have f0 := h.pulse (k - 14) (by omega) (by omega)
    have f1 := h.pulse (k - 13) (by omega) (by omega)
    have f2 := h.pulse (k - 12) (by omega) (by omega)
    have f3 := h.pulse (k - 11) (by omega) (by omega)
    have f4 := h.pulse (k - 10) (by omega) (by omega)
    have f5 := h.pulse (k - 9) (by omega) (by omega)
    have f6 := h.pulse (k - 8) (by omega) (by omega)
    simp only [Band] at f0 f1 f2 f3 f4 f5 f6
    have g0 := (h.pulse (k - 15) (by omega) (by omega)).mag_pulse hl hlo
    have g1 := (h.after (k - 5) (by omega) (by omega)).mag_mid
    have g2 := (h.after (k - 4) (by omega) (by omega)).mag_mid
    have g3 := (h.after (k - 3) (by omega) (by omega)).mag_mid
    have g4 := (h.after (k - 2) (by omega) (by omega)).mag_mid
    have g5 := (h.late hl (k - 1) (by omega) (by omega)).mag_mid
    have g6 := (h.late hl k (by omega) (by omega)).mag_mid
    omega
  rw [pulse_down (by omega)]
  omega

end P1P2
