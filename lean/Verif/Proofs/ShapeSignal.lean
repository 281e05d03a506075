import Verif.Spec.Shape
import Verif.Proofs.RxFrame
/-!
# The pulse detector on pulses with edges
-/
namespace P1P2

/-- The limits behind the level detector. -/
structure Shape.Det (s : Shape) : Prop where
  min : 1400 ≤ s.lo
  le : s.lo ≤ s.hi
  max : s.hi ≤ 4681
  edge0 : 142 ≤ s.edge
  edge : s.edge ≤ s.hi
  quiet0 : 0 ≤ s.quiet
  quiet : s.quiet ≤ 61
  late : s.hi + 2 * s.edge + 15 * s.quiet < 4 * s.lo
  later : s.hi + s.edge + 9 * s.quiet < 3 * s.lo
  early : 4921 + s.edge + 8 * s.quiet ≤ 5 * s.lo
  soon : s.edge + 2 * s.hi + 4 * s.quiet < 4921 + 3 * s.lo
  wide : 4921 + s.hi + s.edge + 7 * s.quiet ≤ 6 * s.lo

/-- The shape behind the level detector. -/
def Shape.out (s : Shape) : Shape := { s with quiet := (26 * s.quiet + 255) / 256 }

theorem Shape.Tol.det {s : Shape} (h : s.Tol) : s.out.Det := by
  obtain ⟨h1, h2, h3, h4, h5, h6, h7, h8, h9, h10, h11, h12⟩ := h
  refine ⟨h1, h2, h3, h4, h5, ?_, ?_, ?_, ?_, ?_, ?_, ?_⟩ <;> simp only [Shape.out] <;> omega

/-- A positive pulse in the symbol that starts at time 0, in a quiet neighbourhood; after it possibly the edge of the next one. -/
structure PulseAt (s : Shape) (y : Int → Int) (o o' : Int) : Prop where
  le : o' ≤ o
  nonneg : 0 ≤ o'
  le1 : o ≤ 1
  quiet : ∀ j, -4 ≤ j → j < 16 → (j < o ∨ 9 + o' ≤ j) → s.Quiet (y j)
  rise : -s.quiet ≤ y o ∧ y o ≤ s.edge
  top : ∀ j, o < j → j < 8 + o' → s.lo ≤ y j ∧ y j ≤ s.hi
  fall : -s.quiet ≤ y (8 + o') ∧ y (8 + o') ≤ s.edge
  next : -s.edge ≤ y 16 ∧ y 16 ≤ s.edge

theorem Shape.Quiet.mag {s : Shape} {y : Int → Int} {j : Int} (h : s.Quiet (y j)) : 0 ≤ mag y j ∧ mag y j ≤ s.quiet := by
  unfold P1P2.mag; simp only [Shape.Quiet] at h; omega

theorem quiet7_zero {s : Shape} (d : s.Det) {y : Int → Int} {k : Int} (h : ∀ j, k - 14 ≤ j → j ≤ k - 8 → s.Quiet (y j)) :
    pulseRef y k = 0 := by
  apply pulse_zero
  have h2 := outsideSum_nonneg y k
  have := d.quiet
  have := (h (k - 14) (by omega) (by omega)).mag; have := (h (k - 13) (by omega) (by omega)).mag
  have := (h (k - 12) (by omega) (by omega)).mag; have := (h (k - 11) (by omega) (by omega)).mag
  have := (h (k - 10) (by omega) (by omega)).mag; have := (h (k - 9) (by omega) (by omega)).mag
  have := (h (k - 8) (by omega) (by omega)).mag
  unfold magSum
  omega

theorem pulseRef_neg (y : Int → Int) (k : Int) : pulseRef (fun j => -y j) k = -pulseRef y k := by
  have h1 : pulseSum (fun j => -y j) k = -pulseSum y k := by simp only [pulseSum]; omega
  have h2 : outsideSum (fun j => -y j) k = outsideSum y k := by unfold outsideSum; simp only [Int.natAbs_neg]
  have h3 := outsideSum_nonneg y k
  unfold pulseRef
  rw [h1, h2]
  split <;> split <;> (try split) <;> omega

theorem pulseRef_shift (y : Int → Int) (c e : Int) : pulseRef y (c + e) = pulseRef (fun k => y (c + k)) e := by
  have h1 : pulseSum y (c + e) = pulseSum (fun k => y (c + k)) e := by simp only [pulseSum, Int.add_sub_assoc]
  have h2 : outsideSum y (c + e) = outsideSum (fun k => y (c + k)) e := by simp only [outsideSum, Int.add_sub_assoc]
  unfold pulseRef
  rw [h1, h2]

theorem pulse_nat_bound {y : Int → Int} {k B : Int} (hB : 0 ≤ B) (h : magSum y k - outsideSum y k ≤ B) : ((pulseRef y k).natAbs : Int) ≤ B := by
  have := pulse_bound hB h
  omega

namespace PulseAt
variable {s : Shape} {y : Int → Int} {o o' : Int}

theorem cases (h : PulseAt s y o o') : (o = 0 ∧ o' = 0) ∨ (o = 1 ∧ o' = 1) ∨ (o = 1 ∧ o' = 0) := by
  have := h.le; have := h.nonneg; have := h.le1; omega

theorem qm (h : PulseAt s y o o') {j : Int} (h1 : -4 ≤ j) (h2 : j < 16) (h3 : j < o ∨ 9 + o' ≤ j) :
    0 ≤ mag y j ∧ mag y j ≤ s.quiet ∧ -s.quiet ≤ y j ∧ y j ≤ mag y j := by
  have := h.quiet j h1 h2 h3
  unfold Shape.Quiet at this
  unfold mag; omega

theorem tm (h : PulseAt s y o o') (d : s.Det) {j : Int} (h1 : o < j) (h2 : j < 8 + o') : mag y j = y j ∧ s.lo ≤ y j ∧ y j ≤ s.hi := by
  have := h.top j h1 h2; have := d.min
  unfold mag; omega

theorem em (h : PulseAt s y o o') (d : s.Det) {j : Int} (hj : j = o ∨ j = 8 + o') :
    0 ≤ mag y j ∧ mag y j ≤ s.edge ∧ y j ≤ mag y j ∧ mag y j ≤ y j + 2 * s.quiet ∧ -s.quiet ≤ y j := by
  have := h.rise; have := h.fall; have := d.quiet; have := d.edge0; have := d.quiet0
  unfold mag
  rcases hj with rfl | rfl <;> omega

theorem nm (h : PulseAt s y o o') : 0 ≤ mag y 16 ∧ mag y 16 ≤ s.edge := by
  have := h.next
  unfold mag; omega

theorem val14 (h : PulseAt s y o o') (d : s.Det) : 4921 ≤ pulseRef y 14 ∧ pulseRef y 14 = pulseSum y 14 - outsideSum y 14 := by
  have key : 4921 ≤ pulseSum y 14 - outsideSum y 14 := by
    have d1 := d.min; have d2 := d.quiet; have d3 := d.le; have d4 := d.later; have d5 := d.edge0; have d6 := d.edge; have d7 := d.late; have d8 := d.quiet0; have d9 := d.early; have d10 := d.wide
    rcases h.cases with ⟨rfl, rfl⟩ | ⟨rfl, rfl⟩ | ⟨rfl, rfl⟩
    · have fm1 := h.qm (j := (-1)) (by decide) (by decide) (by decide)
      have f0 := h.em d (j := 0) (by decide)
      have f1 := h.tm d (j := 1) (by decide) (by decide)
      have f2 := h.tm d (j := 2) (by decide) (by decide)
      have f3 := h.tm d (j := 3) (by decide) (by decide)
      have f4 := h.tm d (j := 4) (by decide) (by decide)
      have f5 := h.tm d (j := 5) (by decide) (by decide)
      have f6 := h.tm d (j := 6) (by decide) (by decide)
      have f9 := h.qm (j := 9) (by decide) (by decide) (by decide)
      have f10 := h.qm (j := 10) (by decide) (by decide) (by decide)
      have f11 := h.qm (j := 11) (by decide) (by decide) (by decide)
      have f12 := h.qm (j := 12) (by decide) (by decide) (by decide)
      have f13 := h.qm (j := 13) (by decide) (by decide) (by decide)
      have f14 := h.qm (j := 14) (by decide) (by decide) (by decide)
      simp only [pulseSum, magSum, outside_mag, Int.reduceSub, Int.sub_self]
      omega
    · have fm1 := h.qm (j := (-1)) (by decide) (by decide) (by decide)
      have f0 := h.qm (j := 0) (by decide) (by decide) (by decide)
      have f1 := h.em d (j := 1) (by decide)
      have f2 := h.tm d (j := 2) (by decide) (by decide)
      have f3 := h.tm d (j := 3) (by decide) (by decide)
      have f4 := h.tm d (j := 4) (by decide) (by decide)
      have f5 := h.tm d (j := 5) (by decide) (by decide)
      have f6 := h.tm d (j := 6) (by decide) (by decide)
      have f9 := h.em d (j := 9) (by decide)
      have f10 := h.qm (j := 10) (by decide) (by decide) (by decide)
      have f11 := h.qm (j := 11) (by decide) (by decide) (by decide)
      have f12 := h.qm (j := 12) (by decide) (by decide) (by decide)
      have f13 := h.qm (j := 13) (by decide) (by decide) (by decide)
      have f14 := h.qm (j := 14) (by decide) (by decide) (by decide)
      simp only [pulseSum, magSum, outside_mag, Int.reduceSub, Int.sub_self]
      omega
    · have fm1 := h.qm (j := (-1)) (by decide) (by decide) (by decide)
      have f0 := h.qm (j := 0) (by decide) (by decide) (by decide)
      have f1 := h.em d (j := 1) (by decide)
      have f2 := h.tm d (j := 2) (by decide) (by decide)
      have f3 := h.tm d (j := 3) (by decide) (by decide)
      have f4 := h.tm d (j := 4) (by decide) (by decide)
      have f5 := h.tm d (j := 5) (by decide) (by decide)
      have f6 := h.tm d (j := 6) (by decide) (by decide)
      have f9 := h.qm (j := 9) (by decide) (by decide) (by decide)
      have f10 := h.qm (j := 10) (by decide) (by decide) (by decide)
      have f11 := h.qm (j := 11) (by decide) (by decide) (by decide)
      have f12 := h.qm (j := 12) (by decide) (by decide) (by decide)
      have f13 := h.qm (j := 13) (by decide) (by decide) (by decide)
      have f14 := h.qm (j := 14) (by decide) (by decide) (by decide)
      simp only [pulseSum, magSum, outside_mag, Int.reduceSub, Int.sub_self]
      omega
  rw [pulse_up key]
  exact ⟨key, rfl⟩

theorem val15 (h : PulseAt s y o o') (d : s.Det) : 4921 ≤ pulseRef y 15 ∧ pulseRef y 15 = pulseSum y 15 - outsideSum y 15 := by
  have key : 4921 ≤ pulseSum y 15 - outsideSum y 15 := by
    have d1 := d.min; have d2 := d.quiet; have d3 := d.le; have d4 := d.later; have d5 := d.edge0; have d6 := d.edge; have d7 := d.late; have d8 := d.quiet0; have d9 := d.early; have d10 := d.wide
    rcases h.cases with ⟨rfl, rfl⟩ | ⟨rfl, rfl⟩ | ⟨rfl, rfl⟩
    · have f0 := h.em d (j := 0) (by decide)
      have f1 := h.tm d (j := 1) (by decide) (by decide)
      have f2 := h.tm d (j := 2) (by decide) (by decide)
      have f3 := h.tm d (j := 3) (by decide) (by decide)
      have f4 := h.tm d (j := 4) (by decide) (by decide)
      have f5 := h.tm d (j := 5) (by decide) (by decide)
      have f6 := h.tm d (j := 6) (by decide) (by decide)
      have f7 := h.tm d (j := 7) (by decide) (by decide)
      have f10 := h.qm (j := 10) (by decide) (by decide) (by decide)
      have f11 := h.qm (j := 11) (by decide) (by decide) (by decide)
      have f12 := h.qm (j := 12) (by decide) (by decide) (by decide)
      have f13 := h.qm (j := 13) (by decide) (by decide) (by decide)
      have f14 := h.qm (j := 14) (by decide) (by decide) (by decide)
      have f15 := h.qm (j := 15) (by decide) (by decide) (by decide)
      simp only [pulseSum, magSum, outside_mag, Int.reduceSub, Int.sub_self]
      omega
    · have f0 := h.qm (j := 0) (by decide) (by decide) (by decide)
      have f1 := h.em d (j := 1) (by decide)
      have f2 := h.tm d (j := 2) (by decide) (by decide)
      have f3 := h.tm d (j := 3) (by decide) (by decide)
      have f4 := h.tm d (j := 4) (by decide) (by decide)
      have f5 := h.tm d (j := 5) (by decide) (by decide)
      have f6 := h.tm d (j := 6) (by decide) (by decide)
      have f7 := h.tm d (j := 7) (by decide) (by decide)
      have f10 := h.qm (j := 10) (by decide) (by decide) (by decide)
      have f11 := h.qm (j := 11) (by decide) (by decide) (by decide)
      have f12 := h.qm (j := 12) (by decide) (by decide) (by decide)
      have f13 := h.qm (j := 13) (by decide) (by decide) (by decide)
      have f14 := h.qm (j := 14) (by decide) (by decide) (by decide)
      have f15 := h.qm (j := 15) (by decide) (by decide) (by decide)
      simp only [pulseSum, magSum, outside_mag, Int.reduceSub, Int.sub_self]
      omega
    · have f0 := h.qm (j := 0) (by decide) (by decide) (by decide)
      have f1 := h.em d (j := 1) (by decide)
      have f2 := h.tm d (j := 2) (by decide) (by decide)
      have f3 := h.tm d (j := 3) (by decide) (by decide)
      have f4 := h.tm d (j := 4) (by decide) (by decide)
      have f5 := h.tm d (j := 5) (by decide) (by decide)
      have f6 := h.tm d (j := 6) (by decide) (by decide)
      have f7 := h.tm d (j := 7) (by decide) (by decide)
      have f10 := h.qm (j := 10) (by decide) (by decide) (by decide)
      have f11 := h.qm (j := 11) (by decide) (by decide) (by decide)
      have f12 := h.qm (j := 12) (by decide) (by decide) (by decide)
      have f13 := h.qm (j := 13) (by decide) (by decide) (by decide)
      have f14 := h.qm (j := 14) (by decide) (by decide) (by decide)
      have f15 := h.qm (j := 15) (by decide) (by decide) (by decide)
      simp only [pulseSum, magSum, outside_mag, Int.reduceSub, Int.sub_self]
      omega
  rw [pulse_up key]
  exact ⟨key, rfl⟩

theorem val16 (h : PulseAt s y o o') (d : s.Det) : 4921 ≤ pulseRef y 16 ∧ pulseRef y 16 = pulseSum y 16 - outsideSum y 16 := by
  have key : 4921 ≤ pulseSum y 16 - outsideSum y 16 := by
    have d1 := d.min; have d2 := d.quiet; have d3 := d.le; have d4 := d.later; have d5 := d.edge0; have d6 := d.edge; have d7 := d.late; have d8 := d.quiet0; have d9 := d.early; have d10 := d.wide
    rcases h.cases with ⟨rfl, rfl⟩ | ⟨rfl, rfl⟩ | ⟨rfl, rfl⟩
    · have f1 := h.tm d (j := 1) (by decide) (by decide)
      have f2 := h.tm d (j := 2) (by decide) (by decide)
      have f3 := h.tm d (j := 3) (by decide) (by decide)
      have f4 := h.tm d (j := 4) (by decide) (by decide)
      have f5 := h.tm d (j := 5) (by decide) (by decide)
      have f6 := h.tm d (j := 6) (by decide) (by decide)
      have f7 := h.tm d (j := 7) (by decide) (by decide)
      have f8 := h.em d (j := 8) (by decide)
      have f11 := h.qm (j := 11) (by decide) (by decide) (by decide)
      have f12 := h.qm (j := 12) (by decide) (by decide) (by decide)
      have f13 := h.qm (j := 13) (by decide) (by decide) (by decide)
      have f14 := h.qm (j := 14) (by decide) (by decide) (by decide)
      have f15 := h.qm (j := 15) (by decide) (by decide) (by decide)
      have f16 := h.nm
      simp only [pulseSum, magSum, outside_mag, Int.reduceSub, Int.sub_self]
      omega
    · have f1 := h.em d (j := 1) (by decide)
      have f2 := h.tm d (j := 2) (by decide) (by decide)
      have f3 := h.tm d (j := 3) (by decide) (by decide)
      have f4 := h.tm d (j := 4) (by decide) (by decide)
      have f5 := h.tm d (j := 5) (by decide) (by decide)
      have f6 := h.tm d (j := 6) (by decide) (by decide)
      have f7 := h.tm d (j := 7) (by decide) (by decide)
      have f8 := h.tm d (j := 8) (by decide) (by decide)
      have f11 := h.qm (j := 11) (by decide) (by decide) (by decide)
      have f12 := h.qm (j := 12) (by decide) (by decide) (by decide)
      have f13 := h.qm (j := 13) (by decide) (by decide) (by decide)
      have f14 := h.qm (j := 14) (by decide) (by decide) (by decide)
      have f15 := h.qm (j := 15) (by decide) (by decide) (by decide)
      have f16 := h.nm
      simp only [pulseSum, magSum, outside_mag, Int.reduceSub, Int.sub_self]
      omega
    · have f1 := h.em d (j := 1) (by decide)
      have f2 := h.tm d (j := 2) (by decide) (by decide)
      have f3 := h.tm d (j := 3) (by decide) (by decide)
      have f4 := h.tm d (j := 4) (by decide) (by decide)
      have f5 := h.tm d (j := 5) (by decide) (by decide)
      have f6 := h.tm d (j := 6) (by decide) (by decide)
      have f7 := h.tm d (j := 7) (by decide) (by decide)
      have f8 := h.em d (j := 8) (by decide)
      have f11 := h.qm (j := 11) (by decide) (by decide) (by decide)
      have f12 := h.qm (j := 12) (by decide) (by decide) (by decide)
      have f13 := h.qm (j := 13) (by decide) (by decide) (by decide)
      have f14 := h.qm (j := 14) (by decide) (by decide) (by decide)
      have f15 := h.qm (j := 15) (by decide) (by decide) (by decide)
      have f16 := h.nm
      simp only [pulseSum, magSum, outside_mag, Int.reduceSub, Int.sub_self]
      omega
  rw [pulse_up key]
  exact ⟨key, rfl⟩

theorem mean13 (h : PulseAt s y o o') (d : s.Det) :
    2 * (pulseRef y 13).natAbs < (pulseRef y 14).natAbs + (pulseRef y 15).natAbs := by
  obtain ⟨v1, v2⟩ := h.val14 d
  obtain ⟨w1, w2⟩ := h.val15 d
  have key : 2 * (magSum y 13 - outsideSum y 13) < (pulseSum y 14 - outsideSum y 14) + (pulseSum y 15 - outsideSum y 15) := by
    clear v1 v2 w1 w2
    have d1 := d.min; have d2 := d.quiet; have d3 := d.le; have d4 := d.later; have d5 := d.edge0; have d6 := d.edge; have d7 := d.late; have d8 := d.quiet0; have d9 := d.early; have d10 := d.wide
    rcases h.cases with ⟨rfl, rfl⟩ | ⟨rfl, rfl⟩ | ⟨rfl, rfl⟩
    · have fm2 := h.qm (j := (-2)) (by decide) (by decide) (by decide)
      have fm1 := h.qm (j := (-1)) (by decide) (by decide) (by decide)
      have f0 := h.em d (j := 0) (by decide)
      have f1 := h.tm d (j := 1) (by decide) (by decide)
      have f2 := h.tm d (j := 2) (by decide) (by decide)
      have f3 := h.tm d (j := 3) (by decide) (by decide)
      have f4 := h.tm d (j := 4) (by decide) (by decide)
      have f5 := h.tm d (j := 5) (by decide) (by decide)
      have f6 := h.tm d (j := 6) (by decide) (by decide)
      have f7 := h.tm d (j := 7) (by decide) (by decide)
      have f8 := h.em d (j := 8) (by decide)
      have f9 := h.qm (j := 9) (by decide) (by decide) (by decide)
      have f10 := h.qm (j := 10) (by decide) (by decide) (by decide)
      have f11 := h.qm (j := 11) (by decide) (by decide) (by decide)
      have f12 := h.qm (j := 12) (by decide) (by decide) (by decide)
      have f13 := h.qm (j := 13) (by decide) (by decide) (by decide)
      have f14 := h.qm (j := 14) (by decide) (by decide) (by decide)
      have f15 := h.qm (j := 15) (by decide) (by decide) (by decide)
      simp only [pulseSum, magSum, outside_mag, Int.reduceSub, Int.sub_self]
      omega
    · have fm2 := h.qm (j := (-2)) (by decide) (by decide) (by decide)
      have fm1 := h.qm (j := (-1)) (by decide) (by decide) (by decide)
      have f0 := h.qm (j := 0) (by decide) (by decide) (by decide)
      have f1 := h.em d (j := 1) (by decide)
      have f2 := h.tm d (j := 2) (by decide) (by decide)
      have f3 := h.tm d (j := 3) (by decide) (by decide)
      have f4 := h.tm d (j := 4) (by decide) (by decide)
      have f5 := h.tm d (j := 5) (by decide) (by decide)
      have f6 := h.tm d (j := 6) (by decide) (by decide)
      have f7 := h.tm d (j := 7) (by decide) (by decide)
      have f8 := h.tm d (j := 8) (by decide) (by decide)
      have f9 := h.em d (j := 9) (by decide)
      have f10 := h.qm (j := 10) (by decide) (by decide) (by decide)
      have f11 := h.qm (j := 11) (by decide) (by decide) (by decide)
      have f12 := h.qm (j := 12) (by decide) (by decide) (by decide)
      have f13 := h.qm (j := 13) (by decide) (by decide) (by decide)
      have f14 := h.qm (j := 14) (by decide) (by decide) (by decide)
      have f15 := h.qm (j := 15) (by decide) (by decide) (by decide)
      simp only [pulseSum, magSum, outside_mag, Int.reduceSub, Int.sub_self]
      omega
    · have fm2 := h.qm (j := (-2)) (by decide) (by decide) (by decide)
      have fm1 := h.qm (j := (-1)) (by decide) (by decide) (by decide)
      have f0 := h.qm (j := 0) (by decide) (by decide) (by decide)
      have f1 := h.em d (j := 1) (by decide)
      have f2 := h.tm d (j := 2) (by decide) (by decide)
      have f3 := h.tm d (j := 3) (by decide) (by decide)
      have f4 := h.tm d (j := 4) (by decide) (by decide)
      have f5 := h.tm d (j := 5) (by decide) (by decide)
      have f6 := h.tm d (j := 6) (by decide) (by decide)
      have f7 := h.tm d (j := 7) (by decide) (by decide)
      have f8 := h.em d (j := 8) (by decide)
      have f9 := h.qm (j := 9) (by decide) (by decide) (by decide)
      have f10 := h.qm (j := 10) (by decide) (by decide) (by decide)
      have f11 := h.qm (j := 11) (by decide) (by decide) (by decide)
      have f12 := h.qm (j := 12) (by decide) (by decide) (by decide)
      have f13 := h.qm (j := 13) (by decide) (by decide) (by decide)
      have f14 := h.qm (j := 14) (by decide) (by decide) (by decide)
      have f15 := h.qm (j := 15) (by decide) (by decide) (by decide)
      simp only [pulseSum, magSum, outside_mag, Int.reduceSub, Int.sub_self]
      omega
  rw [← v2, ← w2] at key
  have := pulse_nat_bound (y := y) (k := 13) (B := (pulseRef y 14 + pulseRef y 15 - 1) / 2) (by omega) (by omega)
  omega

theorem mean17 (h : PulseAt s y o o') (d : s.Det) :
    2 * (pulseRef y 17).natAbs < (pulseRef y 15).natAbs + (pulseRef y 16).natAbs := by
  obtain ⟨v1, v2⟩ := h.val15 d
  obtain ⟨w1, w2⟩ := h.val16 d
  have key : 2 * (magSum y 17 - outsideSum y 17) < (pulseSum y 15 - outsideSum y 15) + (pulseSum y 16 - outsideSum y 16) := by
    clear v1 v2 w1 w2
    have d1 := d.min; have d2 := d.quiet; have d3 := d.le; have d4 := d.later; have d5 := d.edge0; have d6 := d.edge; have d7 := d.late; have d8 := d.quiet0; have d9 := d.early; have d10 := d.wide
    rcases h.cases with ⟨rfl, rfl⟩ | ⟨rfl, rfl⟩ | ⟨rfl, rfl⟩
    · have f0 := h.em d (j := 0) (by decide)
      have f1 := h.tm d (j := 1) (by decide) (by decide)
      have f2 := h.tm d (j := 2) (by decide) (by decide)
      have f3 := h.tm d (j := 3) (by decide) (by decide)
      have f4 := h.tm d (j := 4) (by decide) (by decide)
      have f5 := h.tm d (j := 5) (by decide) (by decide)
      have f6 := h.tm d (j := 6) (by decide) (by decide)
      have f7 := h.tm d (j := 7) (by decide) (by decide)
      have f8 := h.em d (j := 8) (by decide)
      have f9 := h.qm (j := 9) (by decide) (by decide) (by decide)
      have f10 := h.qm (j := 10) (by decide) (by decide) (by decide)
      have f11 := h.qm (j := 11) (by decide) (by decide) (by decide)
      have f12 := h.qm (j := 12) (by decide) (by decide) (by decide)
      have f13 := h.qm (j := 13) (by decide) (by decide) (by decide)
      have f14 := h.qm (j := 14) (by decide) (by decide) (by decide)
      have f15 := h.qm (j := 15) (by decide) (by decide) (by decide)
      have f16 := h.nm
      have f17 := mag_nonneg y 17
      simp only [pulseSum, magSum, outside_mag, Int.reduceSub, Int.sub_self]
      omega
    · have f0 := h.qm (j := 0) (by decide) (by decide) (by decide)
      have f1 := h.em d (j := 1) (by decide)
      have f2 := h.tm d (j := 2) (by decide) (by decide)
      have f3 := h.tm d (j := 3) (by decide) (by decide)
      have f4 := h.tm d (j := 4) (by decide) (by decide)
      have f5 := h.tm d (j := 5) (by decide) (by decide)
      have f6 := h.tm d (j := 6) (by decide) (by decide)
      have f7 := h.tm d (j := 7) (by decide) (by decide)
      have f8 := h.tm d (j := 8) (by decide) (by decide)
      have f9 := h.em d (j := 9) (by decide)
      have f10 := h.qm (j := 10) (by decide) (by decide) (by decide)
      have f11 := h.qm (j := 11) (by decide) (by decide) (by decide)
      have f12 := h.qm (j := 12) (by decide) (by decide) (by decide)
      have f13 := h.qm (j := 13) (by decide) (by decide) (by decide)
      have f14 := h.qm (j := 14) (by decide) (by decide) (by decide)
      have f15 := h.qm (j := 15) (by decide) (by decide) (by decide)
      have f16 := h.nm
      have f17 := mag_nonneg y 17
      simp only [pulseSum, magSum, outside_mag, Int.reduceSub, Int.sub_self]
      omega
    · have f0 := h.qm (j := 0) (by decide) (by decide) (by decide)
      have f1 := h.em d (j := 1) (by decide)
      have f2 := h.tm d (j := 2) (by decide) (by decide)
      have f3 := h.tm d (j := 3) (by decide) (by decide)
      have f4 := h.tm d (j := 4) (by decide) (by decide)
      have f5 := h.tm d (j := 5) (by decide) (by decide)
      have f6 := h.tm d (j := 6) (by decide) (by decide)
      have f7 := h.tm d (j := 7) (by decide) (by decide)
      have f8 := h.em d (j := 8) (by decide)
      have f9 := h.qm (j := 9) (by decide) (by decide) (by decide)
      have f10 := h.qm (j := 10) (by decide) (by decide) (by decide)
      have f11 := h.qm (j := 11) (by decide) (by decide) (by decide)
      have f12 := h.qm (j := 12) (by decide) (by decide) (by decide)
      have f13 := h.qm (j := 13) (by decide) (by decide) (by decide)
      have f14 := h.qm (j := 14) (by decide) (by decide) (by decide)
      have f15 := h.qm (j := 15) (by decide) (by decide) (by decide)
      have f16 := h.nm
      have f17 := mag_nonneg y 17
      simp only [pulseSum, magSum, outside_mag, Int.reduceSub, Int.sub_self]
      omega
  rw [← v2, ← w2] at key
  have := pulse_nat_bound (y := y) (k := 17) (B := (pulseRef y 15 + pulseRef y 16 - 1) / 2) (by omega) (by omega)
  omega

theorem weak11 (h : PulseAt s y o o') (d : s.Det) : (pulseRef y 11).natAbs < (pulseRef y 15).natAbs := by
  obtain ⟨v1, v2⟩ := h.val15 d
  have key : magSum y 11 - outsideSum y 11 < pulseSum y 15 - outsideSum y 15 := by
    clear v1 v2
    have d1 := d.min; have d2 := d.quiet; have d3 := d.le; have d4 := d.later; have d5 := d.edge0; have d6 := d.edge; have d7 := d.late; have d8 := d.quiet0; have d9 := d.early; have d10 := d.wide
    rcases h.cases with ⟨rfl, rfl⟩ | ⟨rfl, rfl⟩ | ⟨rfl, rfl⟩
    · have fm4 := h.qm (j := (-4)) (by decide) (by decide) (by decide)
      have fm3 := h.qm (j := (-3)) (by decide) (by decide) (by decide)
      have fm2 := h.qm (j := (-2)) (by decide) (by decide) (by decide)
      have fm1 := h.qm (j := (-1)) (by decide) (by decide) (by decide)
      have f0 := h.em d (j := 0) (by decide)
      have f1 := h.tm d (j := 1) (by decide) (by decide)
      have f2 := h.tm d (j := 2) (by decide) (by decide)
      have f3 := h.tm d (j := 3) (by decide) (by decide)
      have f4 := h.tm d (j := 4) (by decide) (by decide)
      have f5 := h.tm d (j := 5) (by decide) (by decide)
      have f6 := h.tm d (j := 6) (by decide) (by decide)
      have f7 := h.tm d (j := 7) (by decide) (by decide)
      have f8 := h.em d (j := 8) (by decide)
      have f9 := h.qm (j := 9) (by decide) (by decide) (by decide)
      have f10 := h.qm (j := 10) (by decide) (by decide) (by decide)
      have f11 := h.qm (j := 11) (by decide) (by decide) (by decide)
      have f12 := h.qm (j := 12) (by decide) (by decide) (by decide)
      have f13 := h.qm (j := 13) (by decide) (by decide) (by decide)
      have f14 := h.qm (j := 14) (by decide) (by decide) (by decide)
      have f15 := h.qm (j := 15) (by decide) (by decide) (by decide)
      simp only [pulseSum, magSum, outside_mag, Int.reduceSub, Int.sub_self]
      omega
    · have fm4 := h.qm (j := (-4)) (by decide) (by decide) (by decide)
      have fm3 := h.qm (j := (-3)) (by decide) (by decide) (by decide)
      have fm2 := h.qm (j := (-2)) (by decide) (by decide) (by decide)
      have fm1 := h.qm (j := (-1)) (by decide) (by decide) (by decide)
      have f0 := h.qm (j := 0) (by decide) (by decide) (by decide)
      have f1 := h.em d (j := 1) (by decide)
      have f2 := h.tm d (j := 2) (by decide) (by decide)
      have f3 := h.tm d (j := 3) (by decide) (by decide)
      have f4 := h.tm d (j := 4) (by decide) (by decide)
      have f5 := h.tm d (j := 5) (by decide) (by decide)
      have f6 := h.tm d (j := 6) (by decide) (by decide)
      have f7 := h.tm d (j := 7) (by decide) (by decide)
      have f8 := h.tm d (j := 8) (by decide) (by decide)
      have f9 := h.em d (j := 9) (by decide)
      have f10 := h.qm (j := 10) (by decide) (by decide) (by decide)
      have f11 := h.qm (j := 11) (by decide) (by decide) (by decide)
      have f12 := h.qm (j := 12) (by decide) (by decide) (by decide)
      have f13 := h.qm (j := 13) (by decide) (by decide) (by decide)
      have f14 := h.qm (j := 14) (by decide) (by decide) (by decide)
      have f15 := h.qm (j := 15) (by decide) (by decide) (by decide)
      simp only [pulseSum, magSum, outside_mag, Int.reduceSub, Int.sub_self]
      omega
    · have fm4 := h.qm (j := (-4)) (by decide) (by decide) (by decide)
      have fm3 := h.qm (j := (-3)) (by decide) (by decide) (by decide)
      have fm2 := h.qm (j := (-2)) (by decide) (by decide) (by decide)
      have fm1 := h.qm (j := (-1)) (by decide) (by decide) (by decide)
      have f0 := h.qm (j := 0) (by decide) (by decide) (by decide)
      have f1 := h.em d (j := 1) (by decide)
      have f2 := h.tm d (j := 2) (by decide) (by decide)
      have f3 := h.tm d (j := 3) (by decide) (by decide)
      have f4 := h.tm d (j := 4) (by decide) (by decide)
      have f5 := h.tm d (j := 5) (by decide) (by decide)
      have f6 := h.tm d (j := 6) (by decide) (by decide)
      have f7 := h.tm d (j := 7) (by decide) (by decide)
      have f8 := h.em d (j := 8) (by decide)
      have f9 := h.qm (j := 9) (by decide) (by decide) (by decide)
      have f10 := h.qm (j := 10) (by decide) (by decide) (by decide)
      have f11 := h.qm (j := 11) (by decide) (by decide) (by decide)
      have f12 := h.qm (j := 12) (by decide) (by decide) (by decide)
      have f13 := h.qm (j := 13) (by decide) (by decide) (by decide)
      have f14 := h.qm (j := 14) (by decide) (by decide) (by decide)
      have f15 := h.qm (j := 15) (by decide) (by decide) (by decide)
      simp only [pulseSum, magSum, outside_mag, Int.reduceSub, Int.sub_self]
      omega
  rw [← v2] at key
  have := pulse_nat_bound (y := y) (k := 11) (B := pulseRef y 15 - 1) (by omega) (by omega)
  omega

theorem weak12 (h : PulseAt s y o o') (d : s.Det) : (pulseRef y 12).natAbs < (pulseRef y 15).natAbs := by
  obtain ⟨v1, v2⟩ := h.val15 d
  have key : magSum y 12 - outsideSum y 12 < pulseSum y 15 - outsideSum y 15 := by
    clear v1 v2
    have d1 := d.min; have d2 := d.quiet; have d3 := d.le; have d4 := d.later; have d5 := d.edge0; have d6 := d.edge; have d7 := d.late; have d8 := d.quiet0; have d9 := d.early; have d10 := d.wide
    rcases h.cases with ⟨rfl, rfl⟩ | ⟨rfl, rfl⟩ | ⟨rfl, rfl⟩
    · have fm3 := h.qm (j := (-3)) (by decide) (by decide) (by decide)
      have fm2 := h.qm (j := (-2)) (by decide) (by decide) (by decide)
      have fm1 := h.qm (j := (-1)) (by decide) (by decide) (by decide)
      have f0 := h.em d (j := 0) (by decide)
      have f1 := h.tm d (j := 1) (by decide) (by decide)
      have f2 := h.tm d (j := 2) (by decide) (by decide)
      have f3 := h.tm d (j := 3) (by decide) (by decide)
      have f4 := h.tm d (j := 4) (by decide) (by decide)
      have f5 := h.tm d (j := 5) (by decide) (by decide)
      have f6 := h.tm d (j := 6) (by decide) (by decide)
      have f7 := h.tm d (j := 7) (by decide) (by decide)
      have f8 := h.em d (j := 8) (by decide)
      have f9 := h.qm (j := 9) (by decide) (by decide) (by decide)
      have f10 := h.qm (j := 10) (by decide) (by decide) (by decide)
      have f11 := h.qm (j := 11) (by decide) (by decide) (by decide)
      have f12 := h.qm (j := 12) (by decide) (by decide) (by decide)
      have f13 := h.qm (j := 13) (by decide) (by decide) (by decide)
      have f14 := h.qm (j := 14) (by decide) (by decide) (by decide)
      have f15 := h.qm (j := 15) (by decide) (by decide) (by decide)
      simp only [pulseSum, magSum, outside_mag, Int.reduceSub, Int.sub_self]
      omega
    · have fm3 := h.qm (j := (-3)) (by decide) (by decide) (by decide)
      have fm2 := h.qm (j := (-2)) (by decide) (by decide) (by decide)
      have fm1 := h.qm (j := (-1)) (by decide) (by decide) (by decide)
      have f0 := h.qm (j := 0) (by decide) (by decide) (by decide)
      have f1 := h.em d (j := 1) (by decide)
      have f2 := h.tm d (j := 2) (by decide) (by decide)
      have f3 := h.tm d (j := 3) (by decide) (by decide)
      have f4 := h.tm d (j := 4) (by decide) (by decide)
      have f5 := h.tm d (j := 5) (by decide) (by decide)
      have f6 := h.tm d (j := 6) (by decide) (by decide)
      have f7 := h.tm d (j := 7) (by decide) (by decide)
      have f8 := h.tm d (j := 8) (by decide) (by decide)
      have f9 := h.em d (j := 9) (by decide)
      have f10 := h.qm (j := 10) (by decide) (by decide) (by decide)
      have f11 := h.qm (j := 11) (by decide) (by decide) (by decide)
      have f12 := h.qm (j := 12) (by decide) (by decide) (by decide)
      have f13 := h.qm (j := 13) (by decide) (by decide) (by decide)
      have f14 := h.qm (j := 14) (by decide) (by decide) (by decide)
      have f15 := h.qm (j := 15) (by decide) (by decide) (by decide)
      simp only [pulseSum, magSum, outside_mag, Int.reduceSub, Int.sub_self]
      omega
    · have fm3 := h.qm (j := (-3)) (by decide) (by decide) (by decide)
      have fm2 := h.qm (j := (-2)) (by decide) (by decide) (by decide)
      have fm1 := h.qm (j := (-1)) (by decide) (by decide) (by decide)
      have f0 := h.qm (j := 0) (by decide) (by decide) (by decide)
      have f1 := h.em d (j := 1) (by decide)
      have f2 := h.tm d (j := 2) (by decide) (by decide)
      have f3 := h.tm d (j := 3) (by decide) (by decide)
      have f4 := h.tm d (j := 4) (by decide) (by decide)
      have f5 := h.tm d (j := 5) (by decide) (by decide)
      have f6 := h.tm d (j := 6) (by decide) (by decide)
      have f7 := h.tm d (j := 7) (by decide) (by decide)
      have f8 := h.em d (j := 8) (by decide)
      have f9 := h.qm (j := 9) (by decide) (by decide) (by decide)
      have f10 := h.qm (j := 10) (by decide) (by decide) (by decide)
      have f11 := h.qm (j := 11) (by decide) (by decide) (by decide)
      have f12 := h.qm (j := 12) (by decide) (by decide) (by decide)
      have f13 := h.qm (j := 13) (by decide) (by decide) (by decide)
      have f14 := h.qm (j := 14) (by decide) (by decide) (by decide)
      have f15 := h.qm (j := 15) (by decide) (by decide) (by decide)
      simp only [pulseSum, magSum, outside_mag, Int.reduceSub, Int.sub_self]
      omega
  rw [← v2] at key
  have := pulse_nat_bound (y := y) (k := 12) (B := pulseRef y 15 - 1) (by omega) (by omega)
  omega

theorem weak18 (h : PulseAt s y o o') (d : s.Det) : (pulseRef y 18).natAbs < (pulseRef y 15).natAbs := by
  obtain ⟨v1, v2⟩ := h.val15 d
  have key : magSum y 18 - outsideSum y 18 < pulseSum y 15 - outsideSum y 15 := by
    clear v1 v2
    have d1 := d.min; have d2 := d.quiet; have d3 := d.le; have d4 := d.later; have d5 := d.edge0; have d6 := d.edge; have d7 := d.late; have d8 := d.quiet0; have d9 := d.early; have d10 := d.wide
    rcases h.cases with ⟨rfl, rfl⟩ | ⟨rfl, rfl⟩ | ⟨rfl, rfl⟩
    · have f0 := h.em d (j := 0) (by decide)
      have f1 := h.tm d (j := 1) (by decide) (by decide)
      have f2 := h.tm d (j := 2) (by decide) (by decide)
      have f3 := h.tm d (j := 3) (by decide) (by decide)
      have f4 := h.tm d (j := 4) (by decide) (by decide)
      have f5 := h.tm d (j := 5) (by decide) (by decide)
      have f6 := h.tm d (j := 6) (by decide) (by decide)
      have f7 := h.tm d (j := 7) (by decide) (by decide)
      have f8 := h.em d (j := 8) (by decide)
      have f9 := h.qm (j := 9) (by decide) (by decide) (by decide)
      have f10 := h.qm (j := 10) (by decide) (by decide) (by decide)
      have f11 := h.qm (j := 11) (by decide) (by decide) (by decide)
      have f12 := h.qm (j := 12) (by decide) (by decide) (by decide)
      have f13 := h.qm (j := 13) (by decide) (by decide) (by decide)
      have f14 := h.qm (j := 14) (by decide) (by decide) (by decide)
      have f15 := h.qm (j := 15) (by decide) (by decide) (by decide)
      have f16 := h.nm
      have f17 := mag_nonneg y 17
      have f18 := mag_nonneg y 18
      simp only [pulseSum, magSum, outside_mag, Int.reduceSub, Int.sub_self]
      omega
    · have f0 := h.qm (j := 0) (by decide) (by decide) (by decide)
      have f1 := h.em d (j := 1) (by decide)
      have f2 := h.tm d (j := 2) (by decide) (by decide)
      have f3 := h.tm d (j := 3) (by decide) (by decide)
      have f4 := h.tm d (j := 4) (by decide) (by decide)
      have f5 := h.tm d (j := 5) (by decide) (by decide)
      have f6 := h.tm d (j := 6) (by decide) (by decide)
      have f7 := h.tm d (j := 7) (by decide) (by decide)
      have f8 := h.tm d (j := 8) (by decide) (by decide)
      have f9 := h.em d (j := 9) (by decide)
      have f10 := h.qm (j := 10) (by decide) (by decide) (by decide)
      have f11 := h.qm (j := 11) (by decide) (by decide) (by decide)
      have f12 := h.qm (j := 12) (by decide) (by decide) (by decide)
      have f13 := h.qm (j := 13) (by decide) (by decide) (by decide)
      have f14 := h.qm (j := 14) (by decide) (by decide) (by decide)
      have f15 := h.qm (j := 15) (by decide) (by decide) (by decide)
      have f16 := h.nm
      have f17 := mag_nonneg y 17
      have f18 := mag_nonneg y 18
      simp only [pulseSum, magSum, outside_mag, Int.reduceSub, Int.sub_self]
      omega
    · have f0 := h.qm (j := 0) (by decide) (by decide) (by decide)
      have f1 := h.em d (j := 1) (by decide)
      have f2 := h.tm d (j := 2) (by decide) (by decide)
      have f3 := h.tm d (j := 3) (by decide) (by decide)
      have f4 := h.tm d (j := 4) (by decide) (by decide)
      have f5 := h.tm d (j := 5) (by decide) (by decide)
      have f6 := h.tm d (j := 6) (by decide) (by decide)
      have f7 := h.tm d (j := 7) (by decide) (by decide)
      have f8 := h.em d (j := 8) (by decide)
      have f9 := h.qm (j := 9) (by decide) (by decide) (by decide)
      have f10 := h.qm (j := 10) (by decide) (by decide) (by decide)
      have f11 := h.qm (j := 11) (by decide) (by decide) (by decide)
      have f12 := h.qm (j := 12) (by decide) (by decide) (by decide)
      have f13 := h.qm (j := 13) (by decide) (by decide) (by decide)
      have f14 := h.qm (j := 14) (by decide) (by decide) (by decide)
      have f15 := h.qm (j := 15) (by decide) (by decide) (by decide)
      have f16 := h.nm
      have f17 := mag_nonneg y 17
      have f18 := mag_nonneg y 18
      simp only [pulseSum, magSum, outside_mag, Int.reduceSub, Int.sub_self]
      omega
  rw [← v2] at key
  have := pulse_nat_bound (y := y) (k := 18) (B := pulseRef y 15 - 1) (by omega) (by omega)
  omega

theorem weak19 (h : PulseAt s y o o') (d : s.Det) : (pulseRef y 19).natAbs < (pulseRef y 15).natAbs := by
  obtain ⟨v1, v2⟩ := h.val15 d
  have key : magSum y 19 - outsideSum y 19 < pulseSum y 15 - outsideSum y 15 := by
    clear v1 v2
    have d1 := d.min; have d2 := d.quiet; have d3 := d.le; have d4 := d.later; have d5 := d.edge0; have d6 := d.edge; have d7 := d.late; have d8 := d.quiet0; have d9 := d.early; have d10 := d.wide
    rcases h.cases with ⟨rfl, rfl⟩ | ⟨rfl, rfl⟩ | ⟨rfl, rfl⟩
    · have f0 := h.em d (j := 0) (by decide)
      have f1 := h.tm d (j := 1) (by decide) (by decide)
      have f2 := h.tm d (j := 2) (by decide) (by decide)
      have f3 := h.tm d (j := 3) (by decide) (by decide)
      have f4 := h.tm d (j := 4) (by decide) (by decide)
      have f5 := h.tm d (j := 5) (by decide) (by decide)
      have f6 := h.tm d (j := 6) (by decide) (by decide)
      have f7 := h.tm d (j := 7) (by decide) (by decide)
      have f8 := h.em d (j := 8) (by decide)
      have f9 := h.qm (j := 9) (by decide) (by decide) (by decide)
      have f10 := h.qm (j := 10) (by decide) (by decide) (by decide)
      have f11 := h.qm (j := 11) (by decide) (by decide) (by decide)
      have f12 := h.qm (j := 12) (by decide) (by decide) (by decide)
      have f13 := h.qm (j := 13) (by decide) (by decide) (by decide)
      have f14 := h.qm (j := 14) (by decide) (by decide) (by decide)
      have f15 := h.qm (j := 15) (by decide) (by decide) (by decide)
      have f16 := h.nm
      have f17 := mag_nonneg y 17
      have f18 := mag_nonneg y 18
      have f19 := mag_nonneg y 19
      simp only [pulseSum, magSum, outside_mag, Int.reduceSub, Int.sub_self]
      omega
    · have f0 := h.qm (j := 0) (by decide) (by decide) (by decide)
      have f1 := h.em d (j := 1) (by decide)
      have f2 := h.tm d (j := 2) (by decide) (by decide)
      have f3 := h.tm d (j := 3) (by decide) (by decide)
      have f4 := h.tm d (j := 4) (by decide) (by decide)
      have f5 := h.tm d (j := 5) (by decide) (by decide)
      have f6 := h.tm d (j := 6) (by decide) (by decide)
      have f7 := h.tm d (j := 7) (by decide) (by decide)
      have f8 := h.tm d (j := 8) (by decide) (by decide)
      have f9 := h.em d (j := 9) (by decide)
      have f10 := h.qm (j := 10) (by decide) (by decide) (by decide)
      have f11 := h.qm (j := 11) (by decide) (by decide) (by decide)
      have f12 := h.qm (j := 12) (by decide) (by decide) (by decide)
      have f13 := h.qm (j := 13) (by decide) (by decide) (by decide)
      have f14 := h.qm (j := 14) (by decide) (by decide) (by decide)
      have f15 := h.qm (j := 15) (by decide) (by decide) (by decide)
      have f16 := h.nm
      have f17 := mag_nonneg y 17
      have f18 := mag_nonneg y 18
      have f19 := mag_nonneg y 19
      simp only [pulseSum, magSum, outside_mag, Int.reduceSub, Int.sub_self]
      omega
    · have f0 := h.qm (j := 0) (by decide) (by decide) (by decide)
      have f1 := h.em d (j := 1) (by decide)
      have f2 := h.tm d (j := 2) (by decide) (by decide)
      have f3 := h.tm d (j := 3) (by decide) (by decide)
      have f4 := h.tm d (j := 4) (by decide) (by decide)
      have f5 := h.tm d (j := 5) (by decide) (by decide)
      have f6 := h.tm d (j := 6) (by decide) (by decide)
      have f7 := h.tm d (j := 7) (by decide) (by decide)
      have f8 := h.em d (j := 8) (by decide)
      have f9 := h.qm (j := 9) (by decide) (by decide) (by decide)
      have f10 := h.qm (j := 10) (by decide) (by decide) (by decide)
      have f11 := h.qm (j := 11) (by decide) (by decide) (by decide)
      have f12 := h.qm (j := 12) (by decide) (by decide) (by decide)
      have f13 := h.qm (j := 13) (by decide) (by decide) (by decide)
      have f14 := h.qm (j := 14) (by decide) (by decide) (by decide)
      have f15 := h.qm (j := 15) (by decide) (by decide) (by decide)
      have f16 := h.nm
      have f17 := mag_nonneg y 17
      have f18 := mag_nonneg y 18
      have f19 := mag_nonneg y 19
      simp only [pulseSum, magSum, outside_mag, Int.reduceSub, Int.sub_self]
      omega
  rw [← v2] at key
  have := pulse_nat_bound (y := y) (k := 19) (B := pulseRef y 15 - 1) (by omega) (by omega)
  omega

theorem weak20 (h : PulseAt s y o o') (d : s.Det) : (pulseRef y 20).natAbs < (pulseRef y 15).natAbs := by
  obtain ⟨v1, v2⟩ := h.val15 d
  have key : magSum y 20 - outsideSum y 20 < pulseSum y 15 - outsideSum y 15 := by
    clear v1 v2
    have d1 := d.min; have d2 := d.quiet; have d3 := d.le; have d4 := d.later; have d5 := d.edge0; have d6 := d.edge; have d7 := d.late; have d8 := d.quiet0; have d9 := d.early; have d10 := d.wide
    rcases h.cases with ⟨rfl, rfl⟩ | ⟨rfl, rfl⟩ | ⟨rfl, rfl⟩
    · have f0 := h.em d (j := 0) (by decide)
      have f1 := h.tm d (j := 1) (by decide) (by decide)
      have f2 := h.tm d (j := 2) (by decide) (by decide)
      have f3 := h.tm d (j := 3) (by decide) (by decide)
      have f4 := h.tm d (j := 4) (by decide) (by decide)
      have f5 := h.tm d (j := 5) (by decide) (by decide)
      have f6 := h.tm d (j := 6) (by decide) (by decide)
      have f7 := h.tm d (j := 7) (by decide) (by decide)
      have f8 := h.em d (j := 8) (by decide)
      have f9 := h.qm (j := 9) (by decide) (by decide) (by decide)
      have f10 := h.qm (j := 10) (by decide) (by decide) (by decide)
      have f11 := h.qm (j := 11) (by decide) (by decide) (by decide)
      have f12 := h.qm (j := 12) (by decide) (by decide) (by decide)
      have f13 := h.qm (j := 13) (by decide) (by decide) (by decide)
      have f14 := h.qm (j := 14) (by decide) (by decide) (by decide)
      have f15 := h.qm (j := 15) (by decide) (by decide) (by decide)
      have f16 := h.nm
      have f17 := mag_nonneg y 17
      have f18 := mag_nonneg y 18
      have f19 := mag_nonneg y 19
      have f20 := mag_nonneg y 20
      simp only [pulseSum, magSum, outside_mag, Int.reduceSub, Int.sub_self]
      omega
    · have f0 := h.qm (j := 0) (by decide) (by decide) (by decide)
      have f1 := h.em d (j := 1) (by decide)
      have f2 := h.tm d (j := 2) (by decide) (by decide)
      have f3 := h.tm d (j := 3) (by decide) (by decide)
      have f4 := h.tm d (j := 4) (by decide) (by decide)
      have f5 := h.tm d (j := 5) (by decide) (by decide)
      have f6 := h.tm d (j := 6) (by decide) (by decide)
      have f7 := h.tm d (j := 7) (by decide) (by decide)
      have f8 := h.tm d (j := 8) (by decide) (by decide)
      have f9 := h.em d (j := 9) (by decide)
      have f10 := h.qm (j := 10) (by decide) (by decide) (by decide)
      have f11 := h.qm (j := 11) (by decide) (by decide) (by decide)
      have f12 := h.qm (j := 12) (by decide) (by decide) (by decide)
      have f13 := h.qm (j := 13) (by decide) (by decide) (by decide)
      have f14 := h.qm (j := 14) (by decide) (by decide) (by decide)
      have f15 := h.qm (j := 15) (by decide) (by decide) (by decide)
      have f16 := h.nm
      have f17 := mag_nonneg y 17
      have f18 := mag_nonneg y 18
      have f19 := mag_nonneg y 19
      have f20 := mag_nonneg y 20
      simp only [pulseSum, magSum, outside_mag, Int.reduceSub, Int.sub_self]
      omega
    · have f0 := h.qm (j := 0) (by decide) (by decide) (by decide)
      have f1 := h.em d (j := 1) (by decide)
      have f2 := h.tm d (j := 2) (by decide) (by decide)
      have f3 := h.tm d (j := 3) (by decide) (by decide)
      have f4 := h.tm d (j := 4) (by decide) (by decide)
      have f5 := h.tm d (j := 5) (by decide) (by decide)
      have f6 := h.tm d (j := 6) (by decide) (by decide)
      have f7 := h.tm d (j := 7) (by decide) (by decide)
      have f8 := h.em d (j := 8) (by decide)
      have f9 := h.qm (j := 9) (by decide) (by decide) (by decide)
      have f10 := h.qm (j := 10) (by decide) (by decide) (by decide)
      have f11 := h.qm (j := 11) (by decide) (by decide) (by decide)
      have f12 := h.qm (j := 12) (by decide) (by decide) (by decide)
      have f13 := h.qm (j := 13) (by decide) (by decide) (by decide)
      have f14 := h.qm (j := 14) (by decide) (by decide) (by decide)
      have f15 := h.qm (j := 15) (by decide) (by decide) (by decide)
      have f16 := h.nm
      have f17 := mag_nonneg y 17
      have f18 := mag_nonneg y 18
      have f19 := mag_nonneg y 19
      have f20 := mag_nonneg y 20
      simp only [pulseSum, magSum, outside_mag, Int.reduceSub, Int.sub_self]
      omega
  rw [← v2] at key
  have := pulse_nat_bound (y := y) (k := 20) (B := pulseRef y 15 - 1) (by omega) (by omega)
  omega

theorem weak21 (h : PulseAt s y o o') (d : s.Det) : (pulseRef y 21).natAbs < (pulseRef y 15).natAbs := by
  obtain ⟨v1, v2⟩ := h.val15 d
  have key : magSum y 21 - outsideSum y 21 < pulseSum y 15 - outsideSum y 15 := by
    clear v1 v2
    have d1 := d.min; have d2 := d.quiet; have d3 := d.le; have d4 := d.later; have d5 := d.edge0; have d6 := d.edge; have d7 := d.late; have d8 := d.quiet0; have d9 := d.early; have d10 := d.wide
    rcases h.cases with ⟨rfl, rfl⟩ | ⟨rfl, rfl⟩ | ⟨rfl, rfl⟩
    · have f0 := h.em d (j := 0) (by decide)
      have f1 := h.tm d (j := 1) (by decide) (by decide)
      have f2 := h.tm d (j := 2) (by decide) (by decide)
      have f3 := h.tm d (j := 3) (by decide) (by decide)
      have f4 := h.tm d (j := 4) (by decide) (by decide)
      have f5 := h.tm d (j := 5) (by decide) (by decide)
      have f6 := h.tm d (j := 6) (by decide) (by decide)
      have f7 := h.tm d (j := 7) (by decide) (by decide)
      have f8 := h.em d (j := 8) (by decide)
      have f9 := h.qm (j := 9) (by decide) (by decide) (by decide)
      have f10 := h.qm (j := 10) (by decide) (by decide) (by decide)
      have f11 := h.qm (j := 11) (by decide) (by decide) (by decide)
      have f12 := h.qm (j := 12) (by decide) (by decide) (by decide)
      have f13 := h.qm (j := 13) (by decide) (by decide) (by decide)
      have f14 := h.qm (j := 14) (by decide) (by decide) (by decide)
      have f15 := h.qm (j := 15) (by decide) (by decide) (by decide)
      have f16 := h.nm
      have f17 := mag_nonneg y 17
      have f18 := mag_nonneg y 18
      have f19 := mag_nonneg y 19
      have f20 := mag_nonneg y 20
      have f21 := mag_nonneg y 21
      simp only [pulseSum, magSum, outside_mag, Int.reduceSub, Int.sub_self]
      omega
    · have f0 := h.qm (j := 0) (by decide) (by decide) (by decide)
      have f1 := h.em d (j := 1) (by decide)
      have f2 := h.tm d (j := 2) (by decide) (by decide)
      have f3 := h.tm d (j := 3) (by decide) (by decide)
      have f4 := h.tm d (j := 4) (by decide) (by decide)
      have f5 := h.tm d (j := 5) (by decide) (by decide)
      have f6 := h.tm d (j := 6) (by decide) (by decide)
      have f7 := h.tm d (j := 7) (by decide) (by decide)
      have f8 := h.tm d (j := 8) (by decide) (by decide)
      have f9 := h.em d (j := 9) (by decide)
      have f10 := h.qm (j := 10) (by decide) (by decide) (by decide)
      have f11 := h.qm (j := 11) (by decide) (by decide) (by decide)
      have f12 := h.qm (j := 12) (by decide) (by decide) (by decide)
      have f13 := h.qm (j := 13) (by decide) (by decide) (by decide)
      have f14 := h.qm (j := 14) (by decide) (by decide) (by decide)
      have f15 := h.qm (j := 15) (by decide) (by decide) (by decide)
      have f16 := h.nm
      have f17 := mag_nonneg y 17
      have f18 := mag_nonneg y 18
      have f19 := mag_nonneg y 19
      have f20 := mag_nonneg y 20
      have f21 := mag_nonneg y 21
      simp only [pulseSum, magSum, outside_mag, Int.reduceSub, Int.sub_self]
      omega
    · have f0 := h.qm (j := 0) (by decide) (by decide) (by decide)
      have f1 := h.em d (j := 1) (by decide)
      have f2 := h.tm d (j := 2) (by decide) (by decide)
      have f3 := h.tm d (j := 3) (by decide) (by decide)
      have f4 := h.tm d (j := 4) (by decide) (by decide)
      have f5 := h.tm d (j := 5) (by decide) (by decide)
      have f6 := h.tm d (j := 6) (by decide) (by decide)
      have f7 := h.tm d (j := 7) (by decide) (by decide)
      have f8 := h.em d (j := 8) (by decide)
      have f9 := h.qm (j := 9) (by decide) (by decide) (by decide)
      have f10 := h.qm (j := 10) (by decide) (by decide) (by decide)
      have f11 := h.qm (j := 11) (by decide) (by decide) (by decide)
      have f12 := h.qm (j := 12) (by decide) (by decide) (by decide)
      have f13 := h.qm (j := 13) (by decide) (by decide) (by decide)
      have f14 := h.qm (j := 14) (by decide) (by decide) (by decide)
      have f15 := h.qm (j := 15) (by decide) (by decide) (by decide)
      have f16 := h.nm
      have f17 := mag_nonneg y 17
      have f18 := mag_nonneg y 18
      have f19 := mag_nonneg y 19
      have f20 := mag_nonneg y 20
      have f21 := mag_nonneg y 21
      simp only [pulseSum, magSum, outside_mag, Int.reduceSub, Int.sub_self]
      omega
  rw [← v2] at key
  have := pulse_nat_bound (y := y) (k := 21) (B := pulseRef y 15 - 1) (by omega) (by omega)
  omega

/-- Before phase 11 nothing is seen. -/
theorem zero_early (h : PulseAt s y o o') (d : s.Det) {k : Int} (hk : k ≤ 10) (hq : ∀ j, k - 14 ≤ j → j < 0 → s.Quiet (y j)) :
    pulseRef y k = 0 := by
  have d1 := d.min; have d2 := d.quiet; have d3 := d.le; have d4 := d.soon; have d5 := d.edge0; have d6 := d.edge; have d7 := d.max
  have d8 := d.quiet0
  by_cases h7 : k ≤ 7
  · exact quiet7_zero d (fun j h1 h2 => hq j h1 (by omega))
  · apply pulse_zero
    have hk' : k = 8 ∨ k = 9 ∨ k = 10 := by omega
    rcases hk' with rfl | rfl | rfl
    · rcases h.cases with ⟨rfl, rfl⟩ | ⟨rfl, rfl⟩ | ⟨rfl, rfl⟩
      · have fm7 := mag_nonneg y (-7)
        have fm6 := (hq (-6) (by decide) (by decide)).mag
        have fm5 := (hq (-5) (by decide) (by decide)).mag
        have fm4 := (hq (-4) (by decide) (by decide)).mag
        have fm3 := (hq (-3) (by decide) (by decide)).mag
        have fm2 := (hq (-2) (by decide) (by decide)).mag
        have fm1 := (hq (-1) (by decide) (by decide)).mag
        have f0 := h.em d (j := 0) (by decide)
        have f3 := h.tm d (j := 3) (by decide) (by decide)
        have f4 := h.tm d (j := 4) (by decide) (by decide)
        have f5 := h.tm d (j := 5) (by decide) (by decide)
        have f6 := h.tm d (j := 6) (by decide) (by decide)
        have f7 := h.tm d (j := 7) (by decide) (by decide)
        have f8 := h.em d (j := 8) (by decide)
        simp only [pulseSum, magSum, outside_mag, Int.reduceSub, Int.sub_self]
        omega
      · have fm7 := mag_nonneg y (-7)
        have fm6 := (hq (-6) (by decide) (by decide)).mag
        have fm5 := (hq (-5) (by decide) (by decide)).mag
        have fm4 := (hq (-4) (by decide) (by decide)).mag
        have fm3 := (hq (-3) (by decide) (by decide)).mag
        have fm2 := (hq (-2) (by decide) (by decide)).mag
        have fm1 := (hq (-1) (by decide) (by decide)).mag
        have f0 := h.qm (j := 0) (by decide) (by decide) (by decide)
        have f3 := h.tm d (j := 3) (by decide) (by decide)
        have f4 := h.tm d (j := 4) (by decide) (by decide)
        have f5 := h.tm d (j := 5) (by decide) (by decide)
        have f6 := h.tm d (j := 6) (by decide) (by decide)
        have f7 := h.tm d (j := 7) (by decide) (by decide)
        have f8 := h.tm d (j := 8) (by decide) (by decide)
        simp only [pulseSum, magSum, outside_mag, Int.reduceSub, Int.sub_self]
        omega
      · have fm7 := mag_nonneg y (-7)
        have fm6 := (hq (-6) (by decide) (by decide)).mag
        have fm5 := (hq (-5) (by decide) (by decide)).mag
        have fm4 := (hq (-4) (by decide) (by decide)).mag
        have fm3 := (hq (-3) (by decide) (by decide)).mag
        have fm2 := (hq (-2) (by decide) (by decide)).mag
        have fm1 := (hq (-1) (by decide) (by decide)).mag
        have f0 := h.qm (j := 0) (by decide) (by decide) (by decide)
        have f3 := h.tm d (j := 3) (by decide) (by decide)
        have f4 := h.tm d (j := 4) (by decide) (by decide)
        have f5 := h.tm d (j := 5) (by decide) (by decide)
        have f6 := h.tm d (j := 6) (by decide) (by decide)
        have f7 := h.tm d (j := 7) (by decide) (by decide)
        have f8 := h.em d (j := 8) (by decide)
        simp only [pulseSum, magSum, outside_mag, Int.reduceSub, Int.sub_self]
        omega
    · rcases h.cases with ⟨rfl, rfl⟩ | ⟨rfl, rfl⟩ | ⟨rfl, rfl⟩
      · have fm6 := mag_nonneg y (-6)
        have fm5 := (hq (-5) (by decide) (by decide)).mag
        have fm4 := (hq (-4) (by decide) (by decide)).mag
        have fm3 := (hq (-3) (by decide) (by decide)).mag
        have fm2 := (hq (-2) (by decide) (by decide)).mag
        have fm1 := (hq (-1) (by decide) (by decide)).mag
        have f0 := h.em d (j := 0) (by decide)
        have f1 := h.tm d (j := 1) (by decide) (by decide)
        have f4 := h.tm d (j := 4) (by decide) (by decide)
        have f5 := h.tm d (j := 5) (by decide) (by decide)
        have f6 := h.tm d (j := 6) (by decide) (by decide)
        have f7 := h.tm d (j := 7) (by decide) (by decide)
        have f8 := h.em d (j := 8) (by decide)
        have f9 := h.qm (j := 9) (by decide) (by decide) (by decide)
        simp only [pulseSum, magSum, outside_mag, Int.reduceSub, Int.sub_self]
        omega
      · have fm6 := mag_nonneg y (-6)
        have fm5 := (hq (-5) (by decide) (by decide)).mag
        have fm4 := (hq (-4) (by decide) (by decide)).mag
        have fm3 := (hq (-3) (by decide) (by decide)).mag
        have fm2 := (hq (-2) (by decide) (by decide)).mag
        have fm1 := (hq (-1) (by decide) (by decide)).mag
        have f0 := h.qm (j := 0) (by decide) (by decide) (by decide)
        have f1 := h.em d (j := 1) (by decide)
        have f4 := h.tm d (j := 4) (by decide) (by decide)
        have f5 := h.tm d (j := 5) (by decide) (by decide)
        have f6 := h.tm d (j := 6) (by decide) (by decide)
        have f7 := h.tm d (j := 7) (by decide) (by decide)
        have f8 := h.tm d (j := 8) (by decide) (by decide)
        have f9 := h.em d (j := 9) (by decide)
        simp only [pulseSum, magSum, outside_mag, Int.reduceSub, Int.sub_self]
        omega
      · have fm6 := mag_nonneg y (-6)
        have fm5 := (hq (-5) (by decide) (by decide)).mag
        have fm4 := (hq (-4) (by decide) (by decide)).mag
        have fm3 := (hq (-3) (by decide) (by decide)).mag
        have fm2 := (hq (-2) (by decide) (by decide)).mag
        have fm1 := (hq (-1) (by decide) (by decide)).mag
        have f0 := h.qm (j := 0) (by decide) (by decide) (by decide)
        have f1 := h.em d (j := 1) (by decide)
        have f4 := h.tm d (j := 4) (by decide) (by decide)
        have f5 := h.tm d (j := 5) (by decide) (by decide)
        have f6 := h.tm d (j := 6) (by decide) (by decide)
        have f7 := h.tm d (j := 7) (by decide) (by decide)
        have f8 := h.em d (j := 8) (by decide)
        have f9 := h.qm (j := 9) (by decide) (by decide) (by decide)
        simp only [pulseSum, magSum, outside_mag, Int.reduceSub, Int.sub_self]
        omega
    · rcases h.cases with ⟨rfl, rfl⟩ | ⟨rfl, rfl⟩ | ⟨rfl, rfl⟩
      · have fm5 := mag_nonneg y (-5)
        have fm4 := (hq (-4) (by decide) (by decide)).mag
        have fm3 := (hq (-3) (by decide) (by decide)).mag
        have fm2 := (hq (-2) (by decide) (by decide)).mag
        have fm1 := (hq (-1) (by decide) (by decide)).mag
        have f0 := h.em d (j := 0) (by decide)
        have f1 := h.tm d (j := 1) (by decide) (by decide)
        have f2 := h.tm d (j := 2) (by decide) (by decide)
        have f5 := h.tm d (j := 5) (by decide) (by decide)
        have f6 := h.tm d (j := 6) (by decide) (by decide)
        have f7 := h.tm d (j := 7) (by decide) (by decide)
        have f8 := h.em d (j := 8) (by decide)
        have f9 := h.qm (j := 9) (by decide) (by decide) (by decide)
        have f10 := h.qm (j := 10) (by decide) (by decide) (by decide)
        simp only [pulseSum, magSum, outside_mag, Int.reduceSub, Int.sub_self]
        omega
      · have fm5 := mag_nonneg y (-5)
        have fm4 := (hq (-4) (by decide) (by decide)).mag
        have fm3 := (hq (-3) (by decide) (by decide)).mag
        have fm2 := (hq (-2) (by decide) (by decide)).mag
        have fm1 := (hq (-1) (by decide) (by decide)).mag
        have f0 := h.qm (j := 0) (by decide) (by decide) (by decide)
        have f1 := h.em d (j := 1) (by decide)
        have f2 := h.tm d (j := 2) (by decide) (by decide)
        have f5 := h.tm d (j := 5) (by decide) (by decide)
        have f6 := h.tm d (j := 6) (by decide) (by decide)
        have f7 := h.tm d (j := 7) (by decide) (by decide)
        have f8 := h.tm d (j := 8) (by decide) (by decide)
        have f9 := h.em d (j := 9) (by decide)
        have f10 := h.qm (j := 10) (by decide) (by decide) (by decide)
        simp only [pulseSum, magSum, outside_mag, Int.reduceSub, Int.sub_self]
        omega
      · have fm5 := mag_nonneg y (-5)
        have fm4 := (hq (-4) (by decide) (by decide)).mag
        have fm3 := (hq (-3) (by decide) (by decide)).mag
        have fm2 := (hq (-2) (by decide) (by decide)).mag
        have fm1 := (hq (-1) (by decide) (by decide)).mag
        have f0 := h.qm (j := 0) (by decide) (by decide) (by decide)
        have f1 := h.em d (j := 1) (by decide)
        have f2 := h.tm d (j := 2) (by decide) (by decide)
        have f5 := h.tm d (j := 5) (by decide) (by decide)
        have f6 := h.tm d (j := 6) (by decide) (by decide)
        have f7 := h.tm d (j := 7) (by decide) (by decide)
        have f8 := h.em d (j := 8) (by decide)
        have f9 := h.qm (j := 9) (by decide) (by decide) (by decide)
        have f10 := h.qm (j := 10) (by decide) (by decide) (by decide)
        simp only [pulseSum, magSum, outside_mag, Int.reduceSub, Int.sub_self]
        omega

end PulseAt

end P1P2
