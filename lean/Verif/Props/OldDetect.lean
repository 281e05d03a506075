import Verif.Model.OldDetect
import Verif.Props.Dsp
/-!
# Property C106: the fast pulse detector computes what the convolutions compute
-/
namespace P1P2

theorem convolute_isum {N : Nat} {a b : ShiftReg Int} {w c : Nat → Int} {B : Int} (hB : 0 ≤ B) (hN : N * B ≤ 2147483647) (hB' : B ≤ 2147483647) (ha : a.Win N w) (hb : b.Win N c)
    (h : ∀ i < N, -B ≤ w i * c i ∧ w i * c i ≤ B) : convolute N a b = .ok (isum (fun i => w i * c i) 0 N) := by
  unfold convolute
  rw [sumLoop_ok (f := fun i => w i * c i) hB]
  · rw [Int.zero_add]
  · intro i _ hi
    have hi : i < N := by omega
    obtain ⟨h1, h2⟩ := h i hi
    refine ⟨?_, h1, h2⟩
    rw [ha.ptr hi, hb.ptr hi]
    simp only [Res.ok_bind]
    rw [i32_ok (by omega) (by omega)]
  · omega
  · omega

/-- What the registers hold after `n` samples. -/
structure OldInv (x : Nat → Int) (n : Nat) (d : OldDetect) : Prop where
  reg : d.reg.Win 16 (winOf 16 (past x) n)
  abs : d.regAbs.Win 16 (winOf 16 (past fun k => ((x k).natAbs : Int)) n)
  ca : d.absolute.Win 16 oldAbs
  ch : d.high.Win 16 oldHigh
  cl : d.low.Win 16 oldLow

theorem oldInv_init (x : Nat → Int) : OldInv x 0 OldDetect.init :=
  ⟨(ShiftReg.Win.zero (by decide)).congr (fun i hi => winOf_zero x i hi), (ShiftReg.Win.zero (by decide)).congr (fun i hi => winOf_zero _ i hi),
    ShiftReg.Win.mk' (by decide) _, ShiftReg.Win.mk' (by decide) _, ShiftReg.Win.mk' (by decide) _⟩

theorem old_coeff : ∀ i < 16, (oldAbs i = 0 ∨ oldAbs i = -1) ∧ (oldHigh i = 0 ∨ oldHigh i = 1) ∧ (oldLow i = 0 ∨ oldLow i = -1) := by decide

theorem coeff_bound {v c B : Int} (hB : 0 ≤ B) (hv : -B ≤ v ∧ v ≤ B) (hc : c = 0 ∨ c = 1 ∨ c = -1) : -B ≤ v * c ∧ v * c ≤ B := by
  rcases hc with rfl | rfl | rfl <;> simp <;> omega

theorem past_abs (x : Nat → Int) (t : Int) : past (fun k => ((x k).natAbs : Int)) t = ((past x t).natAbs : Int) := by
  unfold past; split <;> rfl

theorem old_step {x : Nat → Int} (hx : ∀ k, -2340 ≤ x k ∧ x k ≤ 2340) {n : Nat} {d : OldDetect} (h : OldInv x n d) :
    ∃ d', d.update (x n) = .ok (d', pulseSum (past x) n - outsideSum (past x) n, -pulseSum (past x) n - outsideSum (past x) n) ∧ OldInv x (n + 1) d' := by
  obtain ⟨r, h1, h2⟩ := h.reg.push (x n)
  obtain ⟨ra, h3, h4⟩ := h.abs.push ((x n).natAbs : Int)
  have h2 : r.Win 16 (winOf 16 (past x) (n + 1)) := h2.congr (fun i hi => slide_winOf x n i hi)
  have h4 : ra.Win 16 (winOf 16 (past fun k => ((x k).natAbs : Int)) (n + 1)) := h4.congr (fun i hi => slide_winOf (fun k => ((x k).natAbs : Int)) n i hi)
  have hp := fun t => past_bound (x := x) (B := 2340) (by decide) hx t
  have hval : toI16 (if x n < 0 then -x n else x n) = ((x n).natAbs : Int) := by
    have := hx n
    rw [toI16_of_range] <;> split <;> omega
  have bw : ∀ i < 16, -2340 ≤ winOf 16 (past x) (n + 1) i ∧ winOf 16 (past x) (n + 1) i ≤ 2340 := fun i _ => hp _
  have ba : ∀ i < 16, -2340 ≤ winOf 16 (past fun k => ((x k).natAbs : Int)) (n + 1) i ∧ winOf 16 (past fun k => ((x k).natAbs : Int)) (n + 1) i ≤ 2340 := by
    intro i _
    unfold winOf
    rw [past_abs]
    have := hp ((n + 1 : Nat) - (16 : Nat) + (i : Nat))
    omega
  have ea := convolute_isum (B := 2340) (by decide) (by decide) (by decide) h4 h.ca
    (fun i hi => coeff_bound (by decide) (ba i hi) (by have := (old_coeff i hi).1; omega))
  have el := convolute_isum (B := 2340) (by decide) (by decide) (by decide) h2 h.cl
    (fun i hi => coeff_bound (by decide) (bw i hi) (by have := (old_coeff i hi).2.2; omega))
  have eh := convolute_isum (B := 2340) (by decide) (by decide) (by decide) h2 h.ch
    (fun i hi => coeff_bound (by decide) (bw i hi) (by have := (old_coeff i hi).2.1; omega))
  have e : ∀ (y : Int → Int) (i : Nat) (d : Int), (15 : Int) - i = d → winOf 16 y (n + 1) i = y (n - d) := by
    intro y i d hd; unfold winOf; congr 1; omega
  have sa : isum (fun i => winOf 16 (past fun k => ((x k).natAbs : Int)) (n + 1) i * oldAbs i) 0 16 = -outsideSum (past x) n := by
    unfold outsideSum
    simp only [isum, Nat.reduceAdd, show oldAbs 0 = -1 from rfl, show oldAbs 1 = 0 from rfl, show oldAbs 2 = 0 from rfl, show oldAbs 3 = 0 from rfl,
      show oldAbs 4 = 0 from rfl, show oldAbs 5 = 0 from rfl, show oldAbs 6 = 0 from rfl, show oldAbs 7 = 0 from rfl, show oldAbs 8 = 0 from rfl,
      show oldAbs 9 = 0 from rfl, show oldAbs 10 = -1 from rfl, show oldAbs 11 = -1 from rfl, show oldAbs 12 = -1 from rfl, show oldAbs 13 = -1 from rfl,
      show oldAbs 14 = -1 from rfl, show oldAbs 15 = -1 from rfl, e _ 0 15 (by decide), e _ 10 5 (by decide), e _ 11 4 (by decide), e _ 12 3 (by decide),
      e _ 13 2 (by decide), e _ 14 1 (by decide), e _ 15 0 (by decide), past_abs, Int.sub_zero]
    omega
  have sh : isum (fun i => winOf 16 (past x) (n + 1) i * oldHigh i) 0 16 = pulseSum (past x) n := by
    unfold pulseSum
    simp only [isum, Nat.reduceAdd, show oldHigh 0 = 0 from rfl, show oldHigh 1 = 1 from rfl, show oldHigh 2 = 1 from rfl, show oldHigh 3 = 1 from rfl,
      show oldHigh 4 = 1 from rfl, show oldHigh 5 = 1 from rfl, show oldHigh 6 = 1 from rfl, show oldHigh 7 = 1 from rfl, show oldHigh 8 = 0 from rfl,
      show oldHigh 9 = 0 from rfl, show oldHigh 10 = 0 from rfl, show oldHigh 11 = 0 from rfl, show oldHigh 12 = 0 from rfl, show oldHigh 13 = 0 from rfl,
      show oldHigh 14 = 0 from rfl, show oldHigh 15 = 0 from rfl, e _ 1 14 (by decide), e _ 2 13 (by decide), e _ 3 12 (by decide), e _ 4 11 (by decide),
      e _ 5 10 (by decide), e _ 6 9 (by decide), e _ 7 8 (by decide)]
    omega
  have sl : isum (fun i => winOf 16 (past x) (n + 1) i * oldLow i) 0 16 = -pulseSum (past x) n := by
    unfold pulseSum
    simp only [isum, Nat.reduceAdd, show oldLow 0 = 0 from rfl, show oldLow 1 = -1 from rfl, show oldLow 2 = -1 from rfl, show oldLow 3 = -1 from rfl,
      show oldLow 4 = -1 from rfl, show oldLow 5 = -1 from rfl, show oldLow 6 = -1 from rfl, show oldLow 7 = -1 from rfl, show oldLow 8 = 0 from rfl,
      show oldLow 9 = 0 from rfl, show oldLow 10 = 0 from rfl, show oldLow 11 = 0 from rfl, show oldLow 12 = 0 from rfl, show oldLow 13 = 0 from rfl,
      show oldLow 14 = 0 from rfl, show oldLow 15 = 0 from rfl, e _ 1 14 (by decide), e _ 2 13 (by decide), e _ 3 12 (by decide), e _ 4 11 (by decide),
      e _ 5 10 (by decide), e _ 6 9 (by decide), e _ 7 8 (by decide)]
    omega
  have bs : -(7 * 2340) ≤ pulseSum (past x) n ∧ pulseSum (past x) n ≤ 7 * 2340 := by
    unfold pulseSum
    have := hp (n - 14); have := hp (n - 13); have := hp (n - 12); have := hp (n - 11); have := hp (n - 10); have := hp (n - 9); have := hp (n - 8)
    omega
  have bo : 0 ≤ outsideSum (past x) n ∧ outsideSum (past x) n ≤ 7 * 2340 := by
    unfold outsideSum
    have := hp (n - 15); have := hp (n - 5); have := hp (n - 4); have := hp (n - 3); have := hp (n - 2); have := hp (n - 1); have := hp n
    omega
  refine ⟨{ d with reg := r, regAbs := ra }, ?_, ⟨h2, h4, h.ca, h.ch, h.cl⟩⟩
  unfold OldDetect.update
  rw [h1, Res.ok_bind, hval]
  dsimp only
  rw [h3, Res.ok_bind]
  dsimp only
  rw [ea, Res.ok_bind, el, Res.ok_bind, eh, Res.ok_bind, sa, sl, sh, i32_ok (by omega) (by omega), Res.ok_bind, i32_ok (by omega) (by omega), Res.ok_bind,
    toI16_of_range (by omega) (by omega), toI16_of_range (by omega) (by omega)]
  congr 3 <;> omega

/-- **C106.** For every signal within 2340 mV, sample by sample: the detector in use reports the probability of the convolutions if it reaches the receiver level
(positive for a high pulse, negated for a low one), and otherwise 0. -/
theorem C106_fast_detector (x : Nat → Int) (hx : ∀ k, -2340 ≤ x k ∧ x k ≤ 2340) (n : Nat) :
    ∃ b d ps, feed OldDetect.update OldDetect.init x n = .ok (d, ps) ∧
      feed (BitDetect.update 16) BitDetect.main x n =
        .ok (b, ps.map fun p => if p.1 ≥ 4921 then p.1 else if p.2 ≥ 4921 then -p.2 else 0) := by
  obtain ⟨b, h⟩ := C40_detector x (fun k => by have := hx k; omega) n
  obtain ⟨d, h', -⟩ := feed_ind (step := OldDetect.update) (s := OldDetect.init) (x := x) (OldInv x)
    (fun k : Nat => (pulseSum (past x) k - outsideSum (past x) k, -pulseSum (past x) k - outsideSum (past x) k)) (oldInv_init x) (fun n d h => old_step hx h) n
  refine ⟨b, d, _, h', ?_⟩
  rw [h, List.map_map]
  congr 2
  apply List.map_congr_left
  intro k _
  simp only [Function.comp, pulseRef]
  congr 2
  omega

/-- A pulse of 2000 mV: the detectors agree on 14000 in its middle; and (with the limit exceeded) a loud constant level of 4000 mV, for which the
convolutions overflow 16 bits and would report a pulse. -/
example : (∃ d ps, feed OldDetect.update OldDetect.init (fun k => if k < 8 then 2000 else 0) 16 = .ok (d, ps) ∧ ps[14]? = some (14000, -14000)) ∧
    (∃ d ps, feed OldDetect.update OldDetect.init (fun k => if k < 16 then (-4000 : Int) else 0) 16 = .ok (d, ps) ∧ ps[15]? = some (9536, 0)) :=
  ⟨⟨_, _, rfl, by decide +kernel⟩, ⟨_, _, rfl, by decide +kernel⟩⟩

end P1P2
