import Verif.Proofs.FrontBoot
import Verif.Props.Core1
/-!
# The signal chain up to the DC blocker as a whole
-/
namespace P1P2

theorem fir_bound {v : Nat → Int} (hv : ∀ k, -9984 ≤ v k ∧ v k ≤ 9984) (k : Nat) : -12978 ≤ firRef v k ∧ firRef v k ≤ 12978 := by
  have h := past_bound (B := 9984) (by decide) hv
  have h0 := h ((k : Int)); have h1 := h ((k : Int) - 1); have h2 := h ((k : Int) - 2); have h3 := h ((k : Int) - 3)
  have h4 := h ((k : Int) - 4); have h5 := h ((k : Int) - 5); have h6 := h ((k : Int) - 6)
  unfold firRef
  omega

/-- State of the chain after `k` samples. -/
structure FrontInv (v : Nat → Int) (k : Nat) (c : RxFront) : Prop where
  reg : c.fir.reg.Win 7 (winOf 7 (past v) k)
  coeff : c.fir.coeff.Win 7 firCoeff
  n : c.rs.n = 1
  counter : c.rs.counter = k % 2
  dc : DcInv (decimated v) 12978 ((k + 1) / 2) c.dc

theorem FrontInv.init (v : Nat → Int) : FrontInv v 0 .init :=
  ⟨(ShiftReg.Win.zero (by decide)).congr (fun i hi => winOf_zero v i hi), ShiftReg.Win.mk' (by decide) _, rfl, rfl, dcInv_init _ (by decide)⟩

theorem FrontInv.step {v : Nat → Int} (hv : ∀ k, -9984 ≤ v k ∧ v k ≤ 9984) {k : Nat} {c : RxFront} (h : FrontInv v k c) :
    ∃ c', c.step (v k) = .ok (c', if k % 2 = 0 then some (dcRef (decimated v) (k / 2)) else none) ∧ FrontInv v (k + 1) c' := by
  obtain ⟨r, h1, h2⟩ := h.reg.update (v k)
  have h2 : r.Win 7 (winOf 7 (past v) (k + 1)) := h2.congr (fun i hi => slide_winOf v k i hi)
  have hf : c.fir.update (v k) = .ok ({ c.fir with reg := r }, firRef v k) := by
    simp only [Fir.update, h1, Res.ok_bind]
    rw [convolute_ok h2 h.coeff (fun i _ => past_bound (by decide) (fun k => by have := hv k; omega) _)]
    simp only [Res.ok_bind]
    congr 2
    unfold firRef winOf
    have e : ∀ i : Nat, ((k + 1 : Nat) : Int) - (7 : Nat) + (i : Nat) = k - (6 - i) := by intro i; omega
    simp only [e]
    simp
  have hn := h.n
  have hc := h.counter
  unfold RxFront.step
  rw [hf]
  simp only [Res.ok_bind, Resample.update, hc, hn]
  rcases Nat.mod_two_eq_zero_or_one k with hp | hp
  · simp only [hp, if_true]
    have hk : k = 2 * (k / 2) := by omega
    obtain ⟨d, e1, e2⟩ := dcInv_step (x := decimated v) (M := 12978) (by decide) (fun n => fir_bound hv (2 * n)) h.dc
    rw [show (k + 1) / 2 = k / 2 by omega] at e1
    have e3 : decimated v (k / 2) = firRef v k := by unfold decimated; rw [← hk]
    rw [e3] at e1
    rw [e1]
    refine ⟨_, rfl, ⟨h2, h.coeff, rfl, ?_, ?_⟩⟩
    · show (if (0 + 1 > 1) then 0 else 0 + 1) = (k + 1) % 2
      rw [if_neg (by omega)]; omega
    · show DcInv _ _ ((k + 1 + 1) / 2) d
      rw [show (k + 1 + 1) / 2 = (k + 1) / 2 + 1 by omega]
      exact e2
  · simp only [hp]
    refine ⟨_, rfl, ⟨h2, h.coeff, rfl, ?_, ?_⟩⟩
    · show (if (1 + 1 > 1) then 0 else 1 + 1) = (k + 1) % 2
      rw [if_pos (by omega)]; omega
    · show DcInv _ _ ((k + 1 + 1) / 2) c.dc
      rw [show (k + 1 + 1) / 2 = (k + 1) / 2 by omega]
      exact h.dc

theorem front_range {v : Nat → Int} (hv : ∀ k, -9984 ≤ v k ∧ v k ≤ 9984) : ∀ (N k : Nat) {c : RxFront}, FrontInv v k c →
    ∃ c', RxFront.run c ((List.range' k N).map v) =
      .ok (c', (List.range' k N).filterMap fun j => if j % 2 = 0 then some (dcRef (decimated v) (j / 2)) else none) := by
  intro N
  induction N with
  | zero => intro k c _; exact ⟨c, rfl⟩
  | succ N ih =>
    intro k c h
    obtain ⟨c1, e1, h1⟩ := h.step hv
    obtain ⟨c2, e2⟩ := ih (k + 1) h1
    refine ⟨c2, ?_⟩
    rw [List.range'_succ, List.map_cons, RxFront.run, e1]
    simp only [Res.ok_bind, e2]
    rw [List.filterMap_cons]
    rcases Nat.mod_two_eq_zero_or_one k with hp | hp
    · simp only [hp, if_true]; rfl
    · simp only [hp]; rfl

theorem even_range (f : Nat → Int) : ∀ N : Nat, ((List.range N).filterMap fun j => if j % 2 = 0 then some (f (j / 2)) else none) =
    (List.range ((N + 1) / 2)).map f := by
  intro N
  induction N with
  | zero => rfl
  | succ N ih =>
    rw [List.range_succ, List.filterMap_append, ih]
    rcases Nat.mod_two_eq_zero_or_one N with hp | hp
    · rw [show (N + 1 + 1) / 2 = (N + 1) / 2 + 1 by omega, List.range_succ, List.map_append]
      simp only [List.filterMap_cons, List.filterMap_nil, hp, if_true, List.map_cons, List.map_nil]
      rw [show (N + 1) / 2 = N / 2 by omega]
    · rw [show (N + 1 + 1) / 2 = (N + 1) / 2 by omega]
      simp [hp]

/-- The chain up to the DC blocker on the first `N` samples. -/
theorem front_run {v : Nat → Int} (hv : ∀ k, -9984 ≤ v k ∧ v k ≤ 9984) (N : Nat) :
    ∃ c', RxFront.run .init ((List.range N).map v) = .ok (c', (List.range ((N + 1) / 2)).map (dcRef (decimated v))) := by
  obtain ⟨c', e⟩ := front_range hv N 0 (FrontInv.init v)
  rw [← List.range_eq_range', even_range] at e
  exact ⟨c', e⟩

end P1P2
