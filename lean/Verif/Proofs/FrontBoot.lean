import Verif.Proofs.FrontFir
/-!
# The first samples after the start
-/
namespace P1P2

theorem mv_quiet {a c : Int} {L : Nat → Level} {q : Nat → UInt8} (h : Codes a c L q) (hL : ∀ k, k < 9 → L k = .mid) (i : Nat) (h1 : 2 ≤ i)
    (h2 : i < 9) : -49 ≤ rawMv q i ∧ rawMv q i ≤ 49 := by
  obtain ⟨k, rfl⟩ : ∃ k, i = k + 2 := ⟨i - 2, by omega⟩
  have := raw_mv h k
  rw [hL _ (by omega), hL _ (by omega), hL _ (by omega)] at this
  simp only [Level.sign, Int.mul_zero] at this
  omega

theorem mv_zero {q : Nat → UInt8} : -2496 ≤ rawMv q 0 ∧ rawMv q 0 ≤ 0 := by
  have h0 := rawHist_nat q 0
  have hq := (q 0).toNat_lt
  have ht := tdiv2 (rawHist q ((0 : Nat) : Int) + 0)
  unfold rawMv adcRef
  rw [rawHist_neg q (j := ((0 : Nat) : Int) - 2) (by omega), rawHist_neg q (j := ((0 : Nat) : Int) - 1) (by omega)]
  rw [if_pos rfl] at h0
  generalize rawHist q ((0 : Nat) : Int) = y at *
  have : (y + 0).tdiv 2 ≤ 0 := by
    have : (y + 0).tdiv 2 = -((-(y + 0)).tdiv 2) := by rw [Int.neg_tdiv, Int.neg_neg]
    rw [this, Int.tdiv_eq_ediv_of_nonneg (by omega)]; omega
  generalize (y + 0).tdiv 2 = d at *
  omega

theorem mv_one {a c : Int} {L : Nat → Level} {q : Nat → UInt8} (h : Codes a c L q) (hL : ∀ k, k < 9 → L k = .mid) :
    -2554 ≤ rawMv q 1 ∧ rawMv q 1 ≤ 60 := by
  have h0 := (raw_code h 0).1 rfl
  have h1 := (raw_code h 1).2 rfl
  have e0 := rawHist_nat q 0
  have e1 := rawHist_nat q 1
  have hq := (q 0).toNat_lt
  have ht := tdiv2 (rawHist q ((1 : Nat) : Int) + 0)
  rw [hL 0 (by decide)] at h0
  rw [hL 1 (by decide)] at h1
  simp only [Level.sign, Int.mul_zero] at h0 h1
  unfold rawMv adcRef
  rw [rawHist_neg q (j := ((1 : Nat) : Int) - 2) (by omega), show ((1 : Nat) : Int) - 1 = ((0 : Nat) : Int) by omega]
  rw [if_pos rfl] at e0
  rw [if_neg (by decide)] at e1
  generalize rawHist q ((0 : Nat) : Int) = y0 at *
  generalize rawHist q ((1 : Nat) : Int) = y1 at *
  generalize (y1 + 0).tdiv 2 = d at *
  omega

/-- Samples 0 to 3 in front of the DC blocker. -/
theorem boot_x {a c : Int} {L : Nat → Level} {q : Nat → UInt8} (h : Codes a c L q) (hL : ∀ k, k < 9 → L k = .mid) :
    (-180 ≤ rawX q 0 ∧ rawX q 0 ≤ 180) ∧ (-910 ≤ rawX q 1 ∧ rawX q 1 ≤ 910) ∧ (-1905 ≤ rawX q 2 ∧ rawX q 2 ≤ 1905) ∧
      (-380 ≤ rawX q 3 ∧ rawX q 3 ≤ 380) := by
  have v0 := mv_zero (q := q)
  have v1 := mv_one h hL
  have v2 := mv_quiet h hL 2 (by decide) (by decide)
  have v3 := mv_quiet h hL 3 (by decide) (by decide)
  have v4 := mv_quiet h hL 4 (by decide) (by decide)
  have v5 := mv_quiet h hL 5 (by decide) (by decide)
  have v6 := mv_quiet h hL 6 (by decide) (by decide)
  have hn : ∀ j : Int, j < 0 → past (rawMv q) j = 0 := fun j hj => by unfold past; rw [if_pos hj]
  refine ⟨?_, ?_, ?_, ?_⟩
  · show _ ≤ firRef (rawMv q) 0 ∧ firRef (rawMv q) 0 ≤ _
    unfold firRef
    rw [hn (((0 : Nat) : Int) - 6) (by decide), hn (((0 : Nat) : Int) - 5) (by decide), hn (((0 : Nat) : Int) - 4) (by decide),
      hn (((0 : Nat) : Int) - 3) (by decide), hn (((0 : Nat) : Int) - 2) (by decide), hn (((0 : Nat) : Int) - 1) (by decide), past_nat]
    omega
  · show _ ≤ firRef (rawMv q) 2 ∧ firRef (rawMv q) 2 ≤ _
    unfold firRef
    rw [hn (((2 : Nat) : Int) - 6) (by decide), hn (((2 : Nat) : Int) - 5) (by decide), hn (((2 : Nat) : Int) - 4) (by decide),
      hn (((2 : Nat) : Int) - 3) (by decide), show ((2 : Nat) : Int) - 2 = ((0 : Nat) : Int) by decide,
      show ((2 : Nat) : Int) - 1 = ((1 : Nat) : Int) by decide]
    simp only [past_nat]
    omega
  · show _ ≤ firRef (rawMv q) 4 ∧ firRef (rawMv q) 4 ≤ _
    unfold firRef
    rw [hn (((4 : Nat) : Int) - 6) (by decide), hn (((4 : Nat) : Int) - 5) (by decide), show ((4 : Nat) : Int) - 4 = ((0 : Nat) : Int) by decide,
      show ((4 : Nat) : Int) - 3 = ((1 : Nat) : Int) by decide, show ((4 : Nat) : Int) - 2 = ((2 : Nat) : Int) by decide,
      show ((4 : Nat) : Int) - 1 = ((3 : Nat) : Int) by decide]
    simp only [past_nat]
    omega
  · show _ ≤ firRef (rawMv q) 6 ∧ firRef (rawMv q) 6 ≤ _
    unfold firRef
    rw [show ((6 : Nat) : Int) - 6 = ((0 : Nat) : Int) by decide, show ((6 : Nat) : Int) - 5 = ((1 : Nat) : Int) by decide,
      show ((6 : Nat) : Int) - 4 = ((2 : Nat) : Int) by decide,
      show ((6 : Nat) : Int) - 3 = ((3 : Nat) : Int) by decide, show ((6 : Nat) : Int) - 2 = ((4 : Nat) : Int) by decide,
      show ((6 : Nat) : Int) - 1 = ((5 : Nat) : Int) by decide]
    simp only [past_nat]
    omega

/-- Baseline and outputs during the first samples. -/
theorem boot_dc {x : Nat → Int} (h0 : -180 ≤ x 0 ∧ x 0 ≤ 180) (h1 : -910 ≤ x 1 ∧ x 1 ≤ 910) (h2 : -1905 ≤ x 2 ∧ x 2 ≤ 1905)
    (h3 : -380 ≤ x 3 ∧ x 3 ≤ 380) (h4 : -66 ≤ x 4 ∧ x 4 ≤ 66) (h5 : -66 ≤ x 5 ∧ x 5 ≤ 66) :
    (-7000 ≤ dcB x 4 ∧ dcB x 4 ≤ 7000) ∧ (∀ k, k < 6 → ((dcRef x k).natAbs : Int) ≤ [180, 915, 1920, 410, 100, 100].getD k 0) := by
  have b0 := dcB_zero x
  have b1 := dcB_succ x 0
  have b2 := dcB_succ x 1
  have b3 := dcB_succ x 2
  have b4 := dcB_succ x 3
  have b5 := dcB_succ x 4
  have z0 := dcRef_eq x 0; have z1 := dcRef_eq x 1; have z2 := dcRef_eq x 2
  have z3 := dcRef_eq x 3; have z4 := dcRef_eq x 4; have z5 := dcRef_eq x 5
  simp only [Nat.reduceAdd] at *
  refine ⟨by omega, fun k hk => ?_⟩
  match k, hk with
  | 0, _ => show _ ≤ (180 : Int); omega
  | 1, _ => show _ ≤ (915 : Int); omega
  | 2, _ => show _ ≤ (1920 : Int); omega
  | 3, _ => show _ ≤ (410 : Int); omega
  | 4, _ => show _ ≤ (100 : Int); omega
  | 5, _ => show _ ≤ (100 : Int); omega

/-- The signal without the first six samples. -/
def silenced (z : Nat → Int) (k : Nat) : Int := if k < 6 then 0 else z k

theorem levelOut_abs (z : Nat → Int) (k : Nat) : (levelOut z k).natAbs ≤ (z k).natAbs := by
  unfold levelOut
  split <;> omega

/-- The first six samples do not matter for the pulse detector. -/
theorem boot_det {s : Shape} (hs : s.Tol) {z : Nat → Int} (hz : ∀ k, k < 6 → ((z k).natAbs : Int) ≤ [180, 915, 1920, 410, 100, 100].getD k 0)
    (hq : ∀ k, 6 ≤ k → k < 21 → s.Quiet (z k)) (k : Nat) :
    detStream (past (levelOut z)) k = detStream (past (levelOut (silenced z))) k := by
  have hd := hs.det
  have z5 : levelAt z 5 = .none := by
    have h5 := hz 5 (by decide)
    have h5 : ((z 5).natAbs : Int) ≤ 100 := h5
    rw [levelAt_eq]
    cases levelBefore z 5 with
    | none => show (if _ then _ else _) = _; rw [if_neg (by omega), if_neg (by omega)]
    | pos => exact if_pos (by omega)
    | neg => exact if_pos (by omega)
  have y0 : ∀ k, k < 6 → levelAt (silenced z) k = .none := by
    intro k
    induction k with
    | zero => intro _; rw [levelAt_eq]; rfl
    | succ k ih =>
      intro h
      rw [levelAt_eq]
      show LevelSt.next (levelAt _ k) _ = _
      rw [ih (by omega)]
      unfold silenced
      rw [if_pos h]; rfl
  have hAt : ∀ k, 5 ≤ k → levelAt z k = levelAt (silenced z) k := by
    intro k hk
    induction k with
    | zero => omega
    | succ k ih =>
      by_cases h5 : k = 4
      · subst h5; rw [z5, y0 5 (by decide)]
      · rw [levelAt_eq, levelAt_eq]
        show LevelSt.next (levelAt z k) _ = LevelSt.next (levelAt _ k) _
        rw [ih (by omega)]
        unfold silenced
        rw [if_neg (by omega)]
  have hOut : ∀ k, 6 ≤ k → levelOut z k = levelOut (silenced z) k := by
    intro k hk
    unfold levelOut
    rw [hAt k (by omega), show silenced z k = z k from if_neg (by omega)]
  by_cases hk : 21 ≤ k
  · unfold detStream
    have hp : ∀ j : Int, (k : Int) - 15 ≤ j → past (levelOut z) j = past (levelOut (silenced z)) j := by
      intro j hj
      unfold past
      rw [if_neg (by omega), if_neg (by omega), hOut _ (by omega)]
    have e1 : pulseSum (past (levelOut z)) k = pulseSum (past (levelOut (silenced z))) k := by
      unfold pulseSum
      rw [hp _ (by omega), hp _ (by omega), hp _ (by omega), hp _ (by omega), hp _ (by omega), hp _ (by omega), hp _ (by omega)]
    have e2 : outsideSum (past (levelOut z)) k = outsideSum (past (levelOut (silenced z))) k := by
      unfold outsideSum
      rw [hp _ (by omega), hp _ (by omega), hp _ (by omega), hp _ (by omega), hp _ (by omega), hp _ (by omega), hp _ (by omega)]
    unfold pulseRef
    rw [e1, e2]
  · have hl : ∀ j, 6 ≤ j → j < 21 → s.out.Quiet (levelOut (silenced z) j) := by
      intro j h1 h2
      refine (level_gap hs (x := silenced z) ?_).2
      unfold silenced
      rw [if_neg (by omega)]
      exact hq j h1 h2
    have hq0 := hd.quiet0
    have r1 : detStream (past (levelOut (silenced z))) k = 0 := by
      refine quiet7_zero hd fun j h1 h2 => ?_
      unfold past
      split
      · unfold Shape.Quiet; omega
      · by_cases h6 : 6 ≤ j.toNat
        · exact hl _ h6 (by omega)
        · unfold levelOut
          rw [y0 _ (by omega), if_pos rfl, show silenced z j.toNat = 0 from if_pos (by omega)]
          unfold Shape.Quiet; omega
    rw [r1]
    show pulseRef _ _ = 0
    -- bounds on the samples
    have hb : ∀ j : Int, j < 21 → ((past (levelOut z) j).natAbs : Int) ≤
        if j < 0 then 0 else if j.toNat < 6 then [180, 915, 1920, 410, 100, 100].getD j.toNat 0 else 61 := by
      intro j hj
      unfold past
      by_cases h0 : j < 0
      · rw [if_pos h0, if_pos h0]; decide
      · rw [if_neg h0, if_neg h0]
        by_cases h6 : j.toNat < 6
        · rw [if_pos h6]
          have := levelOut_abs z j.toNat
          have := hz _ h6
          omega
        · rw [if_neg h6, hOut _ (by omega)]
          have := hl j.toNat (by omega) (by omega)
          have := hd.quiet
          unfold Shape.Quiet at *
          omega
    have tab : ∀ k, k < 21 → (let f : Int → Int := fun j => if j < 0 then 0 else if j.toNat < 6 then [180, 915, 1920, 410, 100, 100].getD j.toNat 0 else 61
        f ((k : Nat) - 14) + f (k - 13) + f (k - 12) + f (k - 11) + f (k - 10) + f (k - 9) + f (k - 8) < 4921) := by decide +kernel
    have ht := tab k (by omega)
    dsimp only at ht
    have b1 := hb ((k : Int) - 14) (by omega)
    have b2 := hb ((k : Int) - 13) (by omega)
    have b3 := hb ((k : Int) - 12) (by omega)
    have b4 := hb ((k : Int) - 11) (by omega)
    have b5 := hb ((k : Int) - 10) (by omega)
    have b6 := hb ((k : Int) - 9) (by omega)
    have b7 := hb ((k : Int) - 8) (by omega)
    have ho := outsideSum_nonneg (past (levelOut z)) k
    have hsum : ((pulseSum (past (levelOut z)) k).natAbs : Int) < 4921 := by
      unfold pulseSum
      refine Int.lt_of_le_of_lt ?_ ht
      refine Int.le_trans ?_ (Int.add_le_add (Int.add_le_add (Int.add_le_add (Int.add_le_add (Int.add_le_add (Int.add_le_add b1 b2) b3) b4) b5) b6) b7)
      omega
    unfold pulseRef
    rw [if_neg (by omega), if_neg (by omega)]

end P1P2
