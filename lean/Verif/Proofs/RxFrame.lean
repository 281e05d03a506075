import Verif.Proofs.RxSignal
/-!
# Reception of frames
-/
namespace P1P2

/-- A frame starting at time `q`. -/
structure FrameAt (lo hi : Int) (y : Int → Int) (q : Int) (σ : Nat → Level) : Prop where
  pre : ∀ j, q - 4 ≤ j → j < q → Band lo hi .mid (y j)
  sym : ∀ b : Nat, b < 11 → ∀ j, q + 16 * b ≤ j → j < q + 16 * b + 8 → Band lo hi (σ b) (y j)
  gap : ∀ b : Nat, b < 11 → ∀ j, q + 16 * b + 8 ≤ j → j < q + 16 * b + 16 → j < q + 174 → Band lo hi .mid (y j)
  late : σ 10 ≠ .mid → ∀ j, q + 174 ≤ j → j < q + 176 → Band lo hi .mid (y j)
  start : σ 0 ≠ .mid

theorem FrameAt.slot {lo hi : Int} {y : Int → Int} {q : Int} {σ : Nat → Level} (h : FrameAt lo hi y q σ) {b : Nat}
    (hb : b < 11) : Slot lo hi y (q + 16 * b) (σ b) := by
  refine ⟨?_, fun j h1 h2 => h.sym b hb j h1 h2, fun j h1 h2 => h.gap b hb j h1 (by omega) (by omega), ?_⟩
  · intro j h1 h2
    cases b with
    | zero => exact h.pre j (by simpa using h1) (by simpa using h2)
    | succ b => exact h.gap b (by omega) j (by omega) (by omega) (by omega)
  · intro hl j h1 h2
    by_cases hb10 : b = 10
    · subst hb10; exact h.late hl j (by omega) (by omega)
    · exact h.gap b hb j (by omega) (by omega) (by omega)

theorem FrameAt.start_zero {lo hi : Int} {y : Int → Int} {q : Int} {σ : Nat → Level} (h : FrameAt lo hi y q σ)
    (a : Amp lo hi) {k : Int} (hk : k ≤ q + 10) (hq : ∀ j, k - 14 ≤ j → j < q → Band lo hi .mid (y j)) :
    pulseRef y k = 0 := by
  have := a.min; have := a.le; have := a.ratio; have := a.max
  have hlo : 0 ≤ lo := by omega
  have hs := fun j h1 h2 => (h.sym 0 (by decide) j (by simpa using h1) (by simpa using h2)).mag_pulse h.start hlo
  have hm := fun j h1 h2 => (hq j h1 h2).mag_mid
  by_cases h7 : k ≤ q + 7
  · exact quiet_zero (lo := lo) (hi := hi) (fun j h1 h2 => hq j h1 (by omega))
  · apply pulse_zero
    have n0 := mag_nonneg y (k - 15); have n1 := mag_nonneg y k; have n2 := mag_nonneg y (k - 1)
    have n3 := mag_nonneg y (k - 2)
    rw [outside_mag]
    unfold magSum
    have m14 := hm (k - 14) (by omega) (by omega)
    have m13 := hm (k - 13) (by omega) (by omega)
    have m12 := hm (k - 12) (by omega) (by omega)
    have m11 := hm (k - 11) (by omega) (by omega)
    have p3 := hs (k - 3) (by omega) (by omega)
    have p4 := hs (k - 4) (by omega) (by omega)
    have p5 := hs (k - 5) (by omega) (by omega)
    have p8 := hs (k - 8) (by omega) (by omega)
    have hk' : k = q + 8 ∨ k = q + 9 ∨ k = q + 10 := by omega
    rcases hk' with hk' | hk' | hk'
    · have m10 := hm (k - 10) (by omega) (by omega)
      have m9 := hm (k - 9) (by omega) (by omega)
      omega
    · have m10 := hm (k - 10) (by omega) (by omega)
      have m9 := hs (k - 9) (by omega) (by omega)
      omega
    · have m10 := hs (k - 10) (by omega) (by omega)
      have m9 := hs (k - 9) (by omega) (by omega)
      omega

/-- At the phases 13, 14 and 15 every symbol is recognised. -/
theorem FrameAt.sgn {lo hi : Int} {y : Int → Int} {q : Int} {σ : Nat → Level} (h : FrameAt lo hi y q σ) (a : Amp lo hi)
    {e : Int} (he : e = 13 ∨ e = 14 ∨ e = 15) {b : Nat} (hb : b < 11) : Sgn (σ b) (pulseRef y (q + 16 * b + e)) := by
  have := a.min; have := a.le; have := a.ratio; have := a.max
  have hs := h.slot hb
  cases hσ : σ b with
  | mid =>
    rw [hσ] at hs
    exact hs.mid_zero (by omega) (by omega)
  | up =>
    rw [hσ] at hs
    show _ > _
    rcases he with rfl | rfl | rfl
    · have := hs.up_13 a rfl; omega
    · have := hs.up_14 a rfl; omega
    · have := hs.up_15 a rfl; omega
  | down =>
    rw [hσ] at hs
    show _ < _
    rcases he with rfl | rfl | rfl
    · have := hs.down_13 a rfl; omega
    · have := hs.down_14 a rfl; omega
    · have := hs.down_15 a rfl; omega

/-- Any phase other than 13, 14, 15 sees each symbol weaker than phase 14 does, and the start symbol strictly. -/
theorem FrameAt.weaker {lo hi : Int} {y : Int → Int} {q : Int} {σ : Nat → Level} (h : FrameAt lo hi y q σ)
    (a : Amp lo hi) {e : Int} (h1 : 11 ≤ e) (h2 : e ≤ 20) (h3 : e ≠ 13) (h4 : e ≠ 14) (h5 : e ≠ 15) {b : Nat}
    (hb : b < 11) :
    (pulseRef y (q + 16 * b + e)).natAbs ≤ (pulseRef y (q + 16 * b + 14)).natAbs ∧
      (σ b ≠ .mid → (pulseRef y (q + 16 * b + e)).natAbs < (pulseRef y (q + 16 * b + 14)).natAbs) := by
  have := a.min; have := a.le; have := a.ratio; have := a.max
  have hs := h.slot hb
  have hlt : σ b ≠ .mid → (pulseRef y (q + 16 * b + e)).natAbs < (pulseRef y (q + 16 * b + 14)).natAbs := by
    intro hl
    have q1 := hs.small hl a (k := q + 16 * b + e) (by omega) (by omega) (by omega) (by omega) (by omega)
    cases hσ : σ b with
    | mid => exact absurd hσ hl
    | up =>
      rw [hσ] at hs
      have := hs.up_14 a rfl
      omega
    | down =>
      rw [hσ] at hs
      have := hs.down_14 a rfl
      omega
  refine ⟨?_, hlt⟩
  by_cases hl : σ b = .mid
  · rw [hl] at hs
    rw [hs.mid_zero (by omega) (by omega), hs.mid_zero (k := q + 16 * b + 14) (by omega) (by omega)]
    exact Nat.le_refl _
  · exact Nat.le_of_lt (hlt hl)

/-- Whatever the start phase, the frame is decoded to its meaning. -/
theorem FrameAt.decode {lo hi : Int} {y : Int → Int} {q : Int} {σ : Nat → Level} (h : FrameAt lo hi y q σ)
    (a : Amp lo hi) {d : Nat} (h1 : 11 ≤ d) (h2 : d ≤ 13) :
    bestRef .even (fun i => pulseRef y (q + d + i)) = decodeSymbols σ := by
  have idx : ∀ j b : Nat, q + (d : Int) + ((j + 16 * b : Nat) : Int) = q + 16 * b + ((d + j : Nat) : Int) := by
    intro j b; omega
  have hval : ∀ j : Nat, (fun b : Nat => (fun i : Nat => pulseRef y (q + d + i)) (j + 16 * b)) =
      fun b : Nat => pulseRef y (q + 16 * b + ((d + j : Nat) : Int)) := by
    intro j; funext b
    show pulseRef y _ = _
    rw [idx]
  have hgood : ∀ j : Nat, d + j = 13 ∨ d + j = 14 ∨ d + j = 15 → ∀ b < 11,
      Sgn (σ b) ((fun b : Nat => pulseRef y (q + 16 * b + ((d + j : Nat) : Int))) b) := by
    intro j hj b hb
    exact h.sgn a (by omega) hb
  have h14 : ((d + (14 - d) : Nat) : Int) = 14 := by omega
  have hs0 : ∀ j : Nat, d + j = 13 ∨ d + j = 14 ∨ d + j = 15 →
      (fun b : Nat => pulseRef y (q + 16 * b + ((d + j : Nat) : Int))) 0 ≠ 0 := by
    intro j hj hc
    exact h.start ((hgood j hj 0 (by decide)).zero.mp hc)
  have hprob14 := valRef_prob (s := fun b : Nat => pulseRef y (q + 16 * b + ((d + (14 - d) : Nat) : Int))) (hs0 (14 - d) (by omega))
  have hpos : 0 < (valRef .even (fun b => (fun i : Nat => pulseRef y (q + d + i)) ((14 - d) + 16 * b))).2.2 := by
    rw [hval, hprob14]
    have := hs0 (14 - d) (by omega)
    have h0 : 0 < ((fun b : Nat => pulseRef y (q + 16 * b + ((d + (14 - d) : Nat) : Int))) 0).natAbs := by
      exact Int.natAbs_pos.mpr this
    have e : (List.range 11).map (fun b : Nat => (pulseRef y (q + 16 * b + ((d + (14 - d) : Nat) : Int))).natAbs) =
      (pulseRef y (q + 16 * (0 : Nat) + ((d + (14 - d) : Nat) : Int))).natAbs ::
        (List.range 10).map (fun b : Nat => (pulseRef y (q + 16 * ((1 + b : Nat) : Int) + ((d + (14 - d) : Nat) : Int))).natAbs) := by
      rfl
    rw [e, List.sum_cons]
    exact Nat.lt_of_lt_of_le h0 (Nat.le_add_right _ _)
  obtain ⟨j, hj, hr, hmax⟩ := bestRef_max (par := .even) (w := fun i : Nat => pulseRef y (q + d + i)) (i := 14 - d) (by omega) hpos
  rw [hr, hval]
  by_cases hc : d + j = 13 ∨ d + j = 14 ∨ d + j = 15
  · exact valRef_sgn (hgood j hc) h.start
  · have hm := hmax (14 - d) (by omega)
    rw [hval, hval, hprob14] at hm
    have hle := valRef_prob_le (s := fun b : Nat => pulseRef y (q + 16 * b + ((d + j : Nat) : Int)))
    have hlt := sum_lt (f := fun b : Nat => (pulseRef y (q + 16 * b + ((d + j : Nat) : Int))).natAbs)
      (g := fun b : Nat => (pulseRef y (q + 16 * b + ((d + (14 - d) : Nat) : Int))).natAbs)
      (fun b hb => by
        rw [h14]
        exact (h.weaker a (by omega) (by omega) (by omega) (by omega) (by omega) hb).1)
      (by
        rw [h14]
        exact (h.weaker a (by omega) (by omega) (by omega) (by omega) (by omega) (by decide)).2 h.start)
    exact absurd (Nat.lt_of_le_of_lt hle hlt) (Nat.not_lt.mpr hm)

/-- After the frame the detector is quiet again. -/
theorem FrameAt.end_zero {lo hi : Int} {y : Int → Int} {q : Int} {σ : Nat → Level} (h : FrameAt lo hi y q σ)
    (a : Amp lo hi) : pulseRef y (q + 181) = 0 := by
  have := a.min; have := a.le; have := a.ratio; have := a.max
  have hlo : 0 ≤ lo := by omega
  have hs := h.slot (b := 10) (by decide)
  have hc : q + 16 * ((10 : Nat) : Int) = q + 160 := by omega
  rw [hc] at hs
  by_cases hl : σ 10 = .mid
  · rw [hl] at hs
    apply quiet_zero (lo := lo) (hi := hi)
    intro j h1 h2
    by_cases hj : j < q + 168
    · exact hs.pulse j (by omega) (by omega)
    · exact hs.after j (by omega) (by omega)
  · apply pulse_zero
    rw [outside_mag]
    unfold magSum
    generalize hk : q + 181 = k
    have p15 := (hs.pulse (k - 15) (by omega) (by omega)).mag_pulse hl hlo
    have p14 := (hs.pulse (k - 14) (by omega) (by omega)).mag_pulse hl hlo
    have m13 := (hs.after (k - 13) (by omega) (by omega)).mag_mid
    have m12 := (hs.after (k - 12) (by omega) (by omega)).mag_mid
    have m11 := (hs.after (k - 11) (by omega) (by omega)).mag_mid
    have m10 := (hs.after (k - 10) (by omega) (by omega)).mag_mid
    have m9 := (hs.after (k - 9) (by omega) (by omega)).mag_mid
    have m8 := (hs.after (k - 8) (by omega) (by omega)).mag_mid
    have n5 := mag_nonneg y (k - 5); have n4 := mag_nonneg y (k - 4); have n3 := mag_nonneg y (k - 3)
    have n2 := mag_nonneg y (k - 2); have n1 := mag_nonneg y (k - 1); have n0 := mag_nonneg y k
    omega

/-! ## Runs of the receiver -/

/-- Ready for a frame: waiting, with at most `c` samples counted since. -/
structure Ready (S c : Nat) (u : Uart) : Prop where
  win : ∃ w, u.reg.Win 168 w
  par : u.parity = .even
  st : (u.state = .waitIdle ∧ u.counter = 0) ∨ (u.state = .waitStart ∧ (u.counter = 0 ∨ 2 ^ S ≤ u.counter + c))
  cnt : u.counter < 2 ^ S

theorem Ready.step {S c : Nat} {err : Bool} {u : Uart} (h : Ready S c u) {v : Int} (hv : toI16 v = 0)
    (hc : c + 1 < 2 ^ S) : ∃ u', u.step S err v = .ok (u', none) ∧ Ready S (c + 1) u' ∧ u'.state = .waitStart := by
  obtain ⟨w, hw⟩ := h.win
  rcases h.st with ⟨hs, h0⟩ | ⟨hs, h0⟩
  · refine ⟨{ u with state := .waitStart }, ?_, ⟨⟨w, hw⟩, h.par, Or.inr ⟨rfl, Or.inl h0⟩, h.cnt⟩, rfl⟩
    rw [step_waitIdle hs, if_pos hv]
  · obtain ⟨u', e, e2, e3, e4, e5⟩ := step_wait (S := S) (err := err) hs hw hv
    have hcnt' : 2 ^ S ≤ u'.counter + (c + 1) := by
      rw [e4]
      rcases h0 with h0 | h0
      · rw [h0, dec_zero]; omega
      · rw [dec_pos (by omega) h.cnt]; omega
    have hne : ¬ (u.counter + (2 ^ S - 1)) % 2 ^ S = 0 := by rw [← e4]; omega
    rw [if_neg hne] at e5
    refine ⟨u', e, ⟨⟨_, e2⟩, by rw [e3, h.par], Or.inr ⟨e5, Or.inr hcnt'⟩, ?_⟩, e5⟩
    rw [e4]; exact Nat.mod_lt _ (Nat.two_pow_pos S)

theorem Ready.mono {S c c' : Nat} {u : Uart} (h : Ready S c u) (hc : c ≤ c') : Ready S c' u := by
  refine ⟨h.win, h.par, ?_, h.cnt⟩
  rcases h.st with h1 | ⟨h1, h2⟩
  · exact Or.inl h1
  · exact Or.inr ⟨h1, by omega⟩

theorem Ready.run {S c : Nat} {err : Bool} {u : Uart} (h : Ready S c u) (x : Nat → Int) (m : Nat)
    (hx : ∀ i < m, toI16 (x i) = 0) (hc : c + m < 2 ^ S) :
    ∃ u', feed (Uart.step S err) u x m = .ok (u', List.replicate m none) ∧ Ready S (c + m) u' ∧
      (0 < m → u'.state = .waitStart) := by
  induction m with
  | zero => exact ⟨u, rfl, h, fun h => absurd h (Nat.lt_irrefl _)⟩
  | succ m ih =>
    obtain ⟨u1, h1, h2, -⟩ := ih (fun i hi => hx i (by omega)) (by omega)
    obtain ⟨u2, h3, h4, h5⟩ := h2.step (err := err) (hx m (by omega)) (by omega)
    exact ⟨u2, by rw [feed_snoc h1 h3, ← List.replicate_succ'], h4, fun _ => h5⟩

theorem filterMap_none {α : Type} (n : Nat) : (List.replicate n (none : Option α)).filterMap id = [] := by
  induction n with
  | zero => rfl
  | succ n ih => rw [List.replicate_succ, List.filterMap_cons]; exact ih

/-- The stream of detector values. -/
def detStream (y : Int → Int) : Nat → Int := fun k => pulseRef y k

theorem detStream_eq {y : Int → Int} {k : Nat} {t : Int} (h : (k : Int) = t) : detStream y k = pulseRef y t := by
  rw [← h]; rfl

theorem detStream_congr {y : Int → Int} {k k' : Nat} (h : k = k') : detStream y k = detStream y k' := by rw [h]

theorem frame_run {S c : Nat} {err : Bool} (hS : 8 ≤ S) {lo hi : Int} {y : Int → Int} {q r : Nat} {σ : Nat → Level}
    {u : Uart} (h : FrameAt lo hi y q σ) (a : Amp lo hi) (hI : ∀ k : Nat, toI16 (detStream y k) = detStream y k)
    (hu : Ready S c u) (hr : r ≤ q + 10) (hq : ∀ j : Int, (r : Int) - 14 ≤ j → j < q → Band lo hi .mid (y j))
    (hc : c + (q + 14 - r) < 2 ^ S) :
    ∃ u' l, feed (Uart.step S err) u (fun i => detStream y (r + i)) (q + 182 - r) = .ok (u', l) ∧
      l.filterMap id = [decodeSymbols σ] ∧ Ready S 2 u' := by
  have hz : ∀ k : Nat, r ≤ k → k ≤ q + 10 → detStream y k = 0 := by
    intro k h1 h2
    exact h.start_zero a (by omega) (fun j hj1 hj2 => hq j (by omega) hj2)
  have h13 : detStream y (q + 13) ≠ 0 := by
    intro hc
    have := h.sgn a (e := 13) (by omega) (b := 0) (by decide)
    refine h.start (this.zero.mp ?_)
    rw [← hc]
    exact (detStream_eq (by omega)).symm
  -- the first non-zero sample
  obtain ⟨d, hd1, hd2, hd3, hd4⟩ : ∃ d, 11 ≤ d ∧ d ≤ 13 ∧ detStream y (q + d) ≠ 0 ∧
      ∀ k, r ≤ k → k < q + d → detStream y k = 0 := by
    by_cases c1 : detStream y (q + 11) = 0
    · by_cases c2 : detStream y (q + 12) = 0
      · refine ⟨13, by decide, by decide, h13, fun k h1 h2 => ?_⟩
        by_cases k1 : k ≤ q + 10
        · exact hz k h1 k1
        · have : k = q + 11 ∨ k = q + 12 := by omega
          rcases this with rfl | rfl
          · exact c1
          · exact c2
      · refine ⟨12, by decide, by decide, c2, fun k h1 h2 => ?_⟩
        by_cases k1 : k ≤ q + 10
        · exact hz k h1 k1
        · have : k = q + 11 := by omega
          subst this; exact c1
    · exact ⟨11, by decide, by decide, c1, fun k h1 h2 => hz k h1 (by omega)⟩
  -- waiting
  obtain ⟨u1, r1, rd1, st1⟩ := hu.run (err := err) (fun i => detStream y (r + i)) (q + d - r)
    (fun i hi => by rw [hI]; exact hd4 _ (by omega) (by omega)) (by omega)
  have st1 := st1 (by omega)
  obtain ⟨w1, hw1⟩ := rd1.win
  -- the frame
  obtain ⟨u2, w2, r2, hw2, p2, c2, s2⟩ := capture_frame (err := err) hS st1 hw1
    (x := fun i => detStream y (q + d + i)) (by rw [hI]; exact hd3)
  have hlen : u1.parity.len = 168 := by rw [rd1.par]; rfl
  rw [hlen, rd1.par] at r2
  have hbest : bestRef .even (fun i => toI16 (detStream y (q + d + i))) = decodeSymbols σ := by
    rw [← h.decode a hd1 hd2]
    have e : (fun i => toI16 (detStream y (q + d + i))) = fun i : Nat => pulseRef y ((q : Int) + d + i) := by
      funext i
      rw [hI]
      exact detStream_eq (by omega)
    rw [e]
  rw [hbest] at r2
  have rd2 : Ready S 0 u2 := ⟨⟨w2, hw2⟩, by rw [p2, rd1.par], Or.inl ⟨s2, c2⟩, by rw [c2]; exact Nat.two_pow_pos S⟩
  have run2 : feed (Uart.step S err) u (fun i => detStream y (r + i)) (q + d + 169 - r) =
      .ok (u2, List.replicate (q + d - r) none ++ (List.replicate 168 none ++ [some (decodeSymbols σ)])) := by
    have := feed_add (m := 169) r1 (s2 := u2) (l2 := List.replicate 168 none ++ [some (decodeSymbols σ)]) (by
      have e : (fun i => (fun i => detStream y (r + i)) (q + d - r + i)) = fun i => detStream y (q + d + i) := by
        funext i
        exact detStream_congr (by omega)
      rw [e]; exact r2)
    rw [← this, show q + d + 169 - r = q + d - r + 169 by omega]
  have hz181 : detStream y (q + 181) = 0 := by
    rw [← h.end_zero a]
    exact detStream_eq (by omega)
  have hf : (List.replicate (q + d - r) none ++ (List.replicate 168 none ++ [some (decodeSymbols σ)])).filterMap id =
      [decodeSymbols σ] := by
    rw [List.filterMap_append, List.filterMap_append, filterMap_none, filterMap_none]
    rfl
  generalize List.replicate (q + d - r) none ++ (List.replicate 168 none ++ [some (decodeSymbols σ)]) = L at run2 hf
  have h2S : 2 ^ 8 ≤ 2 ^ S := Nat.pow_le_pow_right (by decide) hS
  have hd : d = 13 ∨ d = 12 ∨ d = 11 := by omega
  rcases hd with rfl | rfl | rfl
  · exact ⟨u2, _, run2, hf, rd2.mono (by decide)⟩
  · obtain ⟨u3, e3, rd3, -⟩ := rd2.step (err := err) (v := detStream y (q + 181)) (by rw [hI]; exact hz181) (by omega)
    refine ⟨u3, L ++ [none], ?_, ?_, rd3.mono (by decide)⟩
    · rw [show q + 182 - r = q + 12 + 169 - r + 1 by omega]
      refine feed_snoc run2 (o := none) ?_
      rw [detStream_congr (show r + (q + 12 + 169 - r) = q + 181 by omega)]
      exact e3
    · rw [List.filterMap_append, hf]; rfl
  · have e3 := step_waitIdle (S := S) (err := err) s2 (detStream y (q + 180))
    have rd3 : Ready S 0 (if toI16 (detStream y (q + 180)) = 0 then { u2 with state := .waitStart } else u2) := by
      split
      · exact ⟨rd2.win, rd2.par, Or.inr ⟨rfl, Or.inl c2⟩, rd2.cnt⟩
      · exact rd2
    obtain ⟨u4, e4, rd4, -⟩ := rd3.step (err := err) (v := detStream y (q + 181)) (by rw [hI]; exact hz181) (by omega)
    refine ⟨u4, L ++ [none] ++ [none], ?_, ?_, rd4.mono (by decide)⟩
    · rw [show q + 182 - r = q + 11 + 169 - r + 1 + 1 by omega]
      refine feed_snoc (feed_snoc run2 (s2 := if toI16 (detStream y (q + 180)) = 0 then { u2 with state := .waitStart } else u2) (o := none) ?_) (o := none) ?_
      · rw [detStream_congr (show r + (q + 11 + 169 - r) = q + 180 by omega)]
        exact e3
      · rw [detStream_congr (show r + (q + 11 + 169 - r + 1) = q + 181 by omega)]
        exact e4
    · rw [List.filterMap_append, List.filterMap_append, hf]; rfl


/-! ## A whole transmission -/

/-- The line level with an undisturbed past. -/
def pastLevel (s : Nat → Level) (j : Int) : Level := if j < 0 then .mid else s j.toNat

theorem pastLevel_nat (s : Nat → Level) (j : Int) (k : Nat) (h : j = k) : pastLevel s j = s k := by
  subst h
  unfold pastLevel
  rw [if_neg (by omega)]
  rfl

theorem frameAt_of {lo hi : Int} {y : Int → Int} {s : Nat → Level} (hy : ∀ j, Band lo hi (pastLevel s j) (y j))
    {q : Nat} {σ : Nat → Level} (hs : ∀ j, j < 174 → s (q + j) = if j % 16 < 8 then σ (j / 16) else .mid)
    (h0 : σ 0 ≠ .mid) (hpre : ∀ j : Int, (q : Int) - 4 ≤ j → j < q → pastLevel s j = .mid)
    (hlate : σ 10 ≠ .mid → ∀ k : Nat, q + 174 ≤ k → k < q + 176 → s k = .mid) : FrameAt lo hi y q σ := by
  have hlev : ∀ (j : Int) (i : Nat), j = q + i → i < 174 →
      Band lo hi (if i % 16 < 8 then σ (i / 16) else .mid) (y j) := by
    intro j i hj hi
    have := hy j
    rw [pastLevel_nat s j (q + i) (by omega), hs i hi] at this
    exact this
  refine ⟨?_, ?_, ?_, ?_, h0⟩
  · intro j h1 h2
    have := hy j
    rwa [hpre j h1 h2] at this
  · intro b hb j h1 h2
    have := hlev j (j - q).toNat (by omega) (by omega)
    rw [if_pos (by omega), show (j - q).toNat / 16 = b by omega] at this
    exact this
  · intro b hb j h1 h2 h3
    have := hlev j (j - q).toNat (by omega) (by omega)
    rwa [if_neg (by omega)] at this
  · intro hl j h1 h2
    have := hy j
    rw [pastLevel_nat s j j.toNat (by omega), hlate hl _ (by omega) (by omega)] at this
    exact this

theorem frames_run {S : Nat} {err : Bool} (hS : 8 ≤ S) {lo hi : Int} {y : Int → Int} {s : Nat → Level}
    (hy : ∀ j, Band lo hi (pastLevel s j) (y j)) (a : Amp lo hi)
    (hI : ∀ k : Nat, toI16 (detStream y k) = detStream y k) {G : Nat} (hG : G + 32 ≤ 2 ^ S) :
    ∀ (fs : List (Nat × (Nat → Level))) (t r : Nat) (u : Uart) (n : Nat), Carries s t fs → FramesOk G fs → t ≤ r →
      r ≤ t + 8 → (∀ j : Int, (r : Int) - 14 ≤ j → j < t → pastLevel s j = .mid) → Ready S 2 u →
      lineEnd t fs + 8 ≤ r + n → r + n ≤ lineEnd t fs + 8 + G →
      ∃ u' l, feed (Uart.step S err) u (fun i => detStream y (r + i)) n = .ok (u', l) ∧
        l.filterMap id = fs.map (fun f => decodeSymbols f.2) := by
  intro fs
  induction fs with
  | nil =>
    intro t r u n hc _ h1 h2 hq hu hn1 hn2
    obtain ⟨u', h, -, -⟩ := hu.run (err := err) (fun i => detStream y (r + i)) n (by
      intro i hin
      rw [hI]
      apply quiet_zero (lo := lo) (hi := hi)
      intro j hj1 hj2
      have hb := hy j
      by_cases hj : j < t
      · rwa [hq j (by omega) hj] at hb
      · rw [pastLevel_nat s j j.toNat (by omega), hc j.toNat (by omega)] at hb
        exact hb) (by simp only [lineEnd] at hn2; omega)
    exact ⟨u', _, h, filterMap_none n⟩
  | cons f fs ih =>
    obtain ⟨g, σ⟩ := f
    intro t r u n ⟨hc1, hc2, hc3⟩ ⟨hf1, hf2, hf3, hf4⟩ h1 h2 hq hu hn1 hn2
    simp only [lineEnd] at hn1 hn2
    have hend : ∀ (fs : List (Nat × (Nat → Level))) (t : Nat), t ≤ lineEnd t fs := by
      intro fs
      induction fs with
      | nil => intro t; exact Nat.le_refl _
      | cons f fs ih => intro t; exact Nat.le_trans (by omega) (ih (t + f.1 + 174))
    have hmid : ∀ j : Int, (r : Int) - 14 ≤ j → j < ((t + g : Nat) : Int) → pastLevel s j = .mid := by
      intro j hj1 hj2
      by_cases hj : j < t
      · exact hq j hj1 hj
      · rw [pastLevel_nat s j j.toNat (by omega)]
        exact hc1 _ (by omega) (by omega)
    have hF : FrameAt lo hi y ((t + g : Nat) : Int) σ := by
      refine frameAt_of hy hc2 hf2 (fun j hj1 hj2 => hmid j (by omega) hj2) ?_
      intro hl k hk1 hk2
      have h3 := hf3 hl
      cases fs with
      | nil => exact hc3 k (by omega)
      | cons f' fs' =>
        obtain ⟨g', σ'⟩ := f'
        exact hc3.1 k (by omega) (by dsimp only at h3; omega)
    obtain ⟨u1, l1, e1, r1, rd1⟩ := frame_run (err := err) (r := r) (q := t + g) hS hF a hI hu (by omega)
      (fun j hj1 hj2 => by have := hy j; rwa [hmid j hj1 hj2] at this) (by omega)
    have hen := hend fs (t + g + 174)
    obtain ⟨u2, l2, e2, r2⟩ := ih (t + g + 174) (t + g + 182) u1 (r + n - (t + g + 182)) hc3 hf4 (by omega) (by omega)
      (by
        intro j hj1 hj2
        rw [pastLevel_nat s j (t + g + (j - (t + g)).toNat) (by omega), hc2 _ (by omega), if_neg (by omega)])
      rd1 (by omega) (by omega)
    refine ⟨u2, l1 ++ l2, ?_, ?_⟩
    · have := feed_add (m := r + n - (t + g + 182)) e1 (s2 := u2) (l2 := l2) (by
        have e : ∀ v w : Nat, r + v = w → (fun i => (fun i : Nat => detStream y (r + i)) (v + i)) =
            fun i => detStream y (w + i) := by
          intro v w hvw
          funext i
          exact detStream_eq (by omega)
        rw [e _ (t + g + 182) (by omega)]; exact e2)
      have hn : t + g + 182 - r + (r + n - (t + g + 182)) = n := by omega
      rw [hn] at this
      exact this
    · rw [List.filterMap_append, r1, r2]; rfl

/-! ## The level detector on such a line -/

theorem carries_adjacent {s : Nat → Level} : ∀ {fs : List (Nat × (Nat → Level))} {t : Nat}, Carries s t fs →
    ∀ k, t ≤ k → s k ≠ .mid → s (k + 1) = s k ∨ s (k + 1) = .mid := by
  intro fs
  induction fs with
  | nil => intro t h k hk hne; exact absurd (h k hk) hne
  | cons f fs ih =>
    obtain ⟨g, σ⟩ := f
    intro t ⟨h1, h2, h3⟩ k hk hne
    by_cases hg : k < t + g
    · exact absurd (h1 k hk hg) hne
    · by_cases hj : k < t + g + 174
      · have e := h2 (k - (t + g)) (by omega)
        rw [show t + g + (k - (t + g)) = k by omega] at e
        by_cases hm : (k - (t + g)) % 16 < 8
        · rw [if_pos hm] at e
          by_cases hl : k + 1 < t + g + 174
          · have e' := h2 (k + 1 - (t + g)) (by omega)
            rw [show t + g + (k + 1 - (t + g)) = k + 1 by omega] at e'
            by_cases hm' : (k + 1 - (t + g)) % 16 < 8
            · rw [if_pos hm', show (k + 1 - (t + g)) / 16 = (k - (t + g)) / 16 by omega, ← e] at e'
              exact Or.inl e'
            · rw [if_neg hm'] at e'
              exact Or.inr e'
          · have : k - (t + g) = 173 := by omega
            rw [this] at hm
            omega
        · rw [if_neg hm] at e
          exact absurd e hne
      · exact ih h3 k (by omega) hne

theorem level_state {lo hi : Int} {x : Nat → Int} {s : Nat → Level} (hlo : 1400 ≤ lo)
    (hx : ∀ k, Sample lo hi (s k) (x k)) (hadj : ∀ k, s k ≠ .mid → s (k + 1) = s k ∨ s (k + 1) = .mid) (k : Nat) :
    levelAt x k = (match s k with | .mid => .none | .up => .pos | .down => .neg) := by
  induction k with
  | zero =>
    have h := hx 0
    simp only [levelAt, LevelSt.next]
    cases hs : s 0 <;> rw [hs] at h <;> simp only [Sample] at h
    · rw [if_neg (by omega), if_neg (by omega)]
    · rw [if_pos (by omega)]
    · rw [if_neg (by omega), if_pos (by omega)]
  | succ k ih =>
    have h := hx (k + 1)
    have ha := hadj k
    simp only [levelAt, ih]
    cases hk : s k with
    | mid =>
      cases hs : s (k + 1) <;> rw [hs] at h <;> simp only [Sample] at h <;> simp only [LevelSt.next]
      · rw [if_neg (by omega), if_neg (by omega)]
      · rw [if_pos (by omega)]
      · rw [if_neg (by omega), if_pos (by omega)]
    | up =>
      rw [hk] at ha
      rcases ha (by decide) with hs | hs <;> rw [hs] at h ⊢ <;> simp only [Sample] at h <;> simp only [LevelSt.next]
      · rw [if_neg (by omega)]
      · rw [if_pos (by omega)]
    | down =>
      rw [hk] at ha
      rcases ha (by decide) with hs | hs <;> rw [hs] at h ⊢ <;> simp only [Sample] at h <;> simp only [LevelSt.next]
      · rw [if_neg (by omega)]
      · rw [if_pos (by omega)]

theorem level_band {lo hi : Int} {x : Nat → Int} {s : Nat → Level} (hlo : 1400 ≤ lo)
    (hx : ∀ k, Sample lo hi (s k) (x k)) (hadj : ∀ k, s k ≠ .mid → s (k + 1) = s k ∨ s (k + 1) = .mid) (j : Int) :
    Band lo hi (pastLevel s j) (past (levelOut x) j) := by
  unfold pastLevel past
  split
  · simp only [Band]; omega
  · generalize j.toNat = k
    have h := hx k
    have hl := level_state hlo hx hadj k
    unfold levelOut
    rw [hl]
    cases hs : s k <;> rw [hs] at h <;> simp only [Sample] at h <;> simp only [Band]
    · rw [if_pos trivial]; omega
    · rw [if_neg (by simp)]; exact h
    · rw [if_neg (by simp)]; exact h

end P1P2
