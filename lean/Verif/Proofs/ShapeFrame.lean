import Verif.Proofs.ShapeSignal
/-!
# Reception of frames with edges
-/
namespace P1P2

/-- A frame starting at time `q`, the edges of its pulses late by `o` and `o'`. -/
structure ShapeFrame (s : Shape) (y : Int → Int) (q : Int) (σ : Nat → Level) (o o' : Nat → Nat) : Prop where
  pre : ∀ j, q - 4 ≤ j → j < q → s.Quiet (y j)
  edges : EdgesOk o o'
  sym : ∀ n : Nat, n < 174 → s.Symbol (σ (n / 16)) (o (n / 16)) (o' (n / 16)) (n % 16) (y (q + n))
  start : σ 0 ≠ .mid
  stop : σ 10 = .mid

theorem Shape.quiet_neg {s : Shape} {v : Int} (h : s.Quiet (-v)) : s.Quiet v := by
  simp only [Shape.Quiet] at *; omega

theorem Shape.Symbol.late {s : Shape} {l : Level} {o o' j : Nat} {v : Int} (h : s.Symbol l o o' j v) (ho : o ≤ 1) (ho' : o' ≤ o) (hj : 10 ≤ j) :
    s.Quiet v := by
  cases l with
  | mid => exact h
  | up =>
    simp only [Shape.Symbol, Shape.Pulse] at h
    rwa [if_neg (by omega), if_neg (by omega)] at h
  | down =>
    simp only [Shape.Symbol, Shape.Pulse] at h
    rw [if_neg (by omega), if_neg (by omega)] at h
    exact Shape.quiet_neg h

/-- The first sample of a symbol is at most an edge. -/
theorem Shape.Symbol.first {s : Shape} {l : Level} {o o' : Nat} {v : Int} (h : s.Symbol l o o' 0 v) (hq : s.quiet ≤ s.edge) :
    -s.edge ≤ v ∧ v ≤ s.edge := by
  cases l with
  | mid => simp only [Shape.Symbol, Shape.Quiet] at h; omega
  | up =>
    simp only [Shape.Symbol, Shape.Pulse] at h
    split at h
    · omega
    · rw [if_neg (by omega)] at h; unfold Shape.Quiet at h; omega
  | down =>
    simp only [Shape.Symbol, Shape.Pulse] at h
    split at h
    · omega
    · rw [if_neg (by omega)] at h; unfold Shape.Quiet at h; omega

namespace ShapeFrame
variable {s : Shape} {y : Int → Int} {q : Int} {σ : Nat → Level} {o o' : Nat → Nat}

theorem at' (h : ShapeFrame s y q σ o o') {b i : Nat} (hb : 16 * b + i < 174) (hi : i < 16) {j : Int} (hj : j = q + 16 * b + i) :
    s.Symbol (σ b) (o b) (o' b) i (y j) := by
  have := h.sym (16 * b + i) hb
  rw [show (16 * b + i) / 16 = b by omega, show (16 * b + i) % 16 = i by omega,
    show q + ((16 * b + i : Nat) : Int) = j by omega] at this
  exact this

theorem before (h : ShapeFrame s y q σ o o') {b : Nat} (hb : b < 11) {j : Int} (h1 : q + 16 * b - 4 ≤ j) (h2 : j < q + 16 * b) :
    s.Quiet (y j) := by
  cases b with
  | zero => exact h.pre j (by omega) (by omega)
  | succ b =>
    exact (h.at' (b := b) (i := (j - q - 16 * b).toNat) (by omega) (by omega) (by omega)).late (h.edges b).2 (h.edges b).1 (by omega)

theorem quietSlot (h : ShapeFrame s y q σ o o') {b : Nat} (hb : b < 11) (hσ : σ b = .mid) {j : Int} (h1 : q + 16 * b - 4 ≤ j)
    (h2 : j < q + 16 * b + 14) : s.Quiet (y j) := by
  by_cases hj : j < q + 16 * b
  · exact h.before hb h1 hj
  · have := h.at' (b := b) (i := (j - q - 16 * b).toNat) (by omega) (by omega) (j := j) (by omega)
    rw [hσ] at this
    exact this

theorem pulse (h : ShapeFrame s y q σ o o') (d : s.Det) {b : Nat} (hb : b < 10) (hσ : σ b = .up) :
    PulseAt s (fun k => y (q + 16 * b + k)) (o b) (o' b) := by
  obtain ⟨he1, he2⟩ := h.edges b
  have hs : ∀ i : Nat, i < 16 → s.Pulse (o b) (o' b) i (y (q + 16 * b + i)) := by
    intro i hi
    have := h.at' (b := b) (i := i) (by omega) hi rfl
    rw [hσ] at this
    exact this
  refine ⟨by omega, by omega, by omega, fun j h1 h2 h3 => ?_, ?_, fun j h1 h2 => ?_, ?_, ?_⟩
  · by_cases hj : j < 0
    · exact h.before (b := b) (j := q + 16 * b + j) (by omega) (by omega) (by omega)
    · have := hs j.toNat (by omega)
      simp only [Shape.Pulse] at this
      rw [if_neg (by omega), if_neg (by omega), show ((j.toNat : Nat) : Int) = j by omega] at this
      exact this
  · have := hs (o b) (by omega)
    unfold Shape.Pulse at this
    rw [if_pos (Or.inl rfl)] at this
    exact this
  · have := hs j.toNat (by omega)
    simp only [Shape.Pulse] at this
    rw [if_neg (by omega), if_pos (by omega), show ((j.toNat : Nat) : Int) = j by omega] at this
    exact this
  · have := hs (8 + o' b) (by omega)
    unfold Shape.Pulse at this
    rw [if_pos (Or.inr rfl), show ((8 + o' b : Nat) : Int) = 8 + (o' b : Int) by omega] at this
    exact this
  · have hq := d.quiet; have he := d.edge0
    exact (h.at' (b := b + 1) (i := 0) (j := q + 16 * b + 16) (by omega) (by omega) (by omega)).first (by omega)

/-- The signal with the opposite polarity. -/
def flip : Level → Level
  | .mid => .mid
  | .up => .down
  | .down => .up

theorem neg (h : ShapeFrame s y q σ o o') : ShapeFrame s (fun j => -y j) q (fun b => flip (σ b)) o o' := by
  refine ⟨?_, h.edges, ?_, ?_, ?_⟩
  · intro j h1 h2
    have := h.pre j h1 h2
    exact Shape.quiet_neg (by simpa using this)
  · intro n hn
    have := h.sym n hn
    cases hl : σ (n / 16) <;> rw [hl] at this
    · exact Shape.quiet_neg (by simpa [Shape.Symbol] using this)
    · simpa [Shape.Symbol, flip] using this
    · exact this
  · have := h.start
    cases hl : σ 0 <;> simp [flip] <;> simp [hl] at this
  · show flip (σ 10) = .mid
    rw [h.stop]; rfl

/-- Every pulse, up to the sign: `z` is the signal around it. -/
theorem any (h : ShapeFrame s y q σ o o') (d : s.Det) {b : Nat} (hb : b < 11) (hσ : σ b ≠ .mid) :
    ∃ z, PulseAt s z (o b) (o' b) ∧ (∀ e, (pulseRef y (q + 16 * b + e)).natAbs = (pulseRef z e).natAbs) ∧
      (∀ e, Sgn (σ b) (pulseRef y (q + 16 * b + e)) ↔ 0 < pulseRef z e) ∧ (z = (fun k => y (q + 16 * b + k)) ∨ z = fun k => -y (q + 16 * b + k)) := by
  have hb : b < 10 := by
    by_cases hc : b = 10
    · subst hc; exact absurd h.stop hσ
    · omega
  cases hl : σ b with
  | mid => exact absurd hl hσ
  | up =>
    refine ⟨_, h.pulse d hb hl, fun e => by rw [pulseRef_shift], fun e => ?_, Or.inl rfl⟩
    rw [pulseRef_shift]; exact Iff.rfl
  | down =>
    have hp := h.neg.pulse d hb (by show flip (σ b) = _; rw [hl]; rfl)
    have e1 : ∀ e, pulseRef (fun k => -y (q + 16 * b + k)) e = -pulseRef y (q + 16 * b + e) := by
      intro e
      rw [pulseRef_shift]
      exact pulseRef_neg _ _
    refine ⟨_, hp, fun e => ?_, fun e => ?_, Or.inr rfl⟩
    · rw [e1, Int.natAbs_neg]
    · rw [e1]; show _ < _ ↔ _; omega

theorem mid_zero (h : ShapeFrame s y q σ o o') (d : s.Det) {b : Nat} (hb : b < 11) (hσ : σ b = .mid) {e : Int} (h1 : 11 ≤ e)
    (h2 : e ≤ 21) : pulseRef y (q + 16 * b + e) = 0 :=
  quiet7_zero d (fun _ h1 h2 => h.quietSlot hb hσ (by omega) (by omega))

/-- At the phases 14, 15 and 16 every symbol is recognised. -/
theorem sgn (h : ShapeFrame s y q σ o o') (d : s.Det) {e : Int} (he : e = 14 ∨ e = 15 ∨ e = 16) {b : Nat} (hb : b < 11) :
    Sgn (σ b) (pulseRef y (q + 16 * b + e)) := by
  by_cases hσ : σ b = .mid
  · rw [hσ]; exact h.mid_zero d hb hσ (by omega) (by omega)
  · obtain ⟨z, hp, -, hz, -⟩ := h.any d hb hσ
    rw [hz]
    have h14 := (hp.val14 d).1; have h15 := (hp.val15 d).1; have h16 := (hp.val16 d).1
    rcases he with rfl | rfl | rfl <;> omega

theorem weaker (h : ShapeFrame s y q σ o o') (d : s.Det) {e : Int} (he : e = 11 ∨ e = 12 ∨ e = 18 ∨ e = 19 ∨ e = 20 ∨ e = 21) {b : Nat} (hb : b < 11) :
    (pulseRef y (q + 16 * b + e)).natAbs ≤ (pulseRef y (q + 16 * b + 15)).natAbs ∧
      (σ b ≠ .mid → (pulseRef y (q + 16 * b + e)).natAbs < (pulseRef y (q + 16 * b + 15)).natAbs) := by
  have hlt : σ b ≠ .mid → (pulseRef y (q + 16 * b + e)).natAbs < (pulseRef y (q + 16 * b + 15)).natAbs := by
    intro hl
    obtain ⟨z, hp, hz, -, -⟩ := h.any d hb hl
    rw [hz, hz]
    rcases he with rfl | rfl | rfl | rfl | rfl | rfl
    · exact hp.weak11 d
    · exact hp.weak12 d
    · exact hp.weak18 d
    · exact hp.weak19 d
    · exact hp.weak20 d
    · exact hp.weak21 d
  refine ⟨?_, hlt⟩
  by_cases hl : σ b = .mid
  · rw [h.mid_zero d hb hl (by omega) (by omega), h.mid_zero d hb hl (e := 15) (by omega) (by omega)]
    exact Nat.le_refl _
  · exact Nat.le_of_lt (hlt hl)

/-- The phases 13 and 17 are weaker than two better ones on average. -/
theorem weakerMean (h : ShapeFrame s y q σ o o') (d : s.Det) {e e1 e2 : Int} (he : (e = 13 ∧ e1 = 14 ∧ e2 = 15) ∨ (e = 17 ∧ e1 = 15 ∧ e2 = 16))
    {b : Nat} (hb : b < 11) :
    2 * (pulseRef y (q + 16 * b + e)).natAbs ≤ (pulseRef y (q + 16 * b + e1)).natAbs + (pulseRef y (q + 16 * b + e2)).natAbs ∧
      (σ b ≠ .mid → 2 * (pulseRef y (q + 16 * b + e)).natAbs <
        (pulseRef y (q + 16 * b + e1)).natAbs + (pulseRef y (q + 16 * b + e2)).natAbs) := by
  have hlt : σ b ≠ .mid → 2 * (pulseRef y (q + 16 * b + e)).natAbs <
        (pulseRef y (q + 16 * b + e1)).natAbs + (pulseRef y (q + 16 * b + e2)).natAbs := by
    intro hl
    obtain ⟨z, hp, hz, -, -⟩ := h.any d hb hl
    rw [hz, hz, hz]
    rcases he with ⟨rfl, rfl, rfl⟩ | ⟨rfl, rfl, rfl⟩
    · exact hp.mean13 d
    · exact hp.mean17 d
  refine ⟨?_, hlt⟩
  by_cases hl : σ b = .mid
  · rw [h.mid_zero d hb hl (e := e) (by omega) (by omega)]
    simp
  · exact Nat.le_of_lt (hlt hl)

theorem sum_add {f g : Nat → Nat} {n : Nat} : ((List.range n).map fun i => f i + g i).sum =
    ((List.range n).map f).sum + ((List.range n).map g).sum := by
  induction n with
  | zero => rfl
  | succ n ih => simp only [List.range_succ, List.map_append, List.sum_append_nat, ih, List.map_cons, List.map_nil, List.sum_cons, List.sum_nil]; omega

/-- Whatever the start phase, the frame is decoded to its meaning. -/
theorem decode (h : ShapeFrame s y q σ o o') (d : s.Det) {p : Nat} (h1 : 11 ≤ p) (h2 : p ≤ 14) :
    bestRef .even (fun i => pulseRef y (q + p + i)) = decodeSymbols σ := by
  have idx : ∀ j b : Nat, q + (p : Int) + ((j + 16 * b : Nat) : Int) = q + 16 * b + ((p + j : Nat) : Int) := by
    intro j b; omega
  have hval : ∀ j : Nat, (fun b : Nat => (fun i : Nat => pulseRef y (q + p + i)) (j + 16 * b)) =
      fun b : Nat => pulseRef y (q + 16 * b + ((p + j : Nat) : Int)) := by
    intro j; funext b
    show pulseRef y _ = _
    rw [idx]
  have hgood : ∀ j : Nat, p + j = 14 ∨ p + j = 15 ∨ p + j = 16 → ∀ b < 11,
      Sgn (σ b) ((fun b : Nat => pulseRef y (q + 16 * b + ((p + j : Nat) : Int))) b) := by
    intro j hj b hb
    exact h.sgn d (by omega) hb
  have hs0 : ∀ j : Nat, p + j = 14 ∨ p + j = 15 ∨ p + j = 16 →
      (fun b : Nat => pulseRef y (q + 16 * b + ((p + j : Nat) : Int))) 0 ≠ 0 := by
    intro j hj hc
    exact h.start ((hgood j hj 0 (by decide)).zero.mp hc)
  have hprob : ∀ j : Nat, p + j = 14 ∨ p + j = 15 ∨ p + j = 16 → _ := fun j hj =>
    valRef_prob (s := fun b : Nat => pulseRef y (q + 16 * b + ((p + j : Nat) : Int))) (hs0 j hj)
  have hpos : 0 < (valRef .even (fun b => (fun i : Nat => pulseRef y (q + p + i)) ((15 - p) + 16 * b))).2.2 := by
    rw [hval, hprob (15 - p) (by omega)]
    have := hs0 (15 - p) (by omega)
    have h0 : 0 < ((fun b : Nat => pulseRef y (q + 16 * b + ((p + (15 - p) : Nat) : Int))) 0).natAbs := by
      exact Int.natAbs_pos.mpr this
    have e : (List.range 11).map (fun b : Nat => (pulseRef y (q + 16 * b + ((p + (15 - p) : Nat) : Int))).natAbs) =
      (pulseRef y (q + 16 * (0 : Nat) + ((p + (15 - p) : Nat) : Int))).natAbs ::
        (List.range 10).map (fun b : Nat => (pulseRef y (q + 16 * ((1 + b : Nat) : Int) + ((p + (15 - p) : Nat) : Int))).natAbs) := by
      rfl
    rw [e, List.sum_cons]
    exact Nat.lt_of_lt_of_le h0 (Nat.le_add_right _ _)
  obtain ⟨j, hj, hr, hmax⟩ := bestRef_max (par := .even) (w := fun i : Nat => pulseRef y (q + p + i)) (i := 15 - p) (by omega) hpos
  rw [hr, hval]
  have hle := valRef_prob_le (s := fun b : Nat => pulseRef y (q + 16 * b + ((p + j : Nat) : Int)))
  by_cases hc : p + j = 14 ∨ p + j = 15 ∨ p + j = 16
  · exact valRef_sgn (hgood j hc) h.start
  · have mean : ∀ e1 e2 : Nat, p ≤ e1 → e1 < p + 8 → p ≤ e2 → e2 < p + 8 → (e1 = 14 ∨ e1 = 15 ∨ e1 = 16) → (e2 = 14 ∨ e2 = 15 ∨ e2 = 16) →
        (∀ b : Nat, b < 11 → 2 * (pulseRef y (q + 16 * b + ((p + j : Nat) : Int))).natAbs ≤
            (pulseRef y (q + 16 * b + (e1 : Int))).natAbs + (pulseRef y (q + 16 * b + (e2 : Int))).natAbs ∧
          (σ b ≠ .mid → 2 * (pulseRef y (q + 16 * b + ((p + j : Nat) : Int))).natAbs <
            (pulseRef y (q + 16 * b + (e1 : Int))).natAbs + (pulseRef y (q + 16 * b + (e2 : Int))).natAbs)) → False := by
      intro e1 e2 a1 a2 a3 a4 g1 g2 hm
      have hm1 := hmax (e1 - p) (by omega)
      have hm2 := hmax (e2 - p) (by omega)
      have q1 : p + (e1 - p) = e1 := by omega
      have q2 : p + (e2 - p) = e2 := by omega
      rw [hval, hval, hprob (e1 - p) (by omega), q1] at hm1
      rw [hval, hval, hprob (e2 - p) (by omega), q2] at hm2
      have hlt := sum_lt (f := fun b : Nat => 2 * (pulseRef y (q + 16 * b + ((p + j : Nat) : Int))).natAbs)
        (g := fun b : Nat => (pulseRef y (q + 16 * b + (e1 : Int))).natAbs + (pulseRef y (q + 16 * b + (e2 : Int))).natAbs)
        (fun b hb => (hm b hb).1) ((hm 0 (by decide)).2 h.start)
      rw [sum_add] at hlt
      have h2 : ((List.range 11).map (fun b : Nat => 2 * (pulseRef y (q + 16 * b + ((p + j : Nat) : Int))).natAbs)).sum =
          ((List.range 11).map (fun b : Nat => (pulseRef y (q + 16 * b + ((p + j : Nat) : Int))).natAbs)).sum +
          ((List.range 11).map (fun b : Nat => (pulseRef y (q + 16 * b + ((p + j : Nat) : Int))).natAbs)).sum := by
        rw [← sum_add]
        congr 2
        funext b
        omega
      rw [h2] at hlt
      omega
    exfalso
    by_cases c13 : p + j = 13
    · exact mean 14 15 (by omega) (by omega) (by omega) (by omega) (by omega) (by omega)
        (fun b hb => h.weakerMean d (e1 := 14) (e2 := 15) (Or.inl ⟨by omega, rfl, rfl⟩) hb)
    by_cases c17 : p + j = 17
    · exact mean 15 16 (by omega) (by omega) (by omega) (by omega) (by omega) (by omega)
        (fun b hb => h.weakerMean d (e1 := 15) (e2 := 16) (Or.inr ⟨by omega, rfl, rfl⟩) hb)
    · have hw := fun b (hb : b < 11) => h.weaker d (e := ((p + j : Nat) : Int)) (b := b) (by omega) hb
      exact mean 15 15 (by omega) (by omega) (by omega) (by omega) (by omega) (by omega) (fun b hb => by
        have := hw b hb
        rw [show ((15 : Nat) : Int) = 15 from rfl]
        exact ⟨by omega, fun hσ => by have := this.2 hσ; omega⟩)

/-- Until phase 10 of the start pulse nothing is seen. -/
theorem start_zero (h : ShapeFrame s y q σ o o') (d : s.Det) {k : Int} (hk : k ≤ q + 10)
    (hq : ∀ j, k - 14 ≤ j → j < q → s.Quiet (y j)) : pulseRef y k = 0 := by
  have hc : q + 16 * ((0 : Nat) : Int) = q := by omega
  obtain ⟨z, hp, hz, -, hs⟩ := h.any d (b := 0) (by decide) h.start
  have h0 : pulseRef z (k - q) = 0 := by
    refine hp.zero_early d (by omega) fun j h1 h2 => ?_
    have := hq (q + j) (by omega) (by omega)
    rw [hc] at hs
    rcases hs with rfl | rfl
    · exact this
    · show -s.quiet ≤ -y (q + j) ∧ -y (q + j) ≤ s.quiet
      unfold Shape.Quiet at this; omega
  have := hz (k - q)
  rw [hc, h0, show q + (k - q) = k by omega] at this
  omega

theorem start_seen (h : ShapeFrame s y q σ o o') (d : s.Det) : pulseRef y (q + 14) ≠ 0 := by
  have hc : q + 16 * ((0 : Nat) : Int) = q := by omega
  obtain ⟨z, hp, hz, -, -⟩ := h.any d (b := 0) (by decide) h.start
  have := hz 14
  have := (hp.val14 d).1
  rw [hc] at *
  omega

end ShapeFrame

/-! ## Runs of the UART -/

/-- Waiting for the line to be undisturbed, with the counter at rest. -/
structure AtIdle (u : Uart) : Prop where
  win : ∃ w, u.reg.Win 168 w
  par : u.parity = .even
  st : u.state = .waitIdle
  cnt : u.counter = 0

theorem AtIdle.init : AtIdle (Uart.init .even) := ⟨⟨_, ShiftReg.Win.zero (by decide)⟩, rfl, rfl, rfl⟩

theorem AtIdle.ready {S : Nat} {u : Uart} (h : AtIdle u) : Ready S 0 u :=
  ⟨h.win, h.par, Or.inl ⟨h.st, h.cnt⟩, by rw [h.cnt]; exact Nat.two_pow_pos S⟩

/-- The receiving flags seen before each of the first `n` samples. -/
def flagsOf (S : Nat) (u : Uart) (x : Nat → Int) (n : Nat) : List Bool := (List.range n).map fun i =>
  match feed (Uart.step S false) u x i with
  | .ok r => r.1.receiving
  | .ub => false

/-- A whole frame: the receiver waits, captures 169 samples and delivers the meaning of the symbols. -/
theorem frame_ready {S c : Nat} (hS : 8 ≤ S) {s : Shape} (d : s.Det) {y : Int → Int} {q r : Nat} {σ : Nat → Level} {o o' : Nat → Nat} {u : Uart}
    (h : ShapeFrame s y q σ o o') (hI : ∀ k : Nat, toI16 (detStream y k) = detStream y k) (hu : Ready S c u) (hr : r ≤ q + 10)
    (hq : ∀ j : Int, (r : Int) - 14 ≤ j → j < q → s.Quiet (y j)) (hc : c + (q + 15 - r) < 2 ^ S) :
    ∃ u' p, 11 ≤ p ∧ p ≤ 14 ∧ feed (Uart.step S false) u (fun i => detStream y (r + i)) (q + p - r + 169) =
        .ok (u', List.replicate (q + p - r) none ++ (List.replicate 168 none ++ [some (decodeSymbols σ)])) ∧ AtIdle u' ∧
      flagsOf S u (fun i => detStream y (r + i)) (q + p - r + 169) =
        u.receiving :: List.replicate (q + p - r) false ++ List.replicate 168 true := by
  have hz : ∀ k : Nat, r ≤ k → k ≤ q + 10 → detStream y k = 0 := by
    intro k h1 h2
    exact h.start_zero d (by omega) (fun j hj1 hj2 => hq j (by omega) hj2)
  have h14 : detStream y (q + 14) ≠ 0 := by
    intro hc
    refine h.start_seen d ?_
    rw [← hc]
    exact (detStream_eq (by omega)).symm
  obtain ⟨p, hd1, hd2, hd3, hd4⟩ : ∃ p, 11 ≤ p ∧ p ≤ 14 ∧ detStream y (q + p) ≠ 0 ∧
      ∀ k, r ≤ k → k < q + p → detStream y k = 0 := by
    have search : ∀ n m : Nat, 11 ≤ m → m + n = 14 → (∀ k, r ≤ k → k < q + m → detStream y k = 0) →
        ∃ p, 11 ≤ p ∧ p ≤ 14 ∧ detStream y (q + p) ≠ 0 ∧ ∀ k, r ≤ k → k < q + p → detStream y k = 0 := by
      intro n
      induction n with
      | zero => intro m h1 h2 h3; exact ⟨m, h1, by omega, by rw [show m = 14 by omega]; exact h14, h3⟩
      | succ n ih =>
        intro m h1 h2 h3
        by_cases c : detStream y (q + m) = 0
        · refine ih (m + 1) (by omega) (by omega) fun k k1 k2 => ?_
          by_cases hk : k < q + m
          · exact h3 k k1 hk
          · rw [show k = q + m by omega]; exact c
        · exact ⟨m, h1, by omega, c, h3⟩
    exact search 3 11 (by decide) rfl fun k k1 k2 => hz k k1 (by omega)
  have hwait : ∀ m, m ≤ q + p - r → ∃ u', feed (Uart.step S false) u (fun i => detStream y (r + i)) m =
      .ok (u', List.replicate m none) ∧ Ready S (c + m) u' ∧ (0 < m → u'.state = .waitStart) := by
    intro m hm
    exact hu.run (err := false) (fun i => detStream y (r + i)) m
      (fun i hi => by rw [hI]; exact hd4 _ (by omega) (by omega)) (by omega)
  obtain ⟨u1, r1, rd1, st1⟩ := hwait _ (Nat.le_refl _)
  have st1 := st1 (by omega)
  obtain ⟨w1, hw1⟩ := rd1.win
  have hx : (fun i => (fun i => detStream y (r + i)) (q + p - r + i)) = fun i => detStream y (q + p + i) := by
    funext i
    exact detStream_congr (by omega)
  obtain ⟨u2, w2, r2, hw2, p2, c2, s2⟩ := capture_frame (err := false) hS st1 hw1
    (x := fun i => detStream y (q + p + i)) (by rw [hI]; exact hd3)
  have hlen : u1.parity.len = 168 := by rw [rd1.par]; rfl
  rw [hlen, rd1.par] at r2
  have hbest : bestRef .even (fun i => toI16 (detStream y (q + p + i))) = decodeSymbols σ := by
    rw [← h.decode d hd1 hd2]
    have e : (fun i => toI16 (detStream y (q + p + i))) = fun i : Nat => pulseRef y ((q : Int) + p + i) := by
      funext i
      rw [hI]
      exact detStream_eq (by omega)
    rw [e]
  rw [hbest] at r2
  refine ⟨u2, p, hd1, hd2, feed_add r1 (by rw [hx]; exact r2), ⟨⟨w2, hw2⟩, by rw [p2, rd1.par], s2, c2⟩, ?_⟩
  -- the flags
  unfold flagsOf
  rw [List.range_add, List.map_append, List.map_map]
  have hfirst : (List.range (q + p - r)).map (fun i =>
      match feed (Uart.step S false) u (fun i => detStream y (r + i)) i with
      | .ok r => r.1.receiving
      | .ub => false) = u.receiving :: List.replicate (q + p - r - 1) false := by
    rw [show q + p - r = q + p - r - 1 + 1 by omega, List.range_succ_eq_map, List.map_cons, List.map_map]
    refine congr (congrArg _ ?_) ?_
    · rfl
    · rw [Nat.add_sub_cancel]
      refine List.eq_replicate_iff.mpr ⟨by simp, ?_⟩
      intro b hb
      rw [List.mem_map] at hb
      obtain ⟨i, hi, rfl⟩ := hb
      have hi := List.mem_range.mp hi
      obtain ⟨u', g1, -, g3⟩ := hwait (i + 1) (by omega)
      simp only [Function.comp, Nat.succ_eq_add_one]
      rw [g1]
      show decide (u'.state ≠ .waitStart) = false
      rw [g3 (by omega)]; rfl
  have hsecond : (List.range 169).map ((fun i =>
      match feed (Uart.step S false) u (fun i => detStream y (r + i)) i with
      | .ok r => r.1.receiving
      | .ub => false) ∘ fun i => q + p - r + i) = false :: List.replicate 168 true := by
    rw [show (169 : Nat) = 168 + 1 from rfl, List.range_succ_eq_map, List.map_cons, List.map_map]
    refine congr (congrArg _ ?_) ?_
    · simp only [Function.comp, Nat.add_zero]
      rw [r1]
      show decide (u1.state ≠ .waitStart) = false
      rw [st1]; rfl
    · refine List.eq_replicate_iff.mpr ⟨by simp, ?_⟩
      intro b hb
      rw [List.mem_map] at hb
      obtain ⟨i, hi, rfl⟩ := hb
      have hi := List.mem_range.mp hi
      obtain ⟨u', w', g1, -, -, -, g5, -⟩ := capture (err := false) hS st1 hw1 (x := fun i => detStream y (q + p + i))
        (by rw [hI]; exact hd3) i (by rw [hlen]; exact hi)
      simp only [Function.comp, Nat.succ_eq_add_one]
      rw [feed_add r1 (by rw [hx]; exact g1)]
      show decide (u'.state ≠ .waitStart) = true
      rw [g5]
      split <;> rfl
  rw [hfirst, hsecond]
  have hm : q + p - r = q + p - r - 1 + 1 := by omega
  generalize q + p - r - 1 = m at hm ⊢
  generalize List.replicate 168 true = l
  rw [hm, List.replicate_succ']
  rw [List.cons_append, List.cons_append, List.append_assoc, List.singleton_append]

/-- The same after a frame. -/
theorem frame_exact {S : Nat} (hS : 8 ≤ S) {s : Shape} (d : s.Det) {y : Int → Int} {q r : Nat} {σ : Nat → Level} {o o' : Nat → Nat} {u : Uart}
    (h : ShapeFrame s y q σ o o') (hI : ∀ k : Nat, toI16 (detStream y k) = detStream y k) (hu : AtIdle u) (hr : r ≤ q + 10)
    (hq : ∀ j : Int, (r : Int) - 14 ≤ j → j < q → s.Quiet (y j)) (hc : q + 15 - r < 2 ^ S) :
    ∃ u' p, 11 ≤ p ∧ p ≤ 14 ∧ feed (Uart.step S false) u (fun i => detStream y (r + i)) (q + p - r + 169) =
        .ok (u', List.replicate (q + p - r) none ++ (List.replicate 168 none ++ [some (decodeSymbols σ)])) ∧ AtIdle u' ∧
      flagsOf S u (fun i => detStream y (r + i)) (q + p - r + 169) =
        true :: List.replicate (q + p - r) false ++ List.replicate 168 true := by
  obtain ⟨u', p, a1, a2, a3, a4, a5⟩ := frame_ready hS d h hI hu.ready hr hq (by omega)
  refine ⟨u', p, a1, a2, a3, a4, ?_⟩
  rw [a5]
  have : u.receiving = true := by
    show decide (u.state ≠ .waitStart) = true
    rw [hu.st]; rfl
  rw [this]

end P1P2
