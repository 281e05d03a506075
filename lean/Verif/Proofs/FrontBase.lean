import Verif.Proofs.FrontDc
/-!
# The baseline of the DC blocker during frames
-/
namespace P1P2

/-- Polarity of the next pulse after `k` symbols. -/
def polAt (σ : Nat → Level) (p : Bool) : Nat → Bool
  | 0 => p
  | k + 1 => if σ k = .mid then polAt σ p k else !polAt σ p k

set_option maxRecDepth 8000 in
theorem polAt_symbol (p : Bool) (b : UInt8) : ∀ k, k < 10 →
    symbolsOf p b k = .mid ∨ symbolsOf p b k = (if polAt (symbolsOf p b) p k then .up else .down) := by
  revert b
  apply forall_u8
  cases p
  · decide +kernel
  · decide +kernel

set_option maxRecDepth 8000 in
theorem polAt_end (p : Bool) (b : UInt8) : polAt (symbolsOf p b) p 10 = p := by
  revert b
  apply forall_u8
  cases p
  · decide +kernel
  · decide +kernel

/-- A frame keeps the readiness for pulses of its start polarity. -/
theorem base_frame {A : Int} (hA : 0 ≤ A) {x : Nat → Int} {r : Nat} {p : Bool} {b : UInt8} {d e : Nat → Nat}
    (ho : ∀ i, OffsOk (d i) (e i)) (hx : ∀ j, j < 174 → PreSymbol A (symbolsOf p b (j / 16)) (d (j / 16)) (e (j / 16)) (j % 16) (x (r + j))) (h : ReadyFor A p (dcB x r)) :
    (∀ i, i ≤ 174 → BaseOk A (dcB x (r + i))) ∧ ReadyFor A p (dcB x (r + 174)) := by
  have key : ∀ k, k ≤ 10 → (∀ i, i ≤ 16 * k → BaseOk A (dcB x (r + i))) ∧
      ReadyFor A (polAt (symbolsOf p b) p k) (dcB x (r + 16 * k)) := by
    intro k
    induction k with
    | zero =>
      intro _
      refine ⟨fun i hi => ?_, h⟩
      rw [show i = 0 by omega]
      exact ReadyFor.ok hA h
    | succ k ih =>
      intro hk
      obtain ⟨i1, i2⟩ := ih (by omega)
      obtain ⟨s1, s2, s3⟩ := base_symbol hA (ho k) (r := r + 16 * k) (n := 16) (l := symbolsOf p b k) (Nat.le_refl _) (fun i hi => by
        have := hx (16 * k + i) (by omega)
        rw [show (16 * k + i) / 16 = k by omega, show (16 * k + i) % 16 = i by omega, ← Nat.add_assoc] at this
        exact this) (polAt_symbol p b k (by omega)) i2
      constructor
      · intro i hi
        by_cases h' : i ≤ 16 * k
        · exact i1 i h'
        · have := s1 (i - 16 * k) (by omega)
          rwa [show r + 16 * k + (i - 16 * k) = r + i by omega] at this
      · rw [show r + 16 * (k + 1) = r + 16 * k + 16 by omega]
        unfold polAt
        split
        · exact s2 (by assumption)
        · exact s3 (by assumption) rfl
  obtain ⟨k1, k2⟩ := key 10 (Nat.le_refl _)
  rw [polAt_end] at k2
  obtain ⟨s1, s2, -⟩ := base_symbol hA (ho 10) (r := r + 16 * 10) (n := 14) (l := symbolsOf p b 10) (by decide) (fun i hi => by
    have := hx (16 * 10 + i) (by omega)
    rw [show (16 * 10 + i) / 16 = 10 by omega, show (16 * 10 + i) % 16 = i by omega, ← Nat.add_assoc] at this
    exact this) (Or.inl (symbolsOf_stop p b)) k2
  refine ⟨fun i hi => ?_, s2 (symbolsOf_stop p b)⟩
  by_cases h' : i ≤ 160
  · exact k1 i h'
  · have := s1 (i - 160) (by omega)
    rwa [show r + 16 * 10 + (i - 160) = r + i by omega] at this

/-- Decay over `n` samples. -/
def decayN : Nat → Int → Int
  | 0, β => β
  | n + 1, β => decay (decayN n β)

theorem decayN_gap : decayN 167 22528 ≤ 6656 := by decide +kernel
theorem decayN_gap' : decayN 167 6656 ≤ 6656 := by decide +kernel

theorem base_decay {A : Int} (hA : 0 ≤ A) {x : Nat → Int} {lo hi : Int} {r : Nat} : ∀ n,
    (∀ k, r ≤ k → k < r + n → -66 ≤ x k ∧ x k ≤ 66) → BaseIn A lo hi (dcB x r) →
      BaseIn A (decayN n lo) (decayN n hi) (dcB x (r + n)) := by
  intro n
  induction n with
  | zero => intro _ h; exact h
  | succ n ih =>
    intro hx h
    exact (ih (fun k h1 h2 => hx k h1 (by omega)) h).quiet hA (hx (r + n) (by omega) (by omega)) (dcB_succ x (r + n))

/-- A long gap makes ready for both polarities. -/
theorem base_gap {A : Int} (hA : 0 ≤ A) {x : Nat → Int} {r n : Nat} (hn : 167 ≤ n) {p : Bool}
    (hx : ∀ k, r ≤ k → k < r + n → -66 ≤ x k ∧ x k ≤ 66) (h : ReadyFor A p (dcB x r)) (p' : Bool) : ReadyFor A p' (dcB x (r + n)) := by
  have h6 : BaseIn A 6656 6656 (dcB x (r + 167)) := by
    cases p
    · exact (base_decay hA 167 (fun k h1 h2 => hx k h1 (by omega)) h).mono hA decayN_gap' decayN_gap
    · exact (base_decay hA 167 (fun k h1 h2 => hx k h1 (by omega)) h).mono hA decayN_gap decayN_gap'
  have := BaseIn.quiet_n hA (by decide) (by decide) (n - 167) (fun k h1 h2 => hx k (by omega) (by omega)) h6
  rw [show r + 167 + (n - 167) = r + n by omega] at this
  cases p'
  · exact this.mono hA (by decide) (by decide)
  · exact this.mono hA (by decide) (by decide)

theorem ready_quiet {A : Int} (hA : 0 ≤ A) {x : Nat → Int} {r : Nat} {p : Bool} (n : Nat)
    (hx : ∀ k, r ≤ k → k < r + n → -66 ≤ x k ∧ x k ≤ 66) (h : ReadyFor A p (dcB x r)) : ReadyFor A p (dcB x (r + n)) := by
  cases p
  · exact BaseIn.quiet_n hA (by decide) (by decide) n hx h
  · exact BaseIn.quiet_n hA (by decide) (by decide) n hx h

/-- The start polarity changes only after long gaps. -/
def PolOk : Bool → List (Nat × Bool × UInt8) → Prop
  | _, [] => True
  | p, (g, q, _) :: bs => (q = p ∨ 167 ≤ g) ∧ PolOk q bs

theorem base_frames {A : Int} (hA : 0 ≤ A) {x : Nat → Int} : ∀ (bs : List (Nat × Bool × UInt8)) {t : Nat} {p : Bool}, PolOk p bs →
    PreCarries A x t (byteFrames bs) → ReadyFor A p (dcB x t) → ∀ k, t ≤ k → BaseOk A (dcB x k) := by
  intro bs
  induction bs with
  | nil =>
    intro t p _ hc h k hk
    have := ready_quiet hA (k - t) (fun k h1 _ => hc k h1) h
    rw [show t + (k - t) = k by omega] at this
    exact this.ok hA
  | cons b bs ih =>
    obtain ⟨g, q, b⟩ := b
    intro t p ⟨hp, hp2⟩ ⟨hc1, ⟨d, e, ho, hc2⟩, hc3⟩ h k hk
    have h1 : ReadyFor A q (dcB x (t + g)) := by
      rcases hp with rfl | hp
      · exact ready_quiet hA g hc1 h
      · exact base_gap hA hp hc1 h q
    by_cases h' : k ≤ t + g
    · have := ready_quiet hA (k - t) (fun k h1 h2 => hc1 k h1 (by omega)) h
      rw [show t + (k - t) = k by omega] at this
      exact this.ok hA
    · obtain ⟨f1, f2⟩ := base_frame hA ho hc2 h1
      by_cases h2 : k ≤ t + g + 174
      · have := f1 (k - (t + g)) (by omega)
        rwa [show t + g + (k - (t + g)) = k by omega] at this
      · exact ih hp2 hc3 f2 k (by omega)

end P1P2
