import Verif.Proofs.RawWords
/-!
# The signal chain up to the level detector, after any history
-/
namespace P1P2

/-! ## Shorter first gap -/

/-- The first gap shortened by `n`. -/
def cut {α : Type} (n : Nat) : List (Nat × α) → List (Nat × α)
  | [] => []
  | (g, a) :: l => (g - n, a) :: l

/-- The first gap is at least `n`. -/
def GapFrom {α : Type} (n : Nat) (fs : List (Nat × α)) : Prop := ∀ f ∈ fs.head?, n ≤ f.1

theorem cut_byteFrames (n : Nat) (bs : List (Nat × Bool × UInt8)) : cut n (byteFrames bs) = byteFrames (cut n bs) := by
  cases bs with
  | nil => rfl
  | cons b bs => rfl

theorem GapFrom.frames {n : Nat} {bs : List (Nat × Bool × UInt8)} (h : GapFrom n bs) : GapFrom n (byteFrames bs) := by
  cases bs with
  | nil => intro f hf; cases hf
  | cons b bs =>
    intro f hf
    have := h b rfl
    obtain rfl : _ = f := by simpa [byteFrames] using hf
    exact this

theorem GapFrom.le {α : Type} {n m : Nat} {fs : List (Nat × α)} (h : GapFrom n fs) (hm : m ≤ n) : GapFrom m fs :=
  fun f hf => Nat.le_trans hm (h f hf)

theorem GapFrom.cut {α : Type} {n m : Nat} {fs : List (Nat × α)} (h : GapFrom n fs) : GapFrom (n - m) (cut m fs) := by
  cases fs with
  | nil => intro f hf; cases hf
  | cons f fs =>
    obtain ⟨g, a⟩ := f
    intro f hf
    have : n ≤ g := h _ rfl
    obtain rfl : _ = f := by simpa [P1P2.cut] using hf
    show n - m ≤ g - m
    omega

theorem cut_cut {α : Type} (n m : Nat) (fs : List (Nat × α)) : cut m (cut n fs) = cut (n + m) fs := by
  cases fs with
  | nil => rfl
  | cons f fs =>
    obtain ⟨g, a⟩ := f
    show (g - n - m, a) :: fs = (g - (n + m), a) :: fs
    rw [Nat.sub_sub]

theorem RawCarries.cut {L : Nat → Level} {t n : Nat} {fs : List (Nat × (Nat → Level))} (h : RawCarries L t fs) (hg : GapFrom n fs) :
    RawCarries L (t + n) (P1P2.cut n fs) := by
  cases fs with
  | nil => exact fun k hk => h k (by omega)
  | cons f fs =>
    obtain ⟨g, σ⟩ := f
    have hn : n ≤ g := hg _ rfl
    obtain ⟨c1, ⟨δ, ε, ho, c2⟩, c3⟩ := h
    refine ⟨fun k k1 k2 => c1 k (by omega) (by omega), ⟨δ, ε, ho, fun j hj => ?_⟩, ?_⟩
    · rw [show t + n + (g - n) + j = t + g + j by omega]; exact c2 j hj
    · rw [show t + n + (g - n) + 348 = t + g + 348 by omega]; exact c3

theorem PreCarries.cut {A : Int} {x : Nat → Int} {t n : Nat} {fs : List (Nat × (Nat → Level))} (h : PreCarries A x t fs) (hg : GapFrom n fs) :
    PreCarries A x (t + n) (P1P2.cut n fs) := by
  cases fs with
  | nil => exact fun k hk => h k (by omega)
  | cons f fs =>
    obtain ⟨g, σ⟩ := f
    have hn : n ≤ g := hg _ rfl
    obtain ⟨c1, ⟨δ, ε, ho, c2⟩, c3⟩ := h
    refine ⟨fun k k1 k2 => c1 k (by omega) (by omega), ⟨δ, ε, ho, fun j hj => ?_⟩, ?_⟩
    · rw [show t + n + (g - n) + j = t + g + j by omega]; exact c2 j hj
    · rw [show t + n + (g - n) + 174 = t + g + 174 by omega]; exact c3

theorem Shape.Carries.cut {s : Shape} {x : Nat → Int} {t n : Nat} {fs : List (Nat × (Nat → Level))} (h : s.Carries x t fs) (hg : GapFrom n fs) :
    s.Carries x (t + n) (P1P2.cut n fs) := by
  cases fs with
  | nil => exact fun k hk => h k (by omega)
  | cons f fs =>
    obtain ⟨g, σ⟩ := f
    have hn : n ≤ g := hg _ rfl
    obtain ⟨c1, ⟨δ, ε, ho, c2⟩, c3⟩ := h
    refine ⟨fun k k1 k2 => c1 k (by omega) (by omega), ⟨δ, ε, ho, fun j hj => ?_⟩, ?_⟩
    · rw [show t + n + (g - n) + j = t + g + j by omega]; exact c2 j hj
    · rw [show t + n + (g - n) + 174 = t + g + 174 by omega]; exact c3

theorem PreCarries.quiet {A : Int} {x : Nat → Int} {t n : Nat} {fs : List (Nat × (Nat → Level))} (h : PreCarries A x t fs) (hg : GapFrom n fs)
    {k : Nat} (h1 : t ≤ k) (h2 : k < t + n) : -66 ≤ x k ∧ x k ≤ 66 := by
  cases fs with
  | nil => exact h k h1
  | cons f fs =>
    obtain ⟨g, σ⟩ := f
    have hn : n ≤ g := hg _ rfl
    exact h.1 k h1 (by omega)

theorem Shape.Carries.quiet {s : Shape} {x : Nat → Int} {t n : Nat} {fs : List (Nat × (Nat → Level))} (h : s.Carries x t fs) (hg : GapFrom n fs)
    {k : Nat} (h1 : t ≤ k) (h2 : k < t + n) : s.Quiet (x k) := by
  cases fs with
  | nil => exact h k h1
  | cons f fs =>
    obtain ⟨g, σ⟩ := f
    have hn : n ≤ g := hg _ rfl
    exact h.1 k h1 (by omega)

/-- The same line, `b` codes later. -/
theorem RawCarries.shift {L : Nat → Level} (b : Nat) : ∀ {fs : List (Nat × (Nat → Level))} {t : Nat}, RawCarries L t fs →
    RawCarries (fun k => L (k - b)) (t + b) fs := by
  intro fs
  induction fs with
  | nil => intro t h k hk; exact h (k - b) (by omega)
  | cons f fs ih =>
    obtain ⟨g, σ⟩ := f
    intro t ⟨c1, ⟨δ, ε, ho, c2⟩, c3⟩
    refine ⟨fun k k1 k2 => c1 (k - b) (by omega) (by omega), ⟨δ, ε, ho, fun j hj => ?_⟩, ?_⟩
    · show L (t + b + g + j - b) = _
      rw [show t + b + g + j - b = t + g + j by omega]; exact c2 j hj
    · rw [show t + b + g + 348 = t + g + 348 + b by omega]; exact ih c3

/-! ## The DC blocker -/

theorem dcB_bound {x : Nat → Int} (hx : ∀ k, -12978 ≤ x k ∧ x k ≤ 12978) : ∀ n, -3322496 ≤ dcB x n ∧ dcB x n ≤ 3322496 := by
  intro n
  induction n with
  | zero => rw [dcB_zero]; decide
  | succ n ih =>
    have := dcB_succ x n
    have := hx n
    omega

theorem decayN_ok : decayN 560 1777400 ≤ 23040 := by decide +kernel
theorem decayN_ready : decayN 740 1777400 ≤ 6656 := by decide +kernel

/-- After 740 undisturbed samples the DC blocker is ready again, whatever it has seen before; after 560 it is usable. -/
theorem heal_base {A : Int} (hA : 1911 ≤ A) {x : Nat → Int} (hx : ∀ k, -12978 ≤ x k ∧ x k ≤ 12978) {T : Nat} {bs : List (Nat × Bool × UInt8)}
    (hc : PreCarries A x T (byteFrames bs)) (hg : GapFrom 740 bs) (hp : PolOk true (cut 740 bs)) :
    ∀ k, T + 560 ≤ k → BaseOk A (dcB x k) := by
  have hA0 : 0 ≤ A := by omega
  have hq : ∀ k, T ≤ k → k < T + 740 → -66 ≤ x k ∧ x k ≤ 66 := fun k k1 k2 => hc.quiet hg.frames k1 k2
  have h0 : BaseIn A 1777400 1777400 (dcB x T) := by
    have := dcB_bound hx T
    unfold BaseIn
    omega
  have h1 := (base_decay hA0 560 (fun k k1 k2 => hq k k1 (by omega)) h0).mono hA0 decayN_ok decayN_ok
  have h2 := (base_decay hA0 740 (fun k k1 k2 => hq k k1 (by omega)) h0).mono hA0 decayN_ready decayN_ready
  intro k hk
  by_cases h : k ≤ T + 740
  · have := BaseIn.quiet_n hA0 (by decide) (by decide) (k - (T + 560)) (fun k k1 k2 => hq k (by omega) (by omega)) h1
    rw [show T + 560 + (k - (T + 560)) = k by omega] at this
    exact this
  · have h3 := hc.cut hg.frames
    rw [cut_byteFrames] at h3
    exact base_frames hA0 _ hp h3 (p := true) (h2.mono hA0 (by decide) (by decide)) k (by omega)

/-- Behind the level detector, the line carries the frames. -/
theorem heal_shape {a : Int} (h1 : 49 ≤ a) (h2 : a ≤ 88) {L : Nat → Level} {v : Nat → Int} (hv : ∀ k, -9984 ≤ v k ∧ v k ≤ 9984) {b : Nat}
    (hm : MvFrom a L v b) {bs : List (Nat × Bool × UInt8)} (hc : RawCarries L b (byteFrames bs)) (hg : GapFrom 1920 bs)
    (hp : PolOk true (cut 740 (halve (b + 9) (cut 9 bs)))) :
    (frontShape (39 * a)).out.Carries (levelOut (dcRef (decimated v))) ((b + 9) / 2 + 563) (byteFrames (cut 561 (halve (b + 9) (cut 9 bs)))) := by
  have hA : 0 ≤ 39 * a := by omega
  have hL : ∀ k, b + 9 ≤ k + 9 → k < b + 9 → L k = .mid := by
    intro k k1 k2
    have := hg.frames
    revert hc this
    generalize byteFrames bs = fs
    intro hc hg
    cases fs with
    | nil => exact hc k (by omega)
    | cons f fs =>
      obtain ⟨g, σ⟩ := f
      have hn : 1920 ≤ g := hg _ rfl
      exact hc.1 k (by omega) (by omega)
  have hc9 := hc.cut (hg.frames.le (m := 9) (by decide))
  rw [cut_byteFrames] at hc9
  have hpre := mv_carries hm (by omega) _ hc9 (Nat.le_refl _) hL
  rw [halve_byteFrames] at hpre
  have hgap : GapFrom 955 (halve (b + 9) (cut 9 bs)) := by
    cases bs with
    | nil => intro f hf; cases hf
    | cons f bs =>
      obtain ⟨g, c⟩ := f
      have : 1920 ≤ g := hg _ rfl
      intro f hf
      obtain rfl : _ = f := by simpa [cut, halve] using hf
      show 955 ≤ (b + 9 + (g - 9)) / 2 - (b + 9) / 2
      omega
  generalize halve (b + 9) (cut 9 bs) = hs at *
  have hbase := heal_base (by omega) (fun n => fir_bound hv (2 * n)) hpre (hgap.le (by decide)) hp
  have h560 := hpre.cut (hgap.frames.le (m := 560) (by decide))
  have hcar := front_carries hA _ h560 hbase
  have hcar1 := hcar.cut (n := 1) ((hgap.frames.cut (m := 560)).le (by decide))
  rw [cut_cut, cut_byteFrames] at hcar1
  refine level_carries (frontShape_tol h1 h2) hcar1 ?_
  show levelAt _ ((b + 9) / 2 + 562) = _
  exact (level_gap (frontShape_tol h1 h2) (hcar.quiet (hgap.frames.cut (m := 560)) (k := (b + 9) / 2 + 562) (by omega) (by omega))).1

end P1P2
